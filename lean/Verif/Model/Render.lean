import Verif.Model.Scene
import Verif.Model.Sources

/-!
# Model of the camera, the shading and the renderers

`tinygfx/g3d/world_objects.py` lines 385-399, 499-537; `tinygfx/g3d/materials/gooch.py`; `tinygfx/g3d/renderers.py`. Arrays of rays,
hits and pixels are lists or functions of the index, one column (ray, pixel) at a time.

Not modelled: the calls of matplotlib in `draw`; NaN (a light at the point that is shaded); images without pixels.
-/

namespace PyRayT

open Classical Matrix

/-! ### the camera -/

/-- `world_objects.py` lines 499-511 `OrthographicCamera`. Simplification: the number of columns is a natural number (a negative one
raises in `np.linspace`). -/
structure Camera where
  hPixels : ℕ
  hWidth : ℝ
  aspect : ℝ
  world : Mat4

/-- Python's `int()` of a float: truncation towards zero -/
noncomputable def truncInt (x : ℝ) : ℤ := if 0 ≤ x then ⌊x⌋ else ⌈x⌉

/-- line 510 -/
def Camera.vWidth (c : Camera) : ℝ := c.aspect * c.hWidth

/-- line 511 -/
noncomputable def Camera.vPixels (c : Camera) : ℤ := truncInt (c.aspect * c.hPixels)

/-- lines 527-537 `_local_ray_generation`: row `i`, column `j` of the two grids made by `np.meshgrid` -/
noncomputable def Camera.localRay (c : Camera) (i j : ℕ) : Ray :=
  ⟨point 0 (linspace (c.hWidth / 2) (-c.hWidth / 2) c.hPixels j) (linspace (c.vWidth / 2) (-c.vWidth / 2) c.vPixels.toNat i), vector 1 0 0⟩

/-- lines 532-534: `reshape(-1)` puts the rows one after the other -/
noncomputable def Camera.localRays (c : Camera) : List Ray :=
  (List.range c.vPixels.toNat).flatMap fun i => (List.range c.hPixels).map fun j => c.localRay i j

/-- lines 519-525 `generate_rays`; `none`: `np.linspace` raises a ValueError for a negative number of rows -/
noncomputable def Camera.generateRays (c : Camera) : Option (List Ray) :=
  if c.vPixels < 0 then none
  else some (c.localRays.map fun r => ⟨c.world *ᵥ r.o, normalize (c.world *ᵥ r.d)⟩)

/-! ### shading -/

/-- `gooch.py` lines 21-28 `GoochMaterial`; colours are RGBA vectors (`color.py`). -/
structure Gooch where
  base : Vec4
  warm : Vec4
  cool : Vec4
  alpha : ℝ
  beta : ℝ

/-- line 36 -/
def Gooch.warmShade (g : Gooch) : Vec4 := fun i => (1 - g.alpha) * g.warm i + g.alpha * g.base i

/-- line 37 -/
def Gooch.coolShade (g : Gooch) : Vec4 := fun i => (1 - g.beta) * g.cool i + g.beta * g.base i

/-- lines 62-64: the pixel value for a mixture ratio -/
def Gooch.mix (g : Gooch) (m : ℝ) : Vec4 := fun i => g.warmShade i * m + g.coolShade i * (1 - m)

/-- lines 30-65 `shade` with one light given as a 1-D array (lines 43-46), one column -/
noncomputable def Gooch.shade (g : Gooch) (pos normal light : Vec4) : Vec4 :=
  let l : Fin 3 → ℝ := fun i => light i.castSucc - pos i.castSucc
  let dot := l 0 / norm3 l * normal 0 + l 1 / norm3 l * normal 1 + l 2 / norm3 l * normal 2
  g.mix (0.5 * (1 + dot))

/-- `color.py` lines 4-15, 50-56: `RGBAColor(r, g, b)` and the named colours -/
def rgb (r g b : ℝ) : Vec4 := ![r, g, b, 1]

/-- `gooch.py` lines 68-71 `_blue_yellow_gooch` (with the defaults of lines 27-28) -/
noncomputable def blueYellowGooch (base : Vec4) : Gooch := ⟨base, rgb 1 0.5 0, rgb 0 0 1, 0.3, 0.3⟩

/-- `gooch.py` lines 74-82: the predefined materials -/
noncomputable def goochPresets : List Gooch :=
  [blueYellowGooch (rgb 1 1 1), blueYellowGooch (rgb 1 0 0), blueYellowGooch (rgb 0 1 0), ⟨rgb 0 0 1, rgb 1 1 0, rgb 0 0 1, 0.2, 0.3⟩,
    blueYellowGooch (rgb 1 1 0), blueYellowGooch (rgb 1 0.5 0), blueYellowGooch (rgb 0 0 0)]

/-- `np.ndarray` with three axes: the shape and the entries (meaningful inside the shape) -/
structure Arr3 where
  d0 : ℕ
  d1 : ℕ
  d2 : ℕ
  at' : ℕ → ℕ → ℕ → ℝ

/-- numpy's broadcasting rule for one axis -/
def broadcastDim (a b : ℕ) : Option ℕ := if a = b then some a else if a = 1 then some b else if b = 1 then some a else none

/-- the index used along an axis that may be stretched -/
def stretched (d i : ℕ) : ℕ := if d = 1 then 0 else i

/-- an element-wise operation of two arrays; `none`: ValueError (shapes that cannot be broadcast) -/
def Arr3.zip (f : ℝ → ℝ → ℝ) (a b : Arr3) : Option Arr3 :=
  match broadcastDim a.d0 b.d0, broadcastDim a.d1 b.d1, broadcastDim a.d2 b.d2 with
  | some d0, some d1, some d2 => some ⟨d0, d1, d2, fun i j k =>
      f (a.at' (stretched a.d0 i) (stretched a.d1 j) (stretched a.d2 k)) (b.at' (stretched b.d0 i) (stretched b.d1 j) (stretched b.d2 k))⟩
  | _, _, _ => none

/-- `np.linalg.norm(a, axis=1)`, an array with two axes; as an operand of an operation with an array with three axes numpy treats it as an
array with a first axis of length 1 -/
noncomputable def Arr3.norm1 (a : Arr3) : Arr3 := ⟨1, a.d0, a.d2, fun _ i k => √(∑ j ∈ Finset.range a.d1, a.at' i j k ^ 2)⟩

/-- `gooch.py` lines 30-65 `shade` with the lights given as the columns of a 4 x `m` array (lines 48-51), for `n` positions and
normals; `none`: ValueError. (The result of `/=` must have the shape of its left side. `np.mean` over an axis of length 0 does not
occur.) -/
noncomputable def Gooch.shadeMany (g : Gooch) (m : ℕ) (lights : ℕ → Vec4) (n : ℕ) (pos normal : ℕ → Vec4) : Option (ℕ → Vec4) := do
  -- `light_positions[:3, :, np.newaxis] - np.tile(rays[0, :3], (light_positions.shape[-1], 1, 1))`
  let l : Arr3 := ⟨3, m, 1, fun i j _ => lights j (Fin.ofNat 4 i)⟩
  let r : Arr3 := ⟨m, 3, n, fun _ j k => pos k (Fin.ofNat 4 j)⟩
  let v ← l.zip (· - ·) r
  -- `light_vectors /= np.linalg.norm(light_vectors, axis=1)`
  let w ← v.zip (· / ·) v.norm1
  if w.d0 = v.d0 ∧ w.d1 = v.d1 ∧ w.d2 = v.d2 then
    -- `np.einsum("ijk,jk->ik", light_vectors, normals)`: the axes `j` must have the same length
    if w.d1 = 3 then
      some fun k => g.mix ((∑ i ∈ Finset.range w.d0, 0.5 * (1 + ∑ j ∈ Finset.range 3, w.at' i j k * normal k (Fin.ofNat 4 j))) / w.d0)
    else none
  else none

/-! ### the renderers -/

/-- What a renderer uses of a shape: `intersect` for one ray, and `surface_ids` with the `shade` of each surface (for the light of the
renderer) as a function of ray and distance. -/
structure Shape where
  intersect : Ray → List EReal × List ℤ
  surfaces : List (ℤ × (Ray → ℝ → Vec4))

/-- `world_objects.py` lines 385-399 `TracerSurface.shade`, one column -/
noncomputable def shadeSurface (h : Heap) (x : ℕ) (g : Gooch) (light : Vec4) (ray : Ray) (d : ℝ) : Vec4 :=
  g.shade (ray.at d) (surfaceNormal h x (ray.at d)) light

/-- the object at an address as a shape; `look` is the rendering material of each surface (`gooch.Material`, or the base material of a
traceable one, `pyrayt/materials.py` lines 22-25) -/
noncomputable def shapeOf (argsort : List EReal → List ℕ) (depth : ℕ) (h : Heap) (look : ℕ → Gooch) (light : Vec4) (a : ℕ) : Shape :=
  { intersect := intersectObj argsort depth h a
    surfaces := (surfaceIds depth h a).map fun e => ((e.1 : ℤ), shadeSurface h e.2 (look e.2) light) }

/-- `renderers.py` lines 81-85 and 197-201: the index is found among the masked hits, the value is taken from the unmasked ones -/
noncomputable def nearestRendered (h : List EReal × List ℤ) : EReal × ℤ :=
  let k := argmin (h.1.map positiveHit)
  (h.1.getD k ⊤, h.2.getD k (-1))

/-- lines 74-88 and 190-204: one column of `hit_distances` and `hit_surfaces` -/
noncomputable def renderHit (shapes : List Shape) (ray : Ray) : EReal × ℤ :=
  shapes.foldl (fun acc c => let n := nearestRendered (c.intersect ray); if n.1 < acc.1 then n else acc) (⊤, -1)

/-- an image of RGBA pixels; row 0 is the top -/
structure Image where
  rows : ℕ
  cols : ℕ
  px : ℕ → ℕ → Vec4

/-- lines 100-101: `np.diff` along both axes, with -1 in front -/
def edgeDiff (hit : ℕ → ℕ → ℤ) (i j : ℕ) : ℤ :=
  |hit i j - (if j = 0 then -1 else hit i (j - 1))| + |hit i j - (if i = 0 then -1 else hit (i - 1) j)|

/-- one iteration of `ndimage.binary_dilation` with the full 3 x 3 structure on an image of `v` rows and `h` columns -/
def dilate (v h : ℕ) (f : ℕ → ℕ → Prop) (i j : ℕ) : Prop :=
  ∃ i' j', i' < v ∧ j' < h ∧ i' ≤ i + 1 ∧ i ≤ i' + 1 ∧ j' ≤ j + 1 ∧ j ≤ j' + 1 ∧ f i' j'

/-- lines 104-108: one iteration, or more for large images -/
def edgeMask (v h : ℕ) (hit : ℕ → ℕ → ℤ) : ℕ → ℕ → Prop :=
  (dilate v h)^[max 1 (max v h / 300)] fun i j => edgeDiff hit i j ≠ 0

/-- lines 96-116 `EdgeRender._st_interact`; `none`: `reshape(0, -1)` raises a ValueError -/
noncomputable def edgeImage (c : Camera) (hits : List (EReal × ℤ)) : Option Image :=
  let v := c.vPixels.toNat
  let h := c.hPixels
  if v = 0 then none
  else some ⟨v, h, fun i j => if edgeMask v h (fun i j => (hits.getD (i * h + j) (⊤, -1)).2) i j then ![0, 0, 0, 1] else ![1, 1, 1, 0]⟩

/-- lines 214-224: the loop over the surfaces, one column of the canvas -/
noncomputable def shadePass (lut : List (ℤ × (Ray → ℝ → Vec4))) (ray : Ray) (hit : EReal × ℤ) : Vec4 :=
  lut.foldl (fun px e => if hit.2 = e.1 then e.2 ray hit.1.toReal else px) 0

/-- lines 212-238 `ShadedRenderer._st_interact` with the table of lines 148-152 -/
noncomputable def shadedImage (c : Camera) (shapes : List Shape) (rays : List Ray) (hits : List (EReal × ℤ)) : Image :=
  ⟨c.vPixels.toNat, c.hPixels, fun i j =>
    shadePass (shapes.flatMap (·.surfaces)) (rays.getD (i * c.hPixels + j) ⟨0, 0⟩) (hits.getD (i * c.hPixels + j) (⊤, -1))⟩

/-- The attributes of an `EdgeRender` (`shaded = false`) or a `ShadedRenderer` (lines 22-36, 138-160). -/
structure Renderer where
  shaded : Bool
  camera : Camera
  shapes : List Shape
  phase : Phase
  complete : Bool
  results : Option Image
  rays : List Ray
  hits : List (EReal × ℤ)

/-- lines 38-41, 162-165 `reset` -/
def Renderer.reset (r : Renderer) : Renderer := { r with complete := false, results := none, phase := .idle }

/-- lines 63-70, 179-186 `_st_initialize`; `none` is an exception -/
noncomputable def Renderer.stInitialize (r : Renderer) : Option Renderer :=
  match r.camera.generateRays with
  | none => none
  | some rays => some { r.reset with rays, phase := .propagate }

/-- lines 72-94, 188-210 `_st_propagate` -/
noncomputable def Renderer.stPropagate (r : Renderer) : Renderer :=
  { r with hits := r.rays.map (renderHit r.shapes), phase := .interact }

/-- lines 96-116, 212-238 `_st_interact` -/
noncomputable def Renderer.stInteract (r : Renderer) : Option Renderer :=
  if r.shaded then some { r with results := some (shadedImage r.camera r.shapes r.rays r.hits), phase := .finish }
  else match edgeImage r.camera r.hits with
    | none => none
    | some im => some { r with results := some im, phase := .finish }

/-- lines 124-126, 246-248 `_st_finish` -/
def Renderer.stFinish (r : Renderer) : Renderer := { r with complete := true, phase := .idle }

/-- lines 46-50, 170-174: one iteration of the state machine; `none` is an exception -/
noncomputable def Renderer.step (r : Renderer) : Option Renderer :=
  match r.phase with
  | .initialize => r.stInitialize
  | .propagate => some r.stPropagate
  | .interact => r.stInteract
  | .finish => some r.stFinish
  | .idle => none

/-- the loop, with the number of iterations -/
inductive Renderer.Runs : ℕ → Renderer → Renderer → Prop where
  | stop {r : Renderer} : r.phase = .idle → Runs 0 r r
  | step {n : ℕ} {r r' r'' : Renderer} : r.phase ≠ .idle → r.step = some r' → Runs n r' r'' → Runs (n + 1) r r''

/-- lines 43-53, 167-177 `render()`: ends in the state `r'` after `n` iterations; it returns `r'.results`. -/
def Renderer.Renders (n : ℕ) (r r' : Renderer) : Prop := Renderer.Runs n { r with phase := .initialize } r'

/-! ### draw -/

/-- lines 262-271: smallest and largest coordinates of the corners of the bounding boxes (sorted spans; all finite) -/
noncomputable def drawBounds (b : Box) (bs : List Box) (i : Fin 3) : ℝ × ℝ :=
  (bs.foldl (fun m b => min m (b i).1.toReal) (b i).1.toReal, bs.foldl (fun m b => max m (b i).2.toReal) (b i).2.toReal)

/-- lines 278-282: the two views -/
inductive View where
  | xy
  | xz
  deriving DecidableEq

/-- lines 288, 322: the axes of the image -/
def View.axes : View → Fin 3 × Fin 3
  | .xy => (0, 1)
  | .xz => (0, 2)

/-- lines 286-292, 320-326: the camera of `_draw_xy` and `_draw_xz`. The rotations are those of `WorldObject.rotate_y` and so on: each
multiplies the world matrix from the left. Simplification: spans are positive (numpy divides by zero otherwise, and `int` raises), the
resolution is a natural number. -/
noncomputable def drawCamera (view : View) (mins maxes : Fin 3 → ℝ) (resolution : ℕ) : Camera :=
  let hSpan := 1.5 * (maxes view.axes.1 - mins view.axes.1)
  let vSpan := 1.5 * (maxes view.axes.2 - mins view.axes.2)
  let res : ℕ := if hSpan > vSpan then resolution else (truncInt (resolution * hSpan / vSpan)).toNat
  let mid : Fin 3 → ℝ := fun i => (maxes i + mins i) / 2
  { hPixels := res
    hWidth := hSpan
    aspect := vSpan / hSpan
    world := match view with
      | .xy => moveMatrix (mid 0) (mid 1) (1.5 * maxes 2) *
          (rotZMatrix (Real.sin (90 * Real.pi / 180)) (Real.cos (90 * Real.pi / 180)) *
            rotYMatrix (Real.sin (90 * Real.pi / 180)) (Real.cos (90 * Real.pi / 180)))
      | .xz => moveMatrix (mid 0) (1.5 * maxes 1) (mid 2) * rotZMatrix (Real.sin (90 * Real.pi / 180)) (Real.cos (90 * Real.pi / 180)) }

/-- lines 294-295, 328-329: the light -/
def drawLight (view : View) (maxes : Fin 3 → ℝ) : Vec4 :=
  match view with
  | .xy => point (maxes 0) (maxes 1) (maxes 2 * 3)
  | .xz => point (maxes 0) (maxes 1 * -3) (maxes 2)

/-- lines 309-314, 342-347: the `extent` handed to `imshow` (left, right, bottom, top) -/
noncomputable def drawExtent (view : View) (mins maxes : Fin 3 → ℝ) : ℝ × ℝ × ℝ × ℝ :=
  let hSpan := 1.5 * (maxes view.axes.1 - mins view.axes.1)
  let vSpan := 1.5 * (maxes view.axes.2 - mins view.axes.2)
  let mid : Fin 3 → ℝ := fun i => (maxes i + mins i) / 2
  (mid view.axes.1 - hSpan / 2, mid view.axes.1 + hSpan / 2, mid view.axes.2 - vSpan / 2, mid view.axes.2 + vSpan / 2)

end PyRayT
