import Verif.Model.Scene

/-!
# Model of the optical components (`pyrayt/components.py` lines 13-53, 73-468)

Each function runs on a scene (heap of objects with their materials), as the Python code does: it constructs surfaces, moves them
and combines them. Exceptions keep the state reached so far.

Not modelled: NaN and infinite coordinates. Where the code would take the square root of a negative number (a lens radius smaller
than the aperture), numpy yields NaN and the model 0; the theorems exclude this case. Keyword arguments are ordinary
arguments here; `Model/Defaults.lean` fills in the defaults (lines 23 and 242).
-/

namespace PyRayT

open Classical

/-- What a component function can raise. -/
inductive CompErr where
  /-- an exception of a movement -/
  | world (e : Err)
  /-- `TypeError` -/
  | type
  /-- `UnboundLocalError` (line 320 for radius 0) -/
  | unbound
  /-- `ValueError` of the constructor of `Paraboloid` -/
  | value
  /-- `ZeroDivisionError` (line 382 for focus 0) -/
  | zeroDivision
  deriving DecidableEq

/-- A piece of code running on a scene: a result or an exception, and the state it leaves. -/
def Build (α : Type) := Scene → Except CompErr α × Scene

/-- statement sequencing -/
instance : Monad Build where
  pure a := fun s => (.ok a, s)
  bind x f := fun s => match x s with
    | (.ok a, s') => f a s'
    | (.error e, s') => (.error e, s')

/-- `raise` -/
def Build.raise {α : Type} (e : CompErr) : Build α := fun s => (.error e, s)

/-- `primitives.py` lines 306-307: the only check of the arguments in a constructor of a primitive. (The histories of
`Model/World.lean` do not have this check: they contain more objects than Python can make.) -/
def Prim.rejected : Prim → Prop
  | .paraboloid f h => f ≤ 0 ∨ h ≤ 0
  | _ => False

/-- `world_objects.py` lines 338-482: constructing a surface; the result is its address. An object rejected in line 343 has already got
its id. `none` is the default `BLACK` rendering
material, which cannot be traced: the model then leaves the material at the new address as it is (arbitrary). -/
noncomputable def Build.surface (p : Prim) (m : Option Material) : Build ℕ := fun s =>
  if p.rejected then (.error .value, { s with heap := { s.heap with counter := s.heap.counter + 1 } }) else
  (.ok s.heap.size,
    { heap := newPrim s.heap p
      material := match m with
        | some m => Function.update s.material s.heap.size m
        | none => s.material })

/-- `obj.material = m` -/
noncomputable def Build.setMaterial (a : ℕ) (m : Material) : Build Unit := fun s =>
  (.ok (), { s with material := Function.update s.material a m })

/-- The argument `aperture`: a number (no `__len__`) or a pair. (Longer sequences are not modelled.) -/
inductive Aperture where
  | scalar (d : ℝ)
  | pair (a b : ℝ)

/-- lines 23, 242: the default aperture 1 -/
def Aperture.default : Aperture := .scalar 1

/-- line 23: the default material of lenses, `matl.glass["ideal"]` (`materials.py` line 156) -/
noncomputable def defaultGlass : Material := .glass (.basic 1.5)

variable (argsort : List EReal → List ℕ) (fuel : ℕ)

/-- `obj.move(...)`, `obj.rotate_y(...)` ...: the methods return the object itself -/
noncomputable def Build.call (a : ℕ) (mv : Movement) : Build ℕ := fun s =>
  match callMovement argsort fuel s.heap a mv with
  | (h, none) => (.ok a, { s with heap := h })
  | (h, some e) => (.error (.world e), { s with heap := h })

/-- `cg.csg.union`, `cg.csg.intersect`, `cg.csg.difference` (`csg.py` lines 182-191) -/
noncomputable def Build.csg (op : Operation) (l r : ℕ) : Build ℕ := fun s =>
  (.ok s.heap.size, { s with heap := newCsg argsort s.heap op l r })

/-- lines 31-53 `_create_aperture`. In the elliptical branch (lines 43-50) the name `aperture` is rebound to the cylinder before
`aperture[1] / aperture[0]` is evaluated, which is a `TypeError`: a `Cylinder` is not subscriptable. -/
noncomputable def createAperture (aperture : Aperture) (thickness : ℝ) : Build ℕ :=
  match aperture with
  | .scalar d => .surface (.cylinder (d / 2) (-thickness / 2) (thickness / 2)) none
  | .pair a b =>
    if a > 0 ∧ b > 0 then
      .surface (.cube ![-a / 2, -b / 2, -thickness / 2] ![a / 2, b / 2, thickness / 2]) none
    else if a < 0 ∧ b < 0 then do
      let _ ← Build.surface (.cylinder (|a| / 2) (-thickness / 2) (thickness / 2)) none
      .raise .type
    else .raise .type

/-- lines 26 and 245, the end of the decorators `_lens` and `_mirror` -/
noncomputable def orient (x : Build ℕ) : Build ℕ := do
  let a ← x
  let a ← Build.call argsort fuel a (.rotateY 90 .deg)
  Build.call argsort fuel a (.rotateX 90 .deg)

/-- lines 143-149: the largest distance of the aperture from the axis -/
noncomputable def Aperture.maxHeight : Aperture → ℝ
  | .scalar d => d / 2
  | .pair a b => √(a ^ 2 + b ^ 2) / 2

/-- lines 130-163 `_lens_full_thickness`; a radius `none` is infinite (`np.isfinite` is false). -/
noncomputable def lensFullThickness (r1 r2 : Option ℝ) (thickness : ℝ) (aperture : Aperture) : ℝ × ℝ :=
  let h := aperture.maxHeight
  let left := match r1 with
    | some r => if r < 0 then thickness / 2 + (|r| - √(|r| ^ 2 - h ^ 2)) else thickness / 2
    | none => thickness / 2
  let right := match r2 with
    | some r => if r > 0 then thickness / 2 + (|r| - √(|r| ^ 2 - h ^ 2)) else thickness / 2
    | none => thickness / 2
  (right + left, right - left)

/-- lines 73-127 `thick_lens`; a radius `none` is infinite. -/
noncomputable def thickLens (r1 r2 : Option ℝ) (thickness : ℝ) (aperture : Aperture) (material : Material) : Build ℕ :=
  orient argsort fuel do
    let full := lensFullThickness r1 r2 thickness aperture
    let lens ← createAperture aperture full.1
    let lens ← Build.call argsort fuel lens (.move 0 0 (full.2 / 2))
    Build.setMaterial lens material
    let lens ← match r1 with
      | some r => do
        let left ← Build.surface (.sphere r) (some material)
        let left ← Build.call argsort fuel left (.move 0 0 (r - thickness / 2))
        Build.csg argsort (if r > 0 then .intersect else .difference) lens left
      | none => pure lens
    match r2 with
      | some r => do
        let right ← Build.surface (.sphere r) (some material)
        let right ← Build.call argsort fuel right (.move 0 0 (r + thickness / 2))
        Build.csg argsort (if r < 0 then .intersect else .difference) lens right
      | none => pure lens

/-- lines 166-198 `biconvex_lens`, finite radii -/
noncomputable def biconvexLens (r1 r2 thickness : ℝ) (aperture : Aperture) (material : Material) : Build ℕ :=
  orient argsort fuel do
    let shape ← createAperture aperture thickness
    let left ← Build.surface (.sphere r2) none
    let left ← Build.call argsort fuel left (.move 0 0 (r1 - thickness / 2))
    let right ← Build.surface (.sphere r1) none
    let right ← Build.call argsort fuel right (.move 0 0 (-(r1 - thickness / 2)))
    Build.setMaterial shape material
    Build.setMaterial left material
    Build.setMaterial right material
    let both ← Build.csg argsort .intersect left right
    Build.csg argsort .intersect both shape

/-- lines 201-229 `plano_convex_lens`, finite radius -/
noncomputable def planoConvexLens (r thickness : ℝ) (aperture : Aperture) (material : Material) : Build ℕ :=
  orient argsort fuel do
    let shape ← createAperture aperture thickness
    let right ← Build.surface (.sphere r) none
    let right ← Build.call argsort fuel right (.move 0 0 (-(r - thickness / 2)))
    Build.setMaterial shape material
    Build.setMaterial right material
    Build.csg argsort .intersect right shape

/-- lines 250-266 `plane_mirror` -/
noncomputable def planeMirror (thickness : ℝ) (aperture : Aperture) (material : Material) (offAxis : ℝ × ℝ) : Build ℕ :=
  orient argsort fuel do
    let mirror ← createAperture aperture thickness
    let mirror ← Build.call argsort fuel mirror (.move offAxis.1 offAxis.2 0)
    Build.setMaterial mirror material
    pure mirror

/-- lines 269-321 `spherical_mirror`, finite radius. For radius 0 the name `mirror_surface` is unbound in line 320. -/
noncomputable def sphericalMirror (radius thickness : ℝ) (aperture : Aperture) (material : Material) (offAxis : ℝ × ℝ) : Build ℕ :=
  orient argsort fuel do
    let l := √(offAxis.1 ^ 2 + offAxis.2 ^ 2)
    let front := |radius| - √(radius ^ 2 - (l + aperture.maxHeight) ^ 2)
    let total := front + thickness
    let shape ← createAperture aperture (thickness + front)
    Build.setMaterial shape .absorber
    let _ ← Build.call argsort fuel shape (.move offAxis.1 offAxis.2 0)
    if radius > 0 then do
      let surface ← Build.surface (.sphere radius) (some material)
      let surface ← Build.call argsort fuel surface (.move 0 0 radius)
      let _ ← Build.call argsort fuel shape (.move 0 0 (total / 2 - thickness))
      Build.csg argsort .difference shape surface
    else if radius < 0 then do
      let surface ← Build.surface (.sphere |radius|) (some material)
      let surface ← Build.call argsort fuel surface (.move 0 0 radius)
      let _ ← Build.call argsort fuel shape (.move 0 0 (thickness - total / 2))
      Build.csg argsort .difference shape surface
    else .raise .unbound

/-- lines 370-379: the distance from the axis up to which the parabola is needed -/
noncomputable def furthestPoint (aperture : Aperture) (offAxis : ℝ × ℝ) : ℝ :=
  match aperture with
  | .scalar d => √(offAxis.1 ^ 2 + offAxis.2 ^ 2) + d
  | .pair a b => √((|offAxis.1| + a / 2) ^ 2 + (|offAxis.2| + b / 2) ^ 2)

/-- lines 350-398 `parabolic_mirror`. (For focus 0, a Python number, line 382 divides by zero.) -/
noncomputable def parabolicMirror (focus thickness : ℝ) (aperture : Aperture) (material : Material) (offAxis : ℝ × ℝ) : Build ℕ :=
  orient argsort fuel do
    if focus = 0 then Build.raise .zeroDivision else
    let front := 1 / (4 * focus) * furthestPoint aperture offAxis ^ 2
    let total := thickness + front
    let shape ← createAperture aperture total
    let shape ← Build.call argsort fuel shape (.move offAxis.1 offAxis.2 0)
    Build.setMaterial shape .absorber
    let _ ← Build.call argsort fuel shape (.move 0 0 (total / 2 - thickness))
    let surface ← Build.surface (.paraboloid focus (1.5 * front)) (some material)
    let mirror ← Build.csg argsort .difference shape surface
    Build.call argsort fuel mirror (.move 0 0 (-focus))

/-- `world_objects.py` lines 474-477 `Cuboid.from_sides` -/
noncomputable def cuboidFromSides (x y z : ℝ) (m : Option Material) : Build ℕ :=
  .surface (.cube ![-0.5 * x, -0.5 * y, -0.5 * z] ![0.5 * x, 0.5 * y, 0.5 * z]) m

/-- lines 401-436 `equilateral_prism`. Python evaluates the arguments of the outer `difference` left to right. -/
noncomputable def equilateralPrism (side width : ℝ) (material : Material) : Build ℕ := do
  let cut := 1.1 * side / Real.sin (60 * Real.pi / 180)
  let body ← cuboidFromSides side width side (some material)
  let left ← cuboidFromSides cut (1.1 * width) cut (some material)
  let left ← Build.call argsort fuel left (.move (-cut / 2) 0 (cut / 2))
  let left ← Build.call argsort fuel left (.rotateY 30 .deg)
  let left ← Build.call argsort fuel left (.move (-side / 2) 0 (-side / 2))
  let inner ← Build.csg argsort .difference body left
  let right ← cuboidFromSides cut (1.1 * width) cut (some material)
  let right ← Build.call argsort fuel right (.move (cut / 2) 0 (cut / 2))
  let right ← Build.call argsort fuel right (.rotateY (-30) .deg)
  let right ← Build.call argsort fuel right (.move (side / 2) 0 (-side / 2))
  let prism ← Build.csg argsort .difference inner right
  Build.call argsort fuel prism (.move 0 0 (side / 2 * (1 - Real.sin (60 * Real.pi / 180))))

/-- lines 439-448 `baffle`: a number is not subscriptable. -/
noncomputable def baffle (aperture : Aperture) : Build ℕ :=
  match aperture with
  | .scalar _ => .raise .type
  | .pair a b => do
    let plane ← Build.surface (.plane a b) (some .absorber)
    Build.call argsort fuel plane (.rotateY 90 .deg)

/-- lines 451-468 `aperture` -/
noncomputable def apertureStop (size hole : Aperture) : Build ℕ := do
  let stop ← baffle argsort fuel size
  let stop ← Build.call argsort fuel stop (.rotateY (-90) .deg)
  let shape ← createAperture hole 0.1
  let a ← Build.csg argsort .difference stop shape
  let a ← Build.call argsort fuel a (.rotateY 90 .deg)
  Build.call argsort fuel a (.rotateX (-90) .deg)

end PyRayT
