import Verif.Model.Scene

/-!
# Model with nan and the infinities

In the other models a division by zero gives 0 and the square root of a negative number is 0. Here the functions on the way from the rays to the table of results are modelled
once more with numbers that are reals, infinities or nan, with the rules of floating point arithmetic for the special values, and comparisons that are false for nan. Finite numbers are
exact. One ray (column) at a time; that the code works column by column is C109.
-/

namespace PyRayT

open Classical

/-! ### numbers -/

/-- A float: a real number or an infinity (`num`), or nan. -/
inductive Flt where
  | num (x : EReal)
  | nan

namespace Flt

/-- a finite number -/
def re (x : ℝ) : Flt := .num (x : EReal)

/-- `np.inf` -/
noncomputable def inf : Flt := .num ⊤

/-- an infinity -/
def _root_.EReal.isInf (x : EReal) : Prop := x = ⊤ ∨ x = ⊥

/-- `-x` -/
noncomputable def neg : Flt → Flt
  | num x => num (-x)
  | nan => nan

/-- `x + y`; `inf + -inf` is nan. -/
noncomputable def add : Flt → Flt → Flt
  | num x, num y => if (x = ⊤ ∧ y = ⊥) ∨ (x = ⊥ ∧ y = ⊤) then nan else num (x + y)
  | _, _ => nan

/-- `x * y`; `0 * inf` is nan. -/
noncomputable def mul : Flt → Flt → Flt
  | num x, num y => if (x = 0 ∧ y.isInf) ∨ (x.isInf ∧ y = 0) then nan else num (x * y)
  | _, _ => nan

/-- `x / y`; `inf / inf` and `0 / 0` are nan. Simplification: other divisions by zero give `inf` or `-inf` depending on the sign of the zero, which the model does not know; they are
nan here, too. -/
noncomputable def div : Flt → Flt → Flt
  | num x, num y => if y = 0 ∨ (x.isInf ∧ y.isInf) then nan else num (x / y)
  | _, _ => nan

noncomputable instance : Neg Flt := ⟨neg⟩
noncomputable instance : Add Flt := ⟨add⟩
noncomputable instance : Sub Flt := ⟨fun x y => x + -y⟩
noncomputable instance : Mul Flt := ⟨mul⟩
noncomputable instance : Div Flt := ⟨div⟩

/-- `np.sqrt(x)`: nan for negative numbers -/
noncomputable def sqrt : Flt → Flt
  | num x => if x = ⊤ then num ⊤ else if x < 0 then nan else re √x.toReal
  | nan => nan

/-- `x <= y` -/
def le : Flt → Flt → Prop
  | num x, num y => x ≤ y
  | _, _ => False

/-- `x < y` -/
def lt : Flt → Flt → Prop
  | num x, num y => x < y
  | _, _ => False

instance : LE Flt := ⟨le⟩
instance : LT Flt := ⟨lt⟩

/-- `np.maximum(x, y)`, `np.max`: nan if one of the two is nan -/
noncomputable def max : Flt → Flt → Flt
  | num x, num y => num (Max.max x y)
  | _, _ => nan

/-- `np.minimum(x, y)`, `np.min`: nan if one of the two is nan -/
noncomputable def min : Flt → Flt → Flt
  | num x, num y => num (Min.min x y)
  | _, _ => nan

/-- `np.isfinite(x)` -/
def isfinite : Flt → Prop
  | num x => ¬ x.isInf
  | nan => False

/-- `np.isclose(x, y)` with the default tolerances: infinities are close to themselves, nan to nothing. -/
def isclose : Flt → Flt → Prop
  | num x, num y => (¬ x.isInf ∧ ¬ y.isInf ∧ PyRayT.isclose x.toReal y.toReal) ∨ (x.isInf ∧ x = y)
  | _, _ => False

/-- `x + mask` -/
noncomputable def addMask (x : Flt) (p : Prop) [Decidable p] : Flt := x + re (if p then 1 else 0)

/-- `np.sort` of two numbers: nan comes last. -/
noncomputable def sort2 (h : Flt × Flt) : Flt × Flt :=
  match h with
  | (num x, num y) => (num (Min.min x y), num (Max.max x y))
  | (nan, y) => (y, nan)
  | (x, nan) => (x, nan)

end Flt

open Flt

/-- four numbers -/
abbrev Vec4F := Fin 4 → Flt

/-- a ray -/
structure RayF where
  o : Vec4F
  d : Vec4F

/-- `np.matmul` of a matrix of finite numbers -/
noncomputable def matF (m : Mat4) (v : Vec4F) : Vec4F := fun i => re (m i 0) * v 0 + re (m i 1) * v 1 + re (m i 2) * v 2 + re (m i 3) * v 3

/-- dot product of four numbers -/
noncomputable def dotF (u v : Vec4F) : Flt := u 0 * v 0 + u 1 * v 1 + u 2 * v 2 + u 3 * v 3

/-- `np.linalg.norm` of four numbers -/
noncomputable def normF (v : Vec4F) : Flt := sqrt (v 0 * v 0 + v 1 * v 1 + v 2 * v 2 + v 3 * v 3)

/-- `v / np.linalg.norm(v)` -/
noncomputable def normalizeF (v : Vec4F) : Vec4F := fun i => v i / normF v

/-! ### `primitives.py` -/

/-- `np.where(disc >= 0, np.array((-b + root, -b - root)) / den, np.inf)` with `root = np.sqrt(np.maximum(0, disc))` -/
noncomputable def polyRootsF (b disc den : Flt) : Flt × Flt :=
  let root := sqrt (Flt.max (re 0) disc)
  let hits := ((-b + root) / den, (-b - root) / den)
  if re 0 ≤ disc then hits else (inf, inf)

/-- lines 241-271 `Sphere.intersect` -/
noncomputable def sphereIntersectF (radius : ℝ) (ray : RayF) : Flt × Flt :=
  let a := ray.d 0 * ray.d 0 + ray.d 1 * ray.d 1 + ray.d 2 * ray.d 2
  let b := re 2 * (ray.d 0 * ray.o 0 + ray.d 1 * ray.o 1 + ray.d 2 * ray.o 2)
  let c := (ray.o 0 * ray.o 0 + ray.o 1 * ray.o 1 + ray.o 2 * ray.o 2) - re radius * re radius
  let disc := b * b - re 4 * a * c
  polyRootsF b disc (re 2 * a)

/-- `operations.py` lines 28-63 `binomial_root(a, b, c)` -/
noncomputable def binomialRootF (a b c : Flt) : Flt × Flt :=
  let disc := b * b - re 4 * a * c
  let linear := a.isclose (re 0)
  let poly := polyRootsF b disc ((re 2 * a).addMask linear)
  let lin := -c / b.addMask (b = re 0)
  let roots := if linear then (lin, lin) else poly
  let cOnly := linear ∧ b.isclose (re 0)
  let roots := if cOnly then (inf, inf) else roots
  (if cOnly ∧ c ≤ re 0 then num ⊥ else roots.1, roots.2)

/-- lines 367-390 / 680-703: the cap planes -/
noncomputable def capHitsF (lo hi : ℝ) (oz dz : Flt) : Flt × Flt :=
  let parallel := dz.isclose (re 0)
  let inside := re lo ≤ oz ∧ oz ≤ re hi
  let den := dz.addMask parallel
  let h0 := if parallel then inf else (re lo - oz) / den
  let h1 := if parallel then inf else (re hi - oz) / den
  (if parallel ∧ inside then num ⊥ else h0, h1)

/-- lines 392-398 / 705-711 -/
noncomputable def clipHitsF (side caps : Flt × Flt) : Flt × Flt :=
  let h0 := Flt.max (Flt.sort2 side).1 (Flt.sort2 caps).1
  let h1 := Flt.min (Flt.sort2 side).2 (Flt.sort2 caps).2
  if h0 ≤ h1 then (h0, h1) else (inf, inf)

/-- lines 650-712 `Cylinder.intersect` -/
noncomputable def cylinderIntersectF (radius hMin hMax : ℝ) (ray : RayF) : Flt × Flt :=
  let a := ray.d 0 * ray.d 0 + ray.d 1 * ray.d 1
  let b := re 2 * (ray.d 0 * ray.o 0 + ray.d 1 * ray.o 1)
  let c := (ray.o 0 * ray.o 0 + ray.o 1 * ray.o 1) - re radius * re radius
  clipHitsF (Flt.sort2 (binomialRootF a b c)) (capHitsF hMin hMax (ray.o 2) (ray.d 2))

/-- lines 320-399 `Paraboloid.intersect` -/
noncomputable def paraboloidIntersectF (focus height : ℝ) (ray : RayF) : Flt × Flt :=
  let a := ray.d 0 * ray.d 0 + ray.d 1 * ray.d 1
  let b := re 2 * (ray.o 0 * ray.d 0 + ray.o 1 * ray.d 1) - re (4 * focus) * ray.d 2
  let c := (ray.o 0 * ray.o 0 + ray.o 1 * ray.o 1) - re (4 * focus) * ray.o 2
  let disc := b * b - re 4 * a * c
  let linear := a.isclose (re 0)
  let poly := polyRootsF b disc ((re 2 * a).addMask linear)
  let lin := (-c / b.addMask (b.isclose (re 0)), if re 0 ≤ ray.d 2 then inf else num ⊥)
  clipHitsF (Flt.sort2 (if linear then lin else poly)) (capHitsF 0 height (ray.o 2) (ray.d 2))

/-- lines 454-469 -/
noncomputable def planeBoundF (dim : ℝ) (o d : Flt) : Flt × Flt :=
  let isZero := d.isclose (re 0)
  let skew := if -re (dim / 2) ≤ o ∧ o ≤ re (dim / 2) then num ⊥ else inf
  let hit1 := -(o - re (dim / 2)) / d.addMask isZero
  let hit2 := -(o + re (dim / 2)) / d.addMask isZero
  (if isZero then skew else hit1, if isZero then inf else hit2)

/-- lines 436-492 `Plane.intersect` -/
noncomputable def planeIntersectF (width length : ℝ) (ray : RayF) : Flt × Flt :=
  let bx := Flt.sort2 (planeBoundF width (ray.o 0) (ray.d 0))
  let bz := Flt.sort2 (planeBoundF length (ray.o 1) (ray.d 1))
  let lo := Flt.max bx.1 bz.1
  let hi := Flt.min bx.2 bz.2
  let skew := (ray.d 2).isclose (re 0)
  let hit := if skew then inf else -ray.o 2 / (ray.d 2).addMask skew
  let hit := if lo ≤ hit ∧ hit ≤ hi then hit else inf
  (hit, hit)

/-- lines 531-565: one axis of `Cube.intersect`, as written: `-(o - s) / (d + is_zero)` -/
noncomputable def slabF (span : EReal × EReal) (o d : Flt) : Flt × Flt :=
  let isZero := d.isclose (re 0)
  let skew := if o ≤ num span.2 ∧ num span.1 ≤ o then num ⊥ else inf
  let h0 := if ¬ isZero then -(o - num span.1) / d.addMask isZero else skew
  let h1 := if ¬ isZero then -(o - num span.2) / d.addMask isZero else inf
  Flt.sort2 (h0, h1)

/-- lines 516-581 `Cube.intersect` -/
noncomputable def boxIntersectF (box : Box) (ray : RayF) : Flt × Flt :=
  let s0 := slabF (box 0) (ray.o 0) (ray.d 0)
  let s1 := slabF (box 1) (ray.o 1) (ray.d 1)
  let s2 := slabF (box 2) (ray.o 2) (ray.d 2)
  let h0 := Flt.max (Flt.max s0.1 s1.1) s2.1
  let h1 := Flt.min (Flt.min s0.2 s1.2) s2.2
  if h0 < h1 then (h0, h1) else (inf, inf)

/-- `intersect` of each primitive -/
noncomputable def Prim.intersectF : Prim → RayF → Flt × Flt
  | .sphere r => sphereIntersectF r
  | .paraboloid f h => paraboloidIntersectF f h
  | .plane w l => planeIntersectF w l
  | .cube a b => boxIntersectF (toBox (cubeSpans a b))
  | .cylinder r a b => cylinderIntersectF r a b

/-- lines 593-596: one component of `Cube.normal` -/
noncomputable def cubeNormalCompF (span : ℝ × ℝ) (x : Flt) : Flt :=
  if x.isclose (re span.2) then re 1 else if x.isclose (re span.1) then re (-1) else re 0

/-- `normal` of each primitive: lines 273-295, 401-418, 494-498, 583-602, 714-743 (cylinders are capped, as in `Prim.normal`) -/
noncomputable def Prim.normalF : Prim → Vec4F → Vec4F
  | .sphere _, x => normalizeF ![x 0, x 1, x 2, re 0]
  | .paraboloid f h, x => if (x 2).isclose (re h) then normalizeF ![re 0, re 0, re 1, re 0] else normalizeF ![x 0, x 1, re (-2 * f), re 0]
  | .plane _ _, _ => ![re 0, re 0, re 1, re 0]
  | .cube a b, x => normalizeF ![cubeNormalCompF (cubeSpans a b 0) (x 0), cubeNormalCompF (cubeSpans a b 1) (x 1), cubeNormalCompF (cubeSpans a b 2) (x 2), re 0]
  | .cylinder _ lo hi, x =>
    if (x 2).isclose (re hi) then normalizeF ![re 0, re 0, re 1, re 0]
    else if (x 2).isclose (re lo) then normalizeF ![re 0, re 0, re (-1), re 0]
    else normalizeF ![x 0, x 1, re 0, re 0]

/-! ### `world_objects.py`, `csg.py` -/

/-- `world_objects.py` lines 401-420 `get_world_normals` -/
noncomputable def worldNormalF (o : Obj) (p : Prim) (pos : Vec4F) : Vec4F :=
  let w := matF o.objT.transpose (p.normalF (matF o.objT pos))
  let w := normalizeF ![w 0, w 1, w 2, re 0]
  fun i => re o.nscale * w i

/-- the normal of the surface at an address; other objects have none: nan -/
noncomputable def surfaceNormalF (h : Heap) (x : ℕ) (pos : Vec4F) : Vec4F :=
  match (h.obj x).kind with
  | .prim p => worldNormalF (h.obj x) p pos
  | _ => fun _ => nan

/-- `world_objects.py` lines 360-384 `TracerSurface.intersect` -/
noncomputable def leafIntersectF (objT : Mat4) (oid : ℕ) (p : Prim) (ray : RayF) : List Flt × List ℤ :=
  let h := Flt.sort2 (p.intersectF ⟨matF objT ray.o, matF objT ray.d⟩)
  ([h.1, h.2], [(oid : ℤ), (oid : ℤ)])

/-- `csg.py` lines 126-128: `np.any(np.isfinite(self._aobb.intersect(rays)), axis=0)` -/
def boxPassesF (box : Box) (ray : RayF) : Prop :=
  let h := boxIntersectF box ray
  h.1.isfinite ∨ h.2.isfinite

/-- `csg.py` lines 13-59 `array_csg(array1, array2, operation, sort_output=False)` -/
noncomputable def arrayCsgUnsortedF (argsort : List Flt → List ℕ) (l r : List Flt) (op : Operation) : List Flt :=
  let merged := l ++ r
  let σ := argsort merged
  List.zipWith (fun v k => if k then v else inf) (gather inf merged σ) (keepMask op (surfaceCount op l.length σ))

/-- `csg.py` lines 134-149 -/
noncomputable def csgCombineF (argsort : List Flt → List ℕ) (op : Operation) (lHits : List Flt) (lSurf : List ℤ) (rHits : List Flt) (rSurf : List ℤ) : List Flt × List ℤ :=
  let surfaces := gather (-1) (lSurf ++ rSurf) (argsort (lHits ++ rHits))
  let hits := arrayCsgUnsortedF argsort lHits rHits op
  let τ := argsort hits
  (gather inf hits τ, gather (-1) surfaces τ)

/-- `intersect` of the object at an address (`world_objects.py` lines 360-384, `csg.py` lines 118-160); `fuel` as in `intersectObj` -/
noncomputable def intersectObjF (argsort : List Flt → List ℕ) : ℕ → Heap → ℕ → RayF → List Flt × List ℤ
  | 0, _, _, _ => ([], [])
  | fuel + 1, h, a, ray =>
    match (h.obj a).kind with
    | .prim p => leafIntersectF (h.obj a).objT (h.obj a).oid p ray
    | .csg op l r =>
      let lh := intersectObjF argsort fuel h l ray
      let rh := intersectObjF argsort fuel h r ray
      if boxPassesF (h.obj a).aobb ray then csgCombineF argsort op lh.1 lh.2 rh.1 rh.2
      else (List.replicate (lh.1.length + rh.1.length) inf, List.replicate (lh.1.length + rh.1.length) (-1))
    | _ => ([], [])

/-! ### `operations.py`, `materials.py` -/

/-- `operations.py` lines 110-162 `refract`: direction and index -/
noncomputable def refractF (v n : Vec4F) (n1 n2 nGlobal : Flt) : Vec4F × Flt :=
  let u := normalizeF v
  let cosP := dotF u n
  let cosN := dotF u fun i => -n i
  let n2l := if re 0 < cosP then nGlobal else n2
  let nn : Vec4F := if re 0 < cosP then fun i => -n i else n
  let r := n1 / n2l
  let cos1 := if re 0 < cosP then cosP else cosN
  let radicand := re 1 - r * r * (re 1 - cos1 * cos1)
  let cos2 := sqrt (Flt.max (re 0) radicand)
  let out : Vec4F := if re 0 < radicand then fun i => r * u i + (r * cos1 - cos2) * nn i else fun i => u i + re 2 * cos1 * nn i
  (normalizeF out, if re 0 < radicand then n2l else n1)

/-- `materials.py` lines 112-118 and 136-145 `index_at` -/
noncomputable def IndexModel.indexAtF : IndexModel → Flt → Flt
  | .basic n, _ => re n
  | .sellmeier b1 b2 b3 c1 c2 c3, w =>
    sqrt (re 1 + re b1 * (w * w) / (w * w - re c1) + re b2 * (w * w) / (w * w - re c2) + re b3 * (w * w) / (w * w - re c3))

/-- one column of a `RaySet` -/
structure ColF where
  ray : RayF
  generation : Flt
  intensity : Flt
  wavelength : Flt
  index : Flt
  id : Flt

/-- `trace` of the materials: lines 47-50, 58-62, 70-75 -/
noncomputable def Material.traceF (normalAt : Vec4F → Vec4F) (c : ColF) : Material → ColF
  | .absorber => { c with ray := ⟨c.ray.o, fun _ => re 0⟩ }
  | .mirror =>
    let n := normalAt c.ray.o
    { c with ray := ⟨c.ray.o, fun i => c.ray.d i - re 2 * n i * dotF c.ray.d n⟩ }
  | .glass m =>
    let r := refractF c.ray.d (normalAt c.ray.o) c.index (m.indexAtF c.wavelength) (re 1)
    { c with ray := ⟨c.ray.o, r.1⟩, index := r.2 }

/-! ### `_pyrayt.py` -/

/-- a row of the table of results -/
structure RowF where
  generation : Flt
  intensity : Flt
  wavelength : Flt
  index : Flt
  id : Flt
  surface : ℤ
  start : Fin 3 → Flt
  stop : Fin 3 → Flt
  tilt : Fin 3 → Flt

/-- lines 168-186 `_RayTraceDataframe.insert`, one row -/
noncomputable def mkRowF (c next : ColF) (surface : ℤ) : RowF :=
  { generation := c.generation
    intensity := c.intensity
    wavelength := c.wavelength
    index := c.index
    id := c.id
    surface
    start := fun i => c.ray.o i.castSucc
    stop := fun i => next.ray.o i.castSucc
    tilt := fun i => c.ray.d i.castSucc / sqrt (c.ray.d 0 * c.ray.d 0 + c.ray.d 1 * c.ray.d 1 + c.ray.d 2 * c.ray.d 2) }

/-- what the tracer uses of a component -/
structure ComponentF where
  intersect : RayF → List Flt × List ℤ
  surfaces : List (ℤ × (ColF → ColF))

/-- an object of a scene as a component -/
noncomputable def Scene.componentF (argsort : List Flt → List ℕ) (depth : ℕ) (s : Scene) (a : ℕ) : ComponentF :=
  { intersect := intersectObjF argsort depth s.heap a
    surfaces := (surfaceIds depth s.heap a).map fun e => ((e.1 : ℤ), fun c => (s.material e.2).traceF (surfaceNormalF s.heap e.2) c) }

/-- line 380: `np.where(shape_hits > 0, shape_hits, np.inf)` -/
noncomputable def positiveHitF (h : Flt) : Flt := if re 0 < h then h else inf

/-- `np.argmin` of one column: the first nan, or else the first smallest entry -/
noncomputable def argminF (xs : List Flt) : ℕ := xs.idxOf (xs.foldr Flt.min inf)

/-- lines 378-383 -/
noncomputable def nearestHitF (h : List Flt × List ℤ) : Flt × ℤ :=
  let hits := h.1.map positiveHitF
  (hits.getD (argminF hits) inf, h.2.getD (argminF hits) (-1))

/-- lines 372-386 -/
noncomputable def hitOfF (cs : List ComponentF) (ray : RayF) : Flt × ℤ :=
  cs.foldl (fun acc c => let n := nearestHitF (c.intersect ray); if n.1 < acc.1 then n else acc) (inf, -1)

/-- lines 404-407: the ray is moved along its direction -/
noncomputable def ColF.advance (c : ColF) (t : Flt) : ColF := { c with ray := ⟨fun i => c.ray.o i + c.ray.d i * t, c.ray.d⟩ }

/-- line 399 -/
def ColF.kill (c : ColF) : ColF := { c with ray := ⟨c.ray.o, fun _ => re 0⟩ }

/-- lines 396-410: one column of `next_ray_set` -/
noncomputable def interactColF (lut : List (ℤ × (ColF → ColF))) (hit : Flt × ℤ) (c : ColF) : ColF :=
  lut.foldl (fun c e => if hit.2 = e.1 then e.2 (c.advance hit.1) else c) (if hit.2 = -1 then c.kill else c)

/-- lines 415-419: dead rays -/
def deadColF (threshold : ℝ) (c : ColF) (hit : Flt × ℤ) : Prop := npLogicalOr ((normF c.ray.d).isclose (re 0)) (hit.2 = -1) (c.intensity < re threshold)

/-- the attributes of a `RayTracer` (lines 190-260) -/
structure TracerF where
  sources : List (ℕ → List ColF)
  components : List ComponentF
  raysPerSource : ℕ
  limit : ℤ
  lut : List (ℤ × (ColF → ColF))
  offset : ℝ
  threshold : ℝ
  phase : Phase
  frame : List RowF
  gen : ℕ
  complete : Bool
  rays : List ColF
  hits : List (Flt × ℤ)

/-- lines 211-260 `RayTracer.__init__` -/
noncomputable def TracerF.new (sources : List (ℕ → List ColF)) (components : List ComponentF) (raysPerSource : ℕ) (limit : ℤ) : TracerF :=
  { sources, components, raysPerSource, limit
    lut := components.flatMap ComponentF.surfaces
    offset := 1e-6
    threshold := 0.1
    phase := .idle
    frame := []
    gen := 0
    complete := false
    rays := []
    hits := [] }

/-- lines 356-368 `_st_initialize` -/
noncomputable def TracerF.stInitialize (t : TracerF) : Option TracerF :=
  let t := { t with complete := false, frame := [], phase := .idle, gen := 0 }
  if t.sources = [] then none
  else some { t with rays := (t.sources.flatMap fun s => s t.raysPerSource).zipIdx.map fun p => { p.1 with id := re p.2 }, phase := .propagate }

/-- lines 370-392 `_st_propagate` -/
noncomputable def TracerF.stPropagate (t : TracerF) : TracerF :=
  { t with hits := t.rays.map fun c => hitOfF t.components c.ray, phase := .interact }

/-- lines 394-452 `_st_interact` -/
noncomputable def TracerF.stInteract (t : TracerF) : TracerF :=
  let zs := t.rays.zip t.hits
  let living := zs.filter fun z => ¬ deadColF t.threshold z.1 z.2
  if living = [] then { t with phase := .finish }
  else
    let next := living.map fun z => interactColF t.lut z.2 z.1
    let frame := t.frame ++ living.map fun z => mkRowF z.1 (interactColF t.lut z.2 z.1) z.2.2
    let gen := t.gen + 1
    let next := next.map fun c => { c with generation := re gen }
    if (gen : ℤ) = t.limit then { t with frame, gen, rays := next, phase := .finish }
    else
      { t with
        frame, gen
        rays := next.map fun c => { c with ray := ⟨fun i => c.ray.o i + re t.offset * c.ray.d i, c.ray.d⟩ }
        phase := .propagate }

/-- lines 454-456 `_st_finish` -/
def TracerF.stFinish (t : TracerF) : TracerF := { t with complete := true, phase := .idle }

/-- lines 333-336: one turn of the state machine -/
noncomputable def TracerF.step (t : TracerF) : Option TracerF :=
  match t.phase with
  | .initialize => t.stInitialize
  | .propagate => some t.stPropagate
  | .interact => some t.stInteract
  | .finish => some t.stFinish
  | .idle => none

/-- lines 333-336: the loop, with the number of iterations -/
inductive TracerF.Runs : ℕ → TracerF → TracerF → Prop where
  | stop {t : TracerF} : t.phase = .idle → Runs 0 t t
  | step {n : ℕ} {t t' t'' : TracerF} : t.phase ≠ .idle → t.step = some t' → Runs n t' t'' → Runs (n + 1) t t''

/-- lines 329-339 `trace()` -/
def TracerF.Traces (n : ℕ) (t t' : TracerF) : Prop := TracerF.Runs n { t with phase := .initialize } t'

end PyRayT
