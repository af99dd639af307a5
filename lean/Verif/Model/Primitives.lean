import Verif.Model.Num

/-!
# Model of `tinygfx/g3d/primitives.py`: intersections

Every function is the one-column version of the vectorised code; numpy broadcasting is per column
throughout these functions.
-/

namespace PyRayT

open Classical

/-- `np.array((-b + root, -b - root)) / den` with `root = sqrt(max(0, disc))`, masked with `inf` where
the discriminant is negative. -/
noncomputable def polyRoots (b disc den : ℝ) : EReal × EReal :=
  if disc ≥ 0 then
    ((((-b + √(max 0 disc)) / den : ℝ) : EReal), (((-b - √(max 0 disc)) / den : ℝ) : EReal))
  else (⊤, ⊤)

/-- `primitives.py` lines 241-271 `Sphere.intersect`.
Simplification: for a zero direction (`a = 0`) the code computes `0/0` or `±x/0` (nan or ±inf, never a
finite number); the model returns `(⊤, ⊤)`. -/
noncomputable def sphereIntersect (radius : ℝ) (ray : Ray) : EReal × EReal :=
  let a := ray.d 0 * ray.d 0 + ray.d 1 * ray.d 1 + ray.d 2 * ray.d 2
  let b := 2 * (ray.d 0 * ray.o 0 + ray.d 1 * ray.o 1 + ray.d 2 * ray.o 2)
  let c := (ray.o 0 * ray.o 0 + ray.o 1 * ray.o 1 + ray.o 2 * ray.o 2) - radius ^ 2
  let disc := b ^ 2 - 4 * a * c
  if a = 0 then (⊤, ⊤) else polyRoots b disc (2 * a)

/-- `operations.py` lines 28-63 `binomial_root(a, b, c)` (with `disc=None`). Row 0 and row 1. -/
noncomputable def binomialRoot (a b c : ℝ) : EReal × EReal :=
  let disc := b ^ 2 - 4 * a * c
  let linear := isclose0 a
  let poly := polyRoots b disc (addMask (2 * a) (isclose0 a))
  let lin : EReal := ((-c / addMask b (b = 0) : ℝ) : EReal)
  let roots := if linear then (lin, lin) else poly
  let cOnly := linear ∧ isclose0 b
  let roots := if cOnly then (⊤, ⊤) else roots
  (if cOnly ∧ c ≤ 0 then ⊥ else roots.1, roots.2)

/-- `primitives.py` lines 367-390 / 680-703: hits with the two cap planes `z = lo` and `z = hi`, common
to `Paraboloid.intersect` (`lo = 0`, written `-origins[2]/denominator`) and `Cylinder.intersect`. -/
noncomputable def capHits (lo hi oz dz : ℝ) : EReal × EReal :=
  let parallel := isclose0 dz
  let inside := oz ≥ lo ∧ oz ≤ hi
  let den := addMask dz parallel
  let h0 : EReal := if parallel then ⊤ else (((lo - oz) / den : ℝ) : EReal)
  let h1 : EReal := if parallel then ⊤ else (((hi - oz) / den : ℝ) : EReal)
  (if parallel ∧ inside then ⊥ else h0, h1)

/-- `primitives.py` lines 392-398 / 705-711: sort the side hits and the cap hits, take the larger
minimum and the smaller maximum, `inf` if they are out of order. -/
noncomputable def clipHits (side caps : EReal × EReal) : EReal × EReal :=
  let h0 := max (sort2 side).1 (sort2 caps).1
  let h1 := min (sort2 side).2 (sort2 caps).2
  if h0 ≤ h1 then (h0, h1) else (⊤, ⊤)

/-- `primitives.py` lines 650-712 `Cylinder.intersect` (the code never looks at `_capped` here). -/
noncomputable def cylinderIntersect (radius hMin hMax : ℝ) (ray : Ray) : EReal × EReal :=
  let a := ray.d 0 * ray.d 0 + ray.d 1 * ray.d 1
  let b := 2 * (ray.d 0 * ray.o 0 + ray.d 1 * ray.o 1)
  let c := (ray.o 0 * ray.o 0 + ray.o 1 * ray.o 1) - radius ^ 2
  clipHits (sort2 (binomialRoot a b c)) (capHits hMin hMax (ray.o 2) (ray.d 2))

/-- `primitives.py` lines 320-399 `Paraboloid.intersect`. -/
noncomputable def paraboloidIntersect (focus height : ℝ) (ray : Ray) : EReal × EReal :=
  let a := ray.d 0 * ray.d 0 + ray.d 1 * ray.d 1
  let b := 2 * (ray.o 0 * ray.d 0 + ray.o 1 * ray.d 1) - 4 * focus * ray.d 2
  let c := (ray.o 0 * ray.o 0 + ray.o 1 * ray.o 1) - 4 * focus * ray.o 2
  let disc := b ^ 2 - 4 * a * c
  let linear := isclose0 a
  let poly := polyRoots b disc (addMask (2 * a) linear)
  let lin : EReal × EReal :=
    (((-c / addMask b (isclose0 b) : ℝ) : EReal), if ray.d 2 ≥ 0 then ⊤ else ⊥)
  clipHits (sort2 (if linear then lin else poly)) (capHits 0 height (ray.o 2) (ray.d 2))

/-- `primitives.py` lines 454-469: the hits of one of the two pairs of boundary lines of a plane. -/
noncomputable def planeBound (dim o d : ℝ) : EReal × EReal :=
  let isZero := isclose0 d
  let skew : EReal := if |o| ≤ dim / 2 then ⊥ else ⊤
  let hit1 : EReal := ((-(o - dim / 2) / addMask d isZero : ℝ) : EReal)
  let hit2 : EReal := ((-(o + dim / 2) / addMask d isZero : ℝ) : EReal)
  (if isZero then skew else hit1, if isZero then ⊤ else hit2)

/-- `primitives.py` lines 436-492 `Plane.intersect`. The sorts of lines 471-477 leave the larger of the
two minima in row 1 and the smaller of the two maxima in row 2. -/
noncomputable def planeIntersect (width length : ℝ) (ray : Ray) : EReal × EReal :=
  let bx := sort2 (planeBound width (ray.o 0) (ray.d 0))
  let bz := sort2 (planeBound length (ray.o 1) (ray.d 1))
  let lo := max bx.1 bz.1
  let hi := min bx.2 bz.2
  let skew := isclose0 (ray.d 2)
  let hit : EReal := if skew then ⊤ else ((-(ray.o 2) / addMask (ray.d 2) skew : ℝ) : EReal)
  let hit := if hit ≥ lo ∧ hit ≤ hi then hit else ⊤
  (hit, hit)

/-- `Cube.axis_spans` (`primitives.py` line 510): per axis the sorted pair of bounds. Bounds can be
infinite for the boxes built by `CSGSurface._update_bounding_box`. -/
abbrev Box := Fin 3 → EReal × EReal

/-- `primitives.py` lines 531-565, one axis of `Cube.intersect`. `-(o - s)/d` is written `(s - o) * d⁻¹`,
which agrees for finite and infinite `s`. -/
noncomputable def slab (span : EReal × EReal) (o d : ℝ) : EReal × EReal :=
  let isZero := isclose0 d
  let skew : EReal := if (o : EReal) ≤ span.2 ∧ (o : EReal) ≥ span.1 then ⊥ else ⊤
  let h0 : EReal := if ¬ isZero then (span.1 - (o : EReal)) * (((addMask d isZero)⁻¹ : ℝ) : EReal) else skew
  let h1 : EReal := if ¬ isZero then (span.2 - (o : EReal)) * (((addMask d isZero)⁻¹ : ℝ) : EReal) else ⊤
  sort2 (h0, h1)

/-- `primitives.py` lines 516-581 `Cube.intersect`. -/
noncomputable def boxIntersect (box : Box) (ray : Ray) : EReal × EReal :=
  let s0 := slab (box 0) (ray.o 0) (ray.d 0)
  let s1 := slab (box 1) (ray.o 1) (ray.d 1)
  let s2 := slab (box 2) (ray.o 2) (ray.d 2)
  let h0 := max (max s0.1 s1.1) s2.1
  let h1 := min (min s0.2 s1.2) s2.2
  if h0 < h1 then (h0, h1) else (⊤, ⊤)

/-- The surface primitives with their constructor arguments (`primitives.py` classes `Sphere`,
`Paraboloid`, `Plane`, `Cube`, `Cylinder`). -/
inductive Prim where
  | sphere (radius : ℝ)
  | paraboloid (focus height : ℝ)
  | plane (width length : ℝ)
  | cube (minCorner maxCorner : Fin 3 → ℝ)
  | cylinder (radius hMin hMax : ℝ)

/-- `Cube.__init__`, `primitives.py` line 510: the two corners are sorted axis by axis. -/
noncomputable def cubeSpans (c1 c2 : Fin 3 → ℝ) : Fin 3 → ℝ × ℝ :=
  fun i => (min (c1 i) (c2 i), max (c1 i) (c2 i))

/-- a box with finite bounds -/
def toBox (s : Fin 3 → ℝ × ℝ) : Box := fun i => (((s i).1 : EReal), ((s i).2 : EReal))

/-- `SurfacePrimitive.intersect` of each primitive. -/
noncomputable def Prim.intersect : Prim → Ray → EReal × EReal
  | .sphere r => sphereIntersect r
  | .paraboloid f h => paraboloidIntersect f h
  | .plane w l => planeIntersect w l
  | .cube a b => boxIntersect (toBox (cubeSpans a b))
  | .cylinder r a b => cylinderIntersect r a b

/-- The two opposite corners of `bounding_points` of each primitive, sorted per axis
(`_corners_to_cube_points` lines 9-15; `Sphere` 225, `Paraboloid` 312, `Plane` 431, `Cube` 512,
`Cylinder` 635). -/
noncomputable def Prim.boundSpans : Prim → Fin 3 → ℝ × ℝ
  | .sphere r => cubeSpans ![-r, -r, -r] ![r, r, r]
  | .paraboloid f h => cubeSpans ![-√(4 * f * h), -√(4 * f * h), 0] ![√(4 * f * h), √(4 * f * h), h]
  | .plane w l => cubeSpans ![-w / 2, -l / 2, -0.01] ![w / 2, l / 2, 0.01]
  | .cube a b => cubeSpans a b
  | .cylinder r a b => cubeSpans ![-r, -r, a] ![r, r, b]

/-- `itertools.product(*axis_spans)` turned into `Point`s (`primitives.py` lines 12-14, 512-514): the eight
corner points. -/
def cornerPoints (s : Fin 3 → ℝ × ℝ) : List Vec4 :=
  [(s 0).1, (s 0).2].flatMap fun x => [(s 1).1, (s 1).2].flatMap fun y =>
    [(s 2).1, (s 2).2].map fun z => point x y z

end PyRayT
