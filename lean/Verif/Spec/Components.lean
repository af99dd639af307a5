import Verif.Proofs.Build
import Verif.Proofs.Solid

/-!
# What the optical components should be, as sets of points

Coordinates are world coordinates; the optical axis is the x axis. `inside` is meant strictly, `outside` too, so the boundary
surfaces belong to neither.
-/

namespace PyRayT

open Classical Matrix

/-- (y, z) is strictly inside the opening: a disc of diameter d, or a rectangle with sides a along y and b along z -/
def Spec.inAperture : Aperture → ℝ → ℝ → Prop
  | .scalar d, y, z => y ^ 2 + z ^ 2 < (d / 2) ^ 2
  | .pair a b, y, z => |y| < a / 2 ∧ |z| < b / 2

/-- (y, z) is strictly outside the opening -/
def Spec.offAperture : Aperture → ℝ → ℝ → Prop
  | .scalar d, y, z => (d / 2) ^ 2 < y ^ 2 + z ^ 2
  | .pair a b, y, z => a / 2 < |y| ∨ b / 2 < |z|

/-- the apertures that can be used: positive sizes -/
def Spec.goodAperture : Aperture → Prop
  | .scalar d => 0 < d
  | .pair a b => 0 < a ∧ 0 < b

/-- the square of the largest distance of a point of the opening from the axis -/
noncomputable def Spec.rim : Aperture → ℝ
  | .scalar d => (d / 2) ^ 2
  | .pair a b => (a / 2) ^ 2 + (b / 2) ^ 2

/-- The sag of a surface: how far it lies behind its vertex (towards +x) at the squared distance `q` from the axis. Radius r > 0: the
centre is on the side of +x; r < 0: on the side of -x; `none`: a plane. -/
noncomputable def Spec.sag : Option ℝ → ℝ → ℝ
  | none, _ => 0
  | some r, q => if 0 < r then r - √(r ^ 2 - q) else r + √(r ^ 2 - q)

/-- The surfaces of a lens fit its aperture: the spheres are wide enough, and behind the vertex of a convex surface the lens ends before
the far side of that sphere does. -/
structure Spec.LensFits (r1 r2 : Option ℝ) (t : ℝ) (ap : Aperture) : Prop where
  thick : 0 ≤ t
  opening : Spec.goodAperture ap
  wide1 : ∀ r, r1 = some r → Spec.rim ap ≤ r ^ 2
  wide2 : ∀ r, r2 = some r → Spec.rim ap ≤ r ^ 2
  far1 : ∀ q, 0 ≤ q → q ≤ Spec.rim ap → ∀ r, r1 = some r → 0 < r → t / 2 + Spec.sag r2 q ≤ r - t / 2 + √(r ^ 2 - q)
  far2 : ∀ q, 0 ≤ q → q ≤ Spec.rim ap → ∀ r, r2 = some r → r < 0 → r + t / 2 - √(r ^ 2 - q) ≤ -t / 2 + Spec.sag r1 q

variable (argsort : List EReal → List ℕ) (fuel : ℕ)

/-- The scene `s` is the scene `s0` with a new object `a` (and its parts) that consists of the points `inside`. -/
structure Spec.Built (s0 s : Scene) (a : ℕ) (seen : Ray → Prop) (inside outside : ℝ → ℝ → ℝ → Prop) : Prop where
  /-- the scene can be built upon -/
  ready : Ready argsort fuel s
  /-- the object is new and not part of a composite -/
  new : s0.heap.size ≤ a ∧ a < s.heap.size ∧ Top s.heap a
  /-- earlier objects keep shape, place, normals and material -/
  old : ∀ b < s0.heap.size, Untouched s0 s b
  /-- as a boolean combination of placed primitives it is the set of points described -/
  solid : ∃ S, Represents s.heap a S ∧ ∀ x y z, (S.Interior (point x y z) ↔ inside x y z) ∧ (S.Outside (point x y z) ↔ outside x y z)
  /-- and rays see it so: a point of the ray strictly inside has an odd number of hits before it, a point strictly outside an
  even number -/
  hits : ∀ ray, GoodRay ray → seen ray → ∀ depth, 3 ≤ depth → ∀ t : ℝ,
    (inside (ray.at t 0) (ray.at t 1) (ray.at t 2) → Spec.InsideAt (intersectObj argsort depth s.heap a ray).1 t) ∧
    (outside (ray.at t 0) (ray.at t 1) (ray.at t 2) → ¬ Spec.InsideAt (intersectObj argsort depth s.heap a ray).1 t)
  /-- every finite hit is on the boundary (with an argsort that keeps equal values in order) -/
  bound : IsStableArgsort argsort → ∀ ray, GoodRay ray → seen ray → ∀ depth, 3 ≤ depth → ∀ t : ℝ,
    (t : EReal) ∈ (intersectObj argsort depth s.heap a ray).1 →
    ¬ inside (ray.at t 0) (ray.at t 1) (ray.at t 2) ∧ ¬ outside (ray.at t 0) (ray.at t 1) (ray.at t 2)

/-- Among the hits of the object at `a` is the value `v` labelled with the id `id`. -/
def Spec.Reports (s : Scene) (a depth : ℕ) (ray : Ray) (v : EReal) (id : ℤ) : Prop :=
  ∃ i : ℕ, (intersectObj argsort depth s.heap a ray).1[i]? = some v ∧ (intersectObj argsort depth s.heap a ray).2[i]? = some id

/-- the tolerances do not misjudge the transverse part of the direction -/
def Spec.clearOfAxis (ray : Ray) : Prop := Clear (ray.d 1 * ray.d 1 + ray.d 2 * ray.d 2)

end PyRayT
