import Verif.Model.Rounding
import Verif.Model.Primitives

/-!
# Rounded arithmetic: planes, and the change to the coordinates of an object

Continues `Rounding.lean`: the hits of `Plane` and the matrix products that take rays into the coordinates of a surface, with every operation rounded.
-/

namespace PyRayT

open Classical

/-- `np.matmul(self._get_object_transform(), ...)` (`world_objects.py` lines 367-369, one column), rounded: four sums of four products. -/
def TransformR (u : ℝ) (M : Mat4) (v w : Vec4) : Prop := ∀ i, SumsTo u [(M i 0, v 0), (M i 1, v 1), (M i 2, v 2), (M i 3, v 3)] (w i)

/-- the ray in the coordinates of the object (`world_objects.py` lines 367-369), rounded -/
def LocalR (u : ℝ) (M : Mat4) (ray loc : Ray) : Prop := TransformR u M ray.o loc.o ∧ TransformR u M ray.d loc.d

/-- The values computed for one axis by `Plane.intersect` (`primitives.py` lines 454-469, one column), rounded. Changes of sign, absolute values, comparisons and
the addition of the mask (zero where the quotient is used) are exact. -/
structure PlaneBoundR (u dim o d : ℝ) (bounds : EReal × EReal) where
  /-- lines 458, 461 and 462: `dim / 2` -/
  half : ℝ
  hhalf : Rounds u (dim / 2) half
  /-- lines 461-462, with their intermediate results -/
  num1 : ℝ
  num2 : ℝ
  q1 : ℝ
  q2 : ℝ
  hnum1 : Rounds u (o - half) num1
  hnum2 : Rounds u (o + half) num2
  hq1 : Rounds u (-num1 / addMask d (isclose0 d)) q1
  hq2 : Rounds u (-num2 / addMask d (isclose0 d)) q2
  /-- lines 464-469 -/
  hbounds : bounds = (if isclose0 d then (if |o| ≤ half then ⊥ else ⊤) else (q1 : EReal), if isclose0 d then ⊤ else (q2 : EReal))

/-- The values that `Plane.intersect` (`primitives.py` lines 436-492, one column) computes, rounded. -/
structure PlaneR (u width length : ℝ) (ray : Ray) (hits : EReal × EReal) where
  /-- lines 450-469 -/
  bx : EReal × EReal
  hbx : PlaneBoundR u width (ray.o 0) (ray.d 0) bx
  byy : EReal × EReal
  hbyy : PlaneBoundR u length (ray.o 1) (ray.d 1) byy
  /-- line 482 -/
  t : ℝ
  ht : Rounds u (-(ray.o 2) / addMask (ray.d 2) (isclose0 (ray.d 2))) t
  /-- lines 472-477 and 483-492 -/
  hhits : hits = if (if isclose0 (ray.d 2) then ⊤ else (t : EReal)) ≥ max (sort2 bx).1 (sort2 byy).1 ∧ (if isclose0 (ray.d 2) then ⊤ else (t : EReal)) ≤ min (sort2 bx).2 (sort2 byy).2
    then (if isclose0 (ray.d 2) then ⊤ else (t : EReal), if isclose0 (ray.d 2) then ⊤ else (t : EReal)) else (⊤, ⊤)

end PyRayT
