import Verif.Model.RoundingPlane

/-!
# Rounded arithmetic: cuboids

Continues `RoundingPlane.lean`: the hits of `Cube`, with every operation rounded.
-/

namespace PyRayT

open Classical

/-- The values computed for one axis by `Cube.intersect` (`primitives.py` lines 531-565, one column), rounded. Changes of sign, comparisons, sorting and
the addition of the mask (zero where the quotient is used) are exact. -/
structure SlabR (u : ℝ) (span : ℝ × ℝ) (o d : ℝ) (bounds : EReal × EReal) where
  /-- lines 548-549 and 555-556, with their intermediate results -/
  num1 : ℝ
  num2 : ℝ
  q1 : ℝ
  q2 : ℝ
  hnum1 : Rounds u (o - span.1) num1
  hnum2 : Rounds u (o - span.2) num2
  hq1 : Rounds u (-num1 / addMask d (isclose0 d)) q1
  hq2 : Rounds u (-num2 / addMask d (isclose0 d)) q2
  /-- lines 536-561 -/
  hbounds : bounds = sort2 (if ¬ isclose0 d then (q1 : EReal) else if o ≤ span.2 ∧ o ≥ span.1 then ⊥ else ⊤, if ¬ isclose0 d then (q2 : EReal) else ⊤)

/-- The values that `Cube.intersect` (`primitives.py` lines 516-581, one column) computes for the cuboid with the corners `c1` and `c2`, rounded. Maxima and minima are exact. -/
structure CubeR (u : ℝ) (c1 c2 : Fin 3 → ℝ) (ray : Ray) (hits : EReal × EReal) where
  /-- lines 531-565 -/
  b : Fin 3 → EReal × EReal
  hb : ∀ i, SlabR u (cubeSpans c1 c2 i) (ray.o i.castSucc) (ray.d i.castSucc) (b i)
  /-- lines 567-581 -/
  hhits : hits = if max (max (b 0).1 (b 1).1) (b 2).1 < min (min (b 0).2 (b 1).2) (b 2).2
    then (max (max (b 0).1 (b 1).1) (b 2).1, min (min (b 0).2 (b 1).2) (b 2).2) else (⊤, ⊤)

end PyRayT
