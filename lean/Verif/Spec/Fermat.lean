import Mathlib.Algebra.BigOperators.Intervals
import Verif.Spec.CsgTree

/-!
# Optical path length

Independent of the tracer: a broken line through given points, with a refractive index on each piece.
-/

namespace PyRayT.Spec

/-- length of the broken line `P 0, P 1, ..., P k`, each piece weighted with its index -/
noncomputable def opticalPath (index : ℕ → ℝ) (P : ℕ → Vec4) (k : ℕ) : ℝ :=
  ∑ g ∈ Finset.range k, index g * √((P (g + 1) 0 - P g 0) ^ 2 + (P (g + 1) 1 - P g 1) ^ 2 + (P (g + 1) 2 - P g 2) ^ 2)

/-- the point is on the surface of the solid: neither strictly inside nor outside -/
def OnBoundary (s : Solid) (q : Vec4) : Prop := ¬ s.Interior q ∧ ¬ s.Outside q

end PyRayT.Spec
