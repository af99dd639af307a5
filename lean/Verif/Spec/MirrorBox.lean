import Verif.Spec.Fermat

/-!
# Reflections in a rectangular box, independent of the tracer
-/

namespace PyRayT.Spec

/-- A folding of the line onto the interval from `lo` to `hi`: the identity there, and symmetric about both ends. -/
structure Folds (lo hi : ℝ) (F : ℝ → ℝ) : Prop where
  inside : ∀ x, lo ≤ x → x ≤ hi → F x = x
  low : ∀ x, F (2 * lo - x) = F x
  high : ∀ x, F (2 * hi - x) = F x

/-- an affine placement that keeps the three axes perpendicular to each other: scaling first, then turning and moving -/
def Rectangular (w : Mat4) : Prop :=
  w 3 = ![0, 0, 0, 1] ∧ ∀ i j : Fin 3, i ≠ j →
    w 0 i.castSucc * w 0 j.castSucc + w 1 i.castSucc * w 1 j.castSucc + w 2 i.castSucc * w 2 j.castSucc = 0

end PyRayT.Spec
