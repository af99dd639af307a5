import Verif.Spec.CsgTree
import Verif.Spec.Normals

/-!
# A ray goes through the surface of a solid

Stated with the solid only.
-/

namespace PyRayT.Spec

/-- Just before `t` the ray is strictly inside the solid and just after it strictly outside, or the other way round. -/
def Pierces (s : Solid) (ray : Ray) (t : ℝ) : Prop :=
  (Soon fun u => s.Interior (ray.at (t - u)) ∧ s.Outside (ray.at (t + u))) ∨
  (Soon fun u => s.Outside (ray.at (t - u)) ∧ s.Interior (ray.at (t + u)))

end PyRayT.Spec
