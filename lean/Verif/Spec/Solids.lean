import Verif.Model.Primitives

/-!
# The solids, as sets of points

Independent of how intersections are computed: inequalities on the coordinates in object space.
-/

namespace PyRayT.Spec

/-- closed solid (plane: the rectangle itself) -/
def Closed : Prim → Vec4 → Prop
  | .sphere r, p => p 0 ^ 2 + p 1 ^ 2 + p 2 ^ 2 ≤ r ^ 2
  | .paraboloid f h, p => p 0 ^ 2 + p 1 ^ 2 ≤ 4 * f * p 2 ∧ p 2 ≤ h
  | .plane w l, p => p 2 = 0 ∧ |p 0| ≤ w / 2 ∧ |p 1| ≤ l / 2
  | .cube a b, p => ∀ i : Fin 3, min (a i) (b i) ≤ p i.castSucc ∧ p i.castSucc ≤ max (a i) (b i)
  | .cylinder r a b, p => p 0 ^ 2 + p 1 ^ 2 ≤ r ^ 2 ∧ min a b ≤ p 2 ∧ p 2 ≤ max a b

/-- strict interior (a plane has none) -/
def Interior : Prim → Vec4 → Prop
  | .sphere r, p => p 0 ^ 2 + p 1 ^ 2 + p 2 ^ 2 < r ^ 2
  | .paraboloid f h, p => p 0 ^ 2 + p 1 ^ 2 < 4 * f * p 2 ∧ p 2 < h
  | .plane _ _, _ => False
  | .cube a b, p => ∀ i : Fin 3, min (a i) (b i) < p i.castSucc ∧ p i.castSucc < max (a i) (b i)
  | .cylinder r a b, p => p 0 ^ 2 + p 1 ^ 2 < r ^ 2 ∧ min a b < p 2 ∧ p 2 < max a b

end PyRayT.Spec
