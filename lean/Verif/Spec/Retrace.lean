import Verif.Spec.Trace
import Verif.Model.Solid

/-!
# Light on its way back

The ray that goes the same line the other way, and what it needs to go back the way it came. Stated with the distances and surfaces that
the components report, without arrays, masks or sorting.
-/

namespace PyRayT

/-- the same line, from the point at `T`, in the opposite direction -/
def Ray.back (r : Ray) (T : ℝ) : Ray := ⟨r.at T, -r.d⟩

namespace Spec

/-- a pair of lists of distances and surface ids reports the distance `v` for the surface `s` -/
def Reported (h : List EReal × List ℤ) (v : ℝ) (s : ℤ) : Prop := ∃ i : ℕ, h.1[i]? = some (v : EReal) ∧ h.2[i]? = some s

/-- the component reports the same points of the line, on the same surfaces, from either side -/
def TwoWay (c : Component) (r : Ray) : Prop :=
  ∀ T v s, Reported (c.intersect (r.back T)) v s ↔ Reported (c.intersect r) (T - v) s

end Spec

end PyRayT
