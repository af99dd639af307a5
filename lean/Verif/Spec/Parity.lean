import Verif.Model.Csg
import Mathlib.Algebra.Ring.Parity

/-!
# Specification of boolean operations on hit lists

A list of hit parameters describes a subset of the line: `t` is inside when an odd number of hits
lie before it.  This file does not use anything of the model except the operation names.
-/

namespace PyRayT.Spec

variable {α : Type*} [LinearOrder α]

/-- `t` lies inside the point set described by a list of hits: an odd number of hits precede `t`. -/
def InsideAt (hits : List α) (t : α) : Prop := Odd (hits.countP fun h => decide (h < t))

/-- The same with hits at `t` counted as already passed. -/
def InsideAfter (hits : List α) (t : α) : Prop := Odd (hits.countP fun h => decide (h ≤ t))

/-- The set operation an `Operation` stands for, on propositions. -/
def _root_.PyRayT.Operation.holds : Operation → Prop → Prop → Prop
  | .union, p, q => p ∨ q
  | .intersect, p, q => p ∧ q
  | .difference, p, q => p ∧ ¬ q

end PyRayT.Spec
