import Verif.Model.World
import Verif.Spec.Solids
import Verif.Proofs.Primitives2

/-!
# Composite solids as sets of points

A composite is a tree of placed primitives. A point can be inside, outside or neither (on a boundary, up to closure).
Nothing here mentions rays or hit lists.
-/

namespace PyRayT

open Matrix

/-- a tree of placed primitives -/
inductive Solid where
  | leaf (p : Prim) (world : Mat4)
  | node (op : Operation) (l r : Solid)

/-- depth of the tree -/
def Solid.depth : Solid → ℕ
  | .leaf _ _ => 1
  | .node _ l r => max l.depth r.depth + 1

mutual
/-- strictly inside -/
def Solid.Interior : Solid → Vec4 → Prop
  | .leaf p w, q => ∃ x, w *ᵥ x = q ∧ Spec.Interior p x
  | .node .union l r, q => l.Interior q ∨ r.Interior q
  | .node .intersect l r, q => l.Interior q ∧ r.Interior q
  | .node .difference l r, q => l.Interior q ∧ r.Outside q
/-- strictly outside -/
def Solid.Outside : Solid → Vec4 → Prop
  | .leaf p w, q => ∀ x, w *ᵥ x = q → ¬ Spec.Closed p x
  | .node .union l r, q => l.Outside q ∧ r.Outside q
  | .node .intersect l r, q => l.Outside q ∨ r.Outside q
  | .node .difference l r, q => l.Outside q ∨ r.Interior q
end

/-- the object at an address, seen as a tree of placed primitives -/
inductive Represents (h : Heap) : ℕ → Solid → Prop where
  | leaf {a : ℕ} {p : Prim} : (h.obj a).kind = .prim p → Represents h a (.leaf p (h.obj a).world)
  | node {a l r : ℕ} {op : Operation} {sl sr : Solid} : (h.obj a).kind = .csg op l r → Represents h l sl →
      Represents h r sr → Represents h a (.node op sl sr)

/-- the leaves of the tree satisfy a predicate -/
def Solid.All (P : Prim → Mat4 → Prop) : Solid → Prop
  | .leaf p w => P p w
  | .node _ l r => l.All P ∧ r.All P

/-- the tolerance comparisons of the intersection routines do not misjudge this ray (in the coordinates of the
primitive): direction components that are compared with zero are zero or above 1e-8 -/
def Spec.Sees : Prim → Ray → Prop
  | .sphere _, r => r.d 0 ≠ 0 ∨ r.d 1 ≠ 0 ∨ r.d 2 ≠ 0
  | .paraboloid f h, r => 0 < f ∧ 0 < h ∧ Clear (r.d 2) ∧ (1e-8 < r.d 0 * r.d 0 + r.d 1 * r.d 1 ∨
      (r.d 0 * r.d 0 + r.d 1 * r.d 1 = 0 ∧ 1e-8 < |4 * f * r.d 2|))
  | .plane w l, r => 0 ≤ w ∧ 0 ≤ l ∧ Clear (r.d 0) ∧ Clear (r.d 1) ∧ Clear (r.d 2)
  | .cube _ _, r => Clear (r.d 0) ∧ Clear (r.d 1) ∧ Clear (r.d 2)
  | .cylinder _ a b, r => a ≤ b ∧ Clear (r.d 0 * r.d 0 + r.d 1 * r.d 1) ∧ Clear (r.d 2)

/-- two boxes overlap properly on every axis -/
def Spec.Overlap (l r : Box) : Prop :=
  ∀ i, (l i).1 < (l i).2 ∧ (r i).1 < (r i).2 ∧ (l i).1 < (r i).2 ∧ (r i).1 < (l i).2

end PyRayT
