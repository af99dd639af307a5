import Verif.Model.World

/-!
# Which object is inside which, and tidy histories

Vocabulary for the statements on composites (C19, C20).
-/

namespace PyRayT

/-- `p` is a CSG object with child `a` -/
def IsParent (h : Heap) (p a : ℕ) : Prop := ∃ op l r, (h.obj p).kind = .csg op l r ∧ (a = l ∨ a = r)

/-- no composite has `a` as a child -/
def Top (h : Heap) (a : ℕ) : Prop := ∀ p < h.size, ¬ IsParent h p a

/-- Objects a tidy history may move: an object that is not inside a composite, a surface directly inside composites
that are not themselves inside one, and groups of such objects (the first argument is the recursion depth). -/
def Allowed (h : Heap) : ℕ → ℕ → Prop
  | 0, _ => True
  | fuel + 1, a => match (h.obj a).kind with
    | .group ms => ∀ b ∈ ms, Allowed h fuel b
    | .prim _ => ∀ p < h.size, IsParent h p a → Top h p
    | _ => Top h a

/-- Commands of a tidy history: the operands of a new composite are not inside a composite already and differ, the
right operand of a union or intersection is a surface, and movements are of allowed objects. -/
def TidyCmd (fuel : ℕ) (h : Heap) : Cmd → Prop
  | .newCsg op l r => Top h l ∧ Top h r ∧ l ≠ r ∧ (op = .difference ∨ ∃ q, (h.obj r).kind = .prim q)
  | .movement a _ => Allowed h fuel a
  | _ => True

/-- A history of valid tidy commands without exceptions. -/
inductive TidyReaches (argsort : List EReal → List ℕ) (fuel : ℕ) : Heap → Heap → Prop where
  | refl (h : Heap) : TidyReaches argsort fuel h h
  | step {h h' h'' : Heap} (c : Cmd) : TidyReaches argsort fuel h h' → c.valid h' → TidyCmd fuel h' c →
      exec argsort fuel h' c = (h'', none) → TidyReaches argsort fuel h h''

/-- `Chain h c x k`: there is a path from the composite `c` down to `x` on which `x` is subtracted `k` times. -/
inductive Chain (h : Heap) (c : ℕ) : ℕ → ℕ → Prop where
  | refl : Chain h c c 0
  | left {p k l r : ℕ} {op : Operation} : Chain h c p k → (h.obj p).kind = .csg op l r → Chain h c l k
  | right {p k l r : ℕ} {op : Operation} : Chain h c p k → (h.obj p).kind = .csg op l r →
      Chain h c r (if op = .difference then k + 1 else k)

end PyRayT
