import Verif.Proofs.CsgStable
import Mathlib.Order.Fin.Basic
import Mathlib.Tactic.NormNum

/-!
# Properties C01 - C03: `array_csg`

The value type is any linear order with a greatest element (`np.inf`), so infinities, repeated values
and every float are covered.  The hypotheses (sorted arrays, even lengths) are the ones in the
docstring of `array_csg`.
-/

namespace PyRayT

open Spec

section
variable {α : Type*} [LinearOrder α] [OrderTop α]

/-- **C01.** For every threshold `t` and every tie-breaking of argsort: an odd number of hits of the
result precede `t` iff the operation holds of "an odd number of hits of `l` (of `r`) precede `t`". -/
theorem C01_arrayCsg_parity (argsort : List α → List ℕ) (ha : IsArgsort argsort)
    (l r : List α) (op : Operation)
    (hl : l.Pairwise (· ≤ ·)) (hr : r.Pairwise (· ≤ ·))
    (hle : Even l.length) (hre : Even r.length) (t : α) :
    InsideAt (arrayCsg argsort l r op) t ↔ op.holds (InsideAt l t) (InsideAt r t) := by
  have h := countP_arrayCsgUnsorted argsort ha l r op hle hre hl hr _ (lowerPred_lt t)
  unfold InsideAt
  rw [arrayCsg, (List.perm_insertionSort _ _).countP_eq]
  exact h

/-- **C01**, hits at `t` itself counted as passed (`t` finite). -/
theorem C01_arrayCsg_parity_after (argsort : List α → List ℕ) (ha : IsArgsort argsort)
    (l r : List α) (op : Operation)
    (hl : l.Pairwise (· ≤ ·)) (hr : r.Pairwise (· ≤ ·))
    (hle : Even l.length) (hre : Even r.length) (t : α) (ht : t ≠ ⊤) :
    InsideAfter (arrayCsg argsort l r op) t ↔ op.holds (InsideAfter l t) (InsideAfter r t) := by
  have h := countP_arrayCsgUnsorted argsort ha l r op hle hre hl hr _ (lowerPred_le t ht)
  unfold InsideAfter
  rw [arrayCsg, (List.perm_insertionSort _ _).countP_eq]
  exact h

/-- **C02.** The result has the combined length, is sorted, and consists of a sub-multiset of the
inputs followed by `inf` padding. -/
theorem C02_arrayCsg_shape (argsort : List α → List ℕ) (ha : IsArgsort argsort)
    (l r : List α) (op : Operation) :
    (arrayCsg argsort l r op).length = l.length + r.length ∧
    (arrayCsg argsort l r op).Pairwise (· ≤ ·) ∧
    ∃ k : List α, k.Subperm (l ++ r) ∧
      arrayCsg argsort l r op = k ++ List.replicate (l.length + r.length - k.length) ⊤ := by
  refine ⟨?_, List.pairwise_insertionSort _ _, arrayCsg_shape argsort ha l r op⟩
  rw [arrayCsg, List.length_insertionSort, arrayCsgUnsorted_length argsort ha]

/-- Which crossings of the left operand bound the result: those outside (inside, for an
intersection) the right operand. -/
def Spec.keepsLeft (op : Operation) (insideOther : Prop) : Prop :=
  match op with
  | .union => ¬ insideOther
  | .intersect => insideOther
  | .difference => ¬ insideOther

/-- Which crossings of the right operand bound the result: those outside the left operand for a
union, inside it otherwise. -/
def Spec.keepsRight (op : Operation) (insideOther : Prop) : Prop :=
  match op with
  | .union => ¬ insideOther
  | .intersect => insideOther
  | .difference => insideOther

/-- **C03** (left operand). A finite value occurring in `array1` only is kept, with its full
multiplicity, iff it bounds the result, and is dropped completely otherwise. -/
theorem C03_left_crossings (argsort : List α → List ℕ) (ha : IsStableArgsort argsort)
    (l r : List α) (op : Operation)
    (hl : l.Pairwise (· ≤ ·)) (hr : r.Pairwise (· ≤ ·))
    (hle : Even l.length) (hre : Even r.length) (v : α) (hv : v ≠ ⊤) (hvr : v ∉ r) :
    (Spec.keepsLeft op (InsideAt r v) → (arrayCsg argsort l r op).count v = l.count v) ∧
    (¬ Spec.keepsLeft op (InsideAt r v) → v ∉ arrayCsg argsort l r op) := by
  rw [← List.count_eq_zero, arrayCsg, (List.perm_insertionSort _ _).count_eq,
    count_left argsort ha l r op hle hre hl hr v hv hvr]
  unfold InsideAt
  rw [Nat.odd_iff]
  constructor
  · intro h
    rw [if_pos]
    cases op <;> simpa [Spec.keepsLeft] using h
  · intro h
    rw [if_neg]
    cases op <;> simpa [Spec.keepsLeft] using h

/-- **C03** (right operand). -/
theorem C03_right_crossings (argsort : List α → List ℕ) (ha : IsStableArgsort argsort)
    (l r : List α) (op : Operation)
    (hl : l.Pairwise (· ≤ ·)) (hr : r.Pairwise (· ≤ ·))
    (hle : Even l.length) (hre : Even r.length) (v : α) (hv : v ≠ ⊤) (hvl : v ∉ l) :
    (Spec.keepsRight op (InsideAt l v) → (arrayCsg argsort l r op).count v = r.count v) ∧
    (¬ Spec.keepsRight op (InsideAt l v) → v ∉ arrayCsg argsort l r op) := by
  rw [← List.count_eq_zero, arrayCsg, (List.perm_insertionSort _ _).count_eq,
    count_right argsort ha l r op hle hre hl hr v hv hvl]
  unfold InsideAt
  rw [Nat.odd_iff]
  constructor
  · intro h
    rw [if_pos]
    cases op <;> simpa [Spec.keepsRight] using h
  · intro h
    rw [if_neg]
    cases op <;> simpa [Spec.keepsRight] using h

/-- The hypothesis on `argsort` is met: insertion sort of the indices is a stable argsort. -/
theorem stable_argsort_exists : IsStableArgsort (insertionArgsort (α := α)) :=
  insertionArgsort_isStable

end

/-- Non-vacuity of C01-C03: concrete arrays (in `Fin 10`, whose top is 9) satisfying all hypotheses,
with the values the code computes. -/
example : ([1, 5] : List (Fin 10)).Pairwise (· ≤ ·) ∧ ([2, 3, 3, 7] : List (Fin 10)).Pairwise (· ≤ ·) ∧
    Even ([1, 5] : List (Fin 10)).length ∧ Even ([2, 3, 3, 7] : List (Fin 10)).length ∧
    arrayCsg insertionArgsort ([1, 5] : List (Fin 10)) [2, 3, 3, 7] .union = [1, 7, 9, 9, 9, 9] ∧
    arrayCsg insertionArgsort ([1, 5] : List (Fin 10)) [2, 3, 3, 7] .intersect = [2, 3, 3, 5, 9, 9] ∧
    arrayCsg insertionArgsort ([1, 5] : List (Fin 10)) [2, 3, 3, 7] .difference = [1, 2, 3, 3, 9, 9] := by
  decide

/-- **C03, necessity of stability.** With an argsort that meets the plain contract but returns equal
values in reverse order, the double hit of a plane inside a box is lost by an intersection: the
"including double hits" part of C03 relies on numpy's small-array sort being stable. -/
theorem C03_needs_stability :
    ∃ argsort : List (Fin 10) → List ℕ, IsArgsort argsort ∧
      (arrayCsg argsort [3, 3] [1, 5] .intersect).count 3 = 0 := by
  refine ⟨fun xs => (List.range xs.length).reverse.insertionSort
    fun i j => xs.getD i ⊤ ≤ xs.getD j ⊤, fun xs => ⟨?_, ?_⟩, by decide⟩
  · exact (List.perm_insertionSort _ _).trans (List.reverse_perm _)
  · rw [gather, List.pairwise_map]
    have : Std.Total fun i j : ℕ => xs.getD i ⊤ ≤ xs.getD j ⊤ := ⟨fun i j => le_total _ _⟩
    have : IsTrans ℕ fun i j : ℕ => xs.getD i ⊤ ≤ xs.getD j ⊤ := ⟨fun i j k => le_trans⟩
    exact List.pairwise_insertionSort _ _

end PyRayT
