import Verif.Model.World

/-! The boxes computed by `_update_bounding_box` on one axis. -/

namespace PyRayT

theorem perms4 {σ : List ℕ} (h : σ.Perm (List.range 4)) : σ ∈ [
    [0,1,2,3],[0,1,3,2],[0,2,1,3],[0,2,3,1],[0,3,1,2],[0,3,2,1],
    [1,0,2,3],[1,0,3,2],[1,2,0,3],[1,2,3,0],[1,3,0,2],[1,3,2,0],
    [2,0,1,3],[2,0,3,1],[2,1,0,3],[2,1,3,0],[2,3,0,1],[2,3,1,0],
    [3,0,1,2],[3,0,2,1],[3,1,0,2],[3,1,2,0],[3,2,0,1],[3,2,1,0]] := by
  have h1 : σ ∈ (List.range 4).permutations' := List.mem_permutations'.2 h
  have h2 : ∀ τ ∈ (List.range 4).permutations', τ ∈ [
    [0,1,2,3],[0,1,3,2],[0,2,1,3],[0,2,3,1],[0,3,1,2],[0,3,2,1],
    [1,0,2,3],[1,0,3,2],[1,2,0,3],[1,2,3,0],[1,3,0,2],[1,3,2,0],
    [2,0,1,3],[2,0,3,1],[2,1,0,3],[2,1,3,0],[2,3,0,1],[2,3,1,0],
    [3,0,1,2],[3,0,2,1],[3,1,0,2],[3,1,2,0],[3,2,0,1],[3,2,1,0]] := by decide
  exact h2 σ h1

/-- `argsort` of two properly overlapping intervals: the two lower ends first -/
theorem argsort_overlap {argsort : List EReal → List ℕ} (ha : IsArgsort argsort) {a b c d : EReal}
    (h1 : a < b) (h2 : c < d) (h3 : a < d) (h4 : c < b) :
    let σ := argsort [a, b, c, d]
    (a ≤ c ∧ b ≤ d ∧ σ = [0, 2, 1, 3]) ∨ (a ≤ c ∧ d ≤ b ∧ σ = [0, 2, 3, 1]) ∨
    (c ≤ a ∧ b ≤ d ∧ σ = [2, 0, 1, 3]) ∨ (c ≤ a ∧ d ≤ b ∧ σ = [2, 0, 3, 1]) := by
  obtain ⟨hp, hs⟩ := ha [a, b, c, d]
  have := perms4 hp
  simp only [List.mem_cons, List.not_mem_nil, or_false] at this
  rcases this with h | h | h | h | h | h | h | h | h | h | h | h | h | h | h | h | h | h | h | h | h | h | h | h <;>
    (rw [h] at hs; simp [gather] at hs; simp only [h])
  all_goals first
    | (exfalso; revert hs; simp only [not_le.2 h1, not_le.2 h2, not_le.2 h3, not_le.2 h4]; simp; done)
    | simp [hs.1.1, hs.2.2]

/-- `argsort` of two intervals, the first entirely before the second -/
theorem argsort_separate {argsort : List EReal → List ℕ} (ha : IsArgsort argsort) {a b c d : EReal}
    (h1 : a < b) (h2 : c < d) (h3 : b < c) : argsort [a, b, c, d] = [0, 1, 2, 3] := by
  obtain ⟨hp, hs⟩ := ha [a, b, c, d]
  have h4 := h1.trans h3
  have h5 := h4.trans h2
  have h6 := h3.trans h2
  have := perms4 hp
  simp only [List.mem_cons, List.not_mem_nil, or_false] at this
  rcases this with h | h | h | h | h | h | h | h | h | h | h | h | h | h | h | h | h | h | h | h | h | h | h | h <;>
    (rw [h] at hs; simp [gather] at hs; try rw [h])
  all_goals
    exfalso; revert hs
    simp only [not_le.2 h1, not_le.2 h2, not_le.2 h3, not_le.2 h4, not_le.2 h5, not_le.2 h6]; simp

/-- the same with the second interval first -/
theorem argsort_separate' {argsort : List EReal → List ℕ} (ha : IsArgsort argsort) {a b c d : EReal}
    (h1 : a < b) (h2 : c < d) (h3 : d < a) : argsort [a, b, c, d] = [2, 3, 0, 1] := by
  obtain ⟨hp, hs⟩ := ha [a, b, c, d]
  have h4 := h2.trans h3
  have h5 := h4.trans h1
  have h6 := h3.trans h1
  have := perms4 hp
  simp only [List.mem_cons, List.not_mem_nil, or_false] at this
  rcases this with h | h | h | h | h | h | h | h | h | h | h | h | h | h | h | h | h | h | h | h | h | h | h | h <;>
    (rw [h] at hs; simp [gather] at hs; try rw [h])
  all_goals
    exfalso; revert hs
    simp only [not_le.2 h1, not_le.2 h2, not_le.2 h3, not_le.2 h4, not_le.2 h5, not_le.2 h6]; simp

theorem insertionSort_ends {x y : EReal} (h : x ≤ y) :
    ([x, ⊤, ⊤, y] : List EReal).insertionSort (· ≤ ·) = [x, y, ⊤, ⊤] := by
  by_cases hy : y = ⊤
  · subst hy
    simp [List.insertionSort_cons, List.orderedInsert]
  · have hx : x ≠ ⊤ := fun hx => hy (top_le_iff.1 (hx ▸ h))
    simp [List.insertionSort_cons, List.orderedInsert, hy, hx, h]

theorem insertionSort_mid {x y : EReal} (h : x ≤ y) :
    ([⊤, x, y, ⊤] : List EReal).insertionSort (· ≤ ·) = [x, y, ⊤, ⊤] := by
  by_cases hy : y = ⊤
  · subst hy
    by_cases hx : x = ⊤ <;> simp [List.insertionSort_cons, List.orderedInsert, hx]
  · have hx : x ≠ ⊤ := fun hx => hy (top_le_iff.1 (hx ▸ h))
    simp [List.insertionSort_cons, List.orderedInsert, hy, hx, h]

theorem arrayCsg_overlap_union {argsort : List EReal → List ℕ} (ha : IsArgsort argsort) {a b c d : EReal}
    (h1 : a < b) (h2 : c < d) (h3 : a < d) (h4 : c < b) :
    arrayCsg argsort [a, b] [c, d] .union = [min a c, max b d, ⊤, ⊤] := by
  have key := argsort_overlap ha h1 h2 h3 h4
  simp only at key
  have hle : min a c ≤ max b d := (min_le_left _ _).trans (h1.le.trans (le_max_left _ _))
  unfold arrayCsg arrayCsgUnsorted
  simp only [List.cons_append, List.nil_append, List.length_cons, List.length_nil]
  rw [← insertionSort_ends hle]
  rcases key with ⟨k1, k2, k3⟩ | ⟨k1, k2, k3⟩ | ⟨k1, k2, k3⟩ | ⟨k1, k2, k3⟩ <;>
    rw [k3] <;> simp [gather, keepMask, surfaceCount, cumsumFrom, signMask, roll, k1, k2]

theorem arrayCsg_overlap_intersect {argsort : List EReal → List ℕ} (ha : IsArgsort argsort) {a b c d : EReal}
    (h1 : a < b) (h2 : c < d) (h3 : a < d) (h4 : c < b) :
    arrayCsg argsort [a, b] [c, d] .intersect = [max a c, min b d, ⊤, ⊤] := by
  have key := argsort_overlap ha h1 h2 h3 h4
  simp only at key
  have hle : max a c ≤ min b d := max_le (le_min h1.le h3.le) (le_min h4.le h2.le)
  unfold arrayCsg arrayCsgUnsorted
  simp only [List.cons_append, List.nil_append, List.length_cons, List.length_nil]
  rw [← insertionSort_mid hle]
  rcases key with ⟨k1, k2, k3⟩ | ⟨k1, k2, k3⟩ | ⟨k1, k2, k3⟩ | ⟨k1, k2, k3⟩ <;>
    rw [k3] <;> simp [gather, keepMask, surfaceCount, cumsumFrom, signMask, roll, k1, k2]

/-- union and intersection of boxes that properly overlap on an axis -/
theorem csgBox_overlap {argsort : List EReal → List ℕ} (ha : IsArgsort argsort) (l r : Box) (i : Fin 3)
    (h1 : (l i).1 < (l i).2) (h2 : (r i).1 < (r i).2) (h3 : (l i).1 < (r i).2) (h4 : (r i).1 < (l i).2) :
    csgBox argsort .union l r i = (min (l i).1 (r i).1, max (l i).2 (r i).2) ∧
    csgBox argsort .intersect l r i = (max (l i).1 (r i).1, min (l i).2 (r i).2) := by
  have hle : min (l i).1 (r i).1 ≤ max (l i).2 (r i).2 := (min_le_left _ _).trans (h1.le.trans (le_max_left _ _))
  have hle' : max (l i).1 (r i).1 ≤ min (l i).2 (r i).2 := max_le (le_min h1.le h3.le) (le_min h4.le h2.le)
  constructor
  · simp only [csgBox, arrayCsg_overlap_union ha h1 h2 h3 h4, sort2]
    simp only [List.getD_cons_zero, List.getD_cons_succ]
    rw [min_eq_left hle, max_eq_right hle]
  · simp only [csgBox, arrayCsg_overlap_intersect ha h1 h2 h3 h4, sort2]
    simp only [List.getD_cons_zero, List.getD_cons_succ]
    rw [min_eq_left hle', max_eq_right hle']

end PyRayT
