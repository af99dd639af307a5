import Verif.Spec.Parity
import Mathlib.Algebra.Ring.Parity
import Mathlib.Data.List.GetD
import Mathlib.Tactic.Ring
import Mathlib.Tactic.Linarith

/-! Helper lemmas on `arrayCsg`. -/

namespace PyRayT

section
variable {α : Type*} [LinearOrder α] [OrderTop α]

/-- truth value of a count -/
def flag (op : Operation) (c : ℤ) : Bool :=
  match op with
  | .union => decide (c ≠ 0)
  | .intersect | .difference => decide (c = 2)

/-- start value of the running count -/
def base (op : Operation) : ℤ :=
  match op with
  | .union | .intersect => 0
  | .difference => 1

/-- The masked values as a recursion along the sorted list of (value, sign). -/
def keptVals (op : Operation) (acc : ℤ) : List (α × ℤ) → List α
  | [] => []
  | (v, s) :: ps => (if xor (flag op (acc + s)) (flag op acc) then v else ⊤) ::
      keptVals op (acc + s) ps

theorem cumsumFrom_length (acc : ℤ) (xs : List ℤ) : (cumsumFrom acc xs).length = xs.length := by
  induction xs generalizing acc with
  | nil => rfl
  | cons s ss ih => simp [cumsumFrom, ih]

theorem cumsumFrom_add (acc k : ℤ) (xs : List ℤ) :
    (cumsumFrom acc xs).map (· + k) = cumsumFrom (acc + k) xs := by
  induction xs generalizing acc with
  | nil => rfl
  | cons s ss ih => simp [cumsumFrom, ih, add_right_comm]

theorem surfaceCount_eq (op : Operation) (n1 : ℕ) (σ : List ℕ) :
    surfaceCount op n1 σ = cumsumFrom (base op) (σ.map (signMask op n1)) := by
  cases op <;> simp [surfaceCount, base, cumsumFrom_add]

theorem cumsumFrom_getLast? (acc : ℤ) (xs : List ℤ) (h : xs ≠ []) :
    (cumsumFrom acc xs).getLast? = some (acc + xs.sum) := by
  induction xs generalizing acc with
  | nil => exact absurd rfl h
  | cons s ss ih =>
    cases ss with
    | nil => simp [cumsumFrom]
    | cons s' ss' =>
      rw [cumsumFrom]
      have := ih (acc + s) (by simp)
      rw [cumsumFrom] at this ⊢
      rw [List.getLast?_cons_cons, this]
      simp [add_assoc]

/-- pairwise combination with the previous element -/
def zipPrev {β γ : Type*} (g : β → β → γ) (prev : β) : List β → List γ
  | [] => []
  | x :: xs => g x prev :: zipPrev g x xs

theorem zipWith_dropLast {β γ : Type*} (g : β → β → γ) (prev : β) (xs : List β) :
    List.zipWith g xs (prev :: xs.dropLast) = zipPrev g prev xs := by
  induction xs generalizing prev with
  | nil => rfl
  | cons x xs ih =>
    cases xs with
    | nil => simp [zipPrev]
    | cons y ys =>
      simp only [List.dropLast_cons_cons, List.zipWith_cons_cons, zipPrev]
      congr 1
      exact ih x

theorem zipWith_roll {β γ : Type*} (g : β → β → γ) (xs : List β) (z : β)
    (h : xs ≠ [] → xs.getLast? = some z) :
    List.zipWith g xs (roll xs) = zipPrev g z xs := by
  cases xs with
  | nil => rfl
  | cons x xs =>
    have := h (by simp)
    rw [roll, this]
    exact zipWith_dropLast g z _

theorem signMask_abs (op : Operation) (n1 i : ℕ) : signMask op n1 i = 1 ∨ signMask op n1 i = -1 := by
  unfold signMask
  cases op <;> dsimp only <;> split <;> simp

theorem zipPrev_map {β β' γ : Type*} (g : β' → β' → γ) (f : β → β') (prev : β) (xs : List β) :
    zipPrev g (f prev) (xs.map f) = zipPrev (fun a b => g (f a) (f b)) prev xs := by
  induction xs generalizing prev with
  | nil => rfl
  | cons x xs ih => simp [zipPrev, ih]

/-- The mask, as comparison of the flags of consecutive counts, when the signs sum to zero. -/
theorem keepMask_eq (op : Operation) (ss : List ℤ) (h0 : ss.sum = 0)
    (h1 : ∀ s ∈ ss, s = 1 ∨ s = -1) :
    keepMask op (cumsumFrom (base op) ss) =
      zipPrev (fun a b => xor (flag op a) (flag op b)) (base op) (cumsumFrom (base op) ss) := by
  have hlast : cumsumFrom (base op) ss ≠ [] →
      (cumsumFrom (base op) ss).getLast? = some (base op) := by
    intro h
    have : ss ≠ [] := by rintro rfl; exact h rfl
    rw [cumsumFrom_getLast? _ _ this, h0, add_zero]
  have key : ∀ (acc : ℤ) (ss : List ℤ), (∀ s ∈ ss, s = 1 ∨ s = -1) →
      zipPrev (fun a b : ℤ => (decide (a = 2) || decide (b = 2))) acc (cumsumFrom acc ss) =
      zipPrev (fun a b : ℤ => xor (decide (a = 2)) (decide (b = 2))) acc (cumsumFrom acc ss) := by
    intro acc ss
    induction ss generalizing acc with
    | nil => intro _; rfl
    | cons s ss ih =>
      intro h
      simp only [cumsumFrom, zipPrev]
      rw [ih _ fun x hx => h x (List.mem_cons_of_mem _ hx)]
      congr 1
      have hs := h s (List.mem_cons_self ..)
      by_cases ha : acc = 2
      · have : ¬ (acc + s = 2) := by rcases hs with h | h <;> omega
        simp [ha] at this ⊢
        exact this
      · simp [ha]
  cases op with
  | union => exact zipWith_roll _ _ _ hlast
  | intersect =>
    simp only [keepMask]
    rw [zipWith_roll _ _ (decide (base .intersect = 2))]
    · rw [zipPrev_map (fun a b => a || b) (fun c : ℤ => decide (c = 2))]
      exact key _ _ h1
    · intro h
      rw [List.getLast?_map, hlast (by simpa using h)]; rfl
  | difference =>
    simp only [keepMask]
    rw [zipWith_roll _ _ (decide (base .difference = 2))]
    · rw [zipPrev_map (fun a b => a || b) (fun c : ℤ => decide (c = 2))]
      exact key _ _ h1
    · intro h
      rw [List.getLast?_map, hlast (by simpa using h)]; rfl

theorem zipWith_keptVals (op : Operation) (acc : ℤ) (ps : List (α × ℤ)) :
    List.zipWith (fun v k => if k then v else ⊤) (ps.map Prod.fst)
      (zipPrev (fun a b => xor (flag op a) (flag op b)) acc (cumsumFrom acc (ps.map Prod.snd))) =
      keptVals op acc ps := by
  induction ps generalizing acc with
  | nil => rfl
  | cons p ps ih =>
    obtain ⟨v, s⟩ := p
    simp [cumsumFrom, zipPrev, keptVals, ih]

/-- Alternating sum of the signs of an array's elements with a property true of an initial part. -/
theorem altsum_range' (f : ℕ → ℤ) (a : ℤ) (start n m : ℕ) (p : ℕ → Bool)
    (hf : ∀ i, f (start + i) = a * (-1) ^ i) (hp : ∀ i, i < n → (p (start + i) = true ↔ i < m)) (hm : m ≤ n) :
    (((List.range' start n).filter p).map f).sum = if m % 2 = 1 then a else 0 := by
  induction n generalizing m with
  | zero =>
    obtain rfl : m = 0 := by omega
    simp
  | succ n ih =>
    rw [List.range'_concat, List.filter_append, List.map_append, List.sum_append]
    rcases Nat.lt_or_ge n m with hnm | hnm
    · obtain rfl : m = n + 1 := by omega
      rw [ih n (fun i hi => by rw [hp i (by omega)]; omega) le_rfl]
      have : p (start + n) = true := (hp n (by omega)).2 (by omega)
      rw [one_mul, List.filter_cons_of_pos this]
      simp only [List.filter_nil, List.map_cons, List.map_nil, List.sum_cons, List.sum_nil,
        add_zero, hf]
      rcases Nat.even_or_odd n with h | h
      · rw [h.neg_one_pow]
        rw [Nat.even_iff] at h
        rw [if_neg (by omega), if_pos (by omega)]; ring
      · rw [h.neg_one_pow]
        rw [Nat.odd_iff] at h
        rw [if_pos (by omega), if_neg (by omega)]; ring
    · rw [ih m (fun i hi => hp i (by omega)) hnm]
      have : ¬ p (start + n) = true := by
        intro h
        have := (hp n (by omega)).1 h
        omega
      rw [one_mul, List.filter_cons_of_neg this]
      simp

/-- A predicate that holds of an initial part of the order, and not of `⊤`. -/
def LowerPred (p : α → Bool) : Prop := (∀ a b, a ≤ b → p b = true → p a = true) ∧ p ⊤ = false

theorem lowerPred_lt (t : α) : LowerPred fun h => decide (h < t) :=
  ⟨fun a b hab hb => by simp at *; exact lt_of_le_of_lt hab hb, by simp⟩

theorem lowerPred_le (t : α) (ht : t ≠ ⊤) : LowerPred fun h => decide (h ≤ t) :=
  ⟨fun a b hab hb => by simp at *; exact le_trans hab hb, by simpa using ht⟩

theorem sorted_lower (p : α → Bool) (hp : LowerPred p) (l : List α) (hl : l.Pairwise (· ≤ ·)) (i : ℕ)
    (hi : i < l.length) : p (l.getD i ⊤) = true ↔ i < l.countP p := by
  induction l generalizing i with
  | nil => simp at hi
  | cons x xs ih =>
    rw [List.pairwise_cons] at hl
    by_cases hx : p x = true
    · rw [List.countP_cons_of_pos hx]
      cases i with
      | zero => simp [hx]
      | succ i => simp only [List.getD_cons_succ]; rw [ih hl.2 i (by simpa using hi)]; omega
    · have h0 : xs.countP p = 0 := by
        rw [List.countP_eq_zero]
        intro y hy hpy
        exact hx (hp.1 _ _ (hl.1 y hy) hpy)
      rw [List.countP_cons_of_neg hx, h0]
      cases i with
      | zero => simp [hx]
      | succ i =>
        simp only [List.getD_cons_succ]; rw [ih hl.2 i (by simpa using hi), h0]; omega

theorem signMask_left (op : Operation) (n1 i : ℕ) (hi : i < n1) :
    signMask op n1 i = (-1) ^ i := by
  have : ¬ n1 ≤ i := by omega
  rcases Nat.even_or_odd i with h | h
  · rw [h.neg_one_pow]; rw [Nat.even_iff] at h
    cases op <;> simp [signMask, h, this]
  · rw [h.neg_one_pow]; rw [Nat.odd_iff] at h
    cases op <;> simp [signMask, h, this]

/-- sign with which the right operand enters -/
def rsign (op : Operation) : ℤ :=
  match op with
  | .union | .intersect => 1
  | .difference => -1

theorem signMask_right (op : Operation) (n1 i : ℕ) (hn : Even n1) :
    signMask op n1 (n1 + i) = rsign op * (-1) ^ i := by
  have h1 : n1 ≤ n1 + i := by omega
  rw [Nat.even_iff] at hn
  rcases Nat.even_or_odd i with h | h
  · rw [h.neg_one_pow]; rw [Nat.even_iff] at h
    have : (n1 + i) % 2 = 0 := by omega
    cases op <;> simp [signMask, this, rsign]
  · rw [h.neg_one_pow]; rw [Nat.odd_iff] at h
    have : (n1 + i) % 2 = 1 := by omega
    cases op <;> simp [signMask, this, rsign]

/-- Sum of the signs of all merged entries below a threshold. -/
theorem sum_signs (op : Operation) (p : α → Bool) (hp : LowerPred p) (l r : List α)
    (hl : l.Pairwise (· ≤ ·)) (hr : r.Pairwise (· ≤ ·)) (hle : Even l.length)
    (σ : List ℕ) (hσ : σ.Perm (List.range (l ++ r).length)) :
    ((σ.filter fun i => p ((l ++ r).getD i ⊤)).map (signMask op l.length)).sum =
      (if l.countP p % 2 = 1 then 1 else 0) + (if r.countP p % 2 = 1 then rsign op else 0) := by
  rw [((hσ.filter _).map _).sum_eq, List.length_append, List.range_eq_range',
    ← List.range'_append_1, List.filter_append, List.map_append, List.sum_append, Nat.zero_add]
  congr 1
  · have : ((List.range' 0 l.length).filter fun i => p ((l ++ r).getD i ⊤)).map (signMask op l.length)
        = ((List.range' 0 l.length).filter fun i => p ((l ++ r).getD i ⊤)).map fun i => (-1) ^ i := by
      apply List.map_congr_left
      intro i hi
      rw [List.mem_filter, List.mem_range'_1] at hi
      exact signMask_left _ _ _ (by omega)
    rw [this]
    refine altsum_range' _ 1 0 _ _ _ (fun i => by simp) (fun i hi => ?_) List.countP_le_length
    rw [Nat.zero_add, List.getD_append _ _ _ _ hi]
    exact sorted_lower p hp l hl i hi
  · refine altsum_range' _ _ l.length _ _ _ (fun i => signMask_right op _ _ hle)
      (fun i hi => ?_) List.countP_le_length
    rw [List.getD_append_right _ _ _ _ (by omega), Nat.add_sub_cancel_left]
    exact sorted_lower p hp r hr i hi

theorem sum_signs_all (op : Operation) (l r : List α) (hle : Even l.length) (hre : Even r.length)
    (σ : List ℕ) (hσ : σ.Perm (List.range (l ++ r).length)) :
    (σ.map (signMask op l.length)).sum = 0 := by
  rw [(hσ.map _).sum_eq, List.length_append, List.range_eq_range',
    ← List.range'_append_1, List.map_append, List.sum_append, Nat.zero_add]
  have h1 := altsum_range' (fun i => (-1) ^ i) 1 0 l.length l.length (fun _ => true)
    (fun i => by simp) (fun i hi => by simpa using hi) le_rfl
  have h2 := altsum_range' (signMask op l.length) (rsign op) l.length r.length r.length (fun _ => true)
    (fun i => signMask_right op _ _ hle) (fun i hi => by simpa using hi) le_rfl
  rw [Nat.even_iff] at hle hre
  rw [List.filter_true, if_neg (by omega)] at h1 h2
  rw [h2, add_zero, ← h1]
  congr 1
  apply List.map_congr_left
  intro i hi
  rw [List.mem_range'_1] at hi
  exact signMask_left _ _ _ (by omega)

theorem countP_keptVals (op : Operation) (p : α → Bool) (hp : LowerPred p) (acc : ℤ)
    (ps : List (α × ℤ)) (hs : (ps.map Prod.fst).Pairwise (· ≤ ·)) :
    decide ((keptVals op acc ps).countP p % 2 = 1) =
      xor (flag op (acc + ((ps.filter fun q => p q.1).map Prod.snd).sum)) (flag op acc) := by
  induction ps generalizing acc with
  | nil => simp [keptVals]
  | cons q ps ih =>
    obtain ⟨v, s⟩ := q
    rw [List.map_cons, List.pairwise_cons] at hs
    by_cases hv : p v = true
    · rw [List.filter_cons_of_pos (by simpa using hv), List.map_cons, List.sum_cons, ← add_assoc]
      have := ih (acc + s) hs.2
      rw [keptVals]
      by_cases hk : xor (flag op (acc + s)) (flag op acc) = true
      · rw [if_pos hk, List.countP_cons_of_pos hv]
        have h2 : decide (((keptVals op (acc + s) ps).countP p + 1) % 2 = 1) =
            !decide ((keptVals op (acc + s) ps).countP p % 2 = 1) := by
          rw [← decide_not]; congr 1; rw [eq_iff_iff]; omega
        rw [h2, this]
        revert hk
        cases flag op (acc + s) <;> cases flag op acc <;> simp
      · rw [if_neg hk, List.countP_cons_of_neg (by simp [hp.2]), this]
        revert hk
        cases flag op (acc + s) <;> cases flag op acc <;> simp
    · have h0 : (ps.filter fun q => p q.1) = [] := by
        rw [List.filter_eq_nil_iff]
        intro q hq hpq
        exact hv (hp.1 _ _ (hs.1 q.1 (List.mem_map_of_mem hq)) hpq)
      rw [List.filter_cons_of_neg (by simpa using hv), h0]
      have := ih (acc + s) hs.2
      rw [h0] at this
      simp only [List.map_nil, List.sum_nil, add_zero, Bool.xor_self, decide_eq_false_iff_not]
        at this
      rw [keptVals, List.countP_cons_of_neg]
      · simpa using this
      · split
        · exact hv
        · simp [hp.2]

/-- sorted list of (value, sign) pairs used by `arrayCsgUnsorted` -/
def pairs (op : Operation) (l r : List α) (σ : List ℕ) : List (α × ℤ) :=
  σ.map fun i => ((l ++ r).getD i ⊤, signMask op l.length i)

theorem arrayCsgUnsorted_eq (argsort : List α → List ℕ) (h : IsArgsort argsort) (l r : List α)
    (op : Operation) (hle : Even l.length) (hre : Even r.length) :
    arrayCsgUnsorted argsort l r op =
      keptVals op (base op) (pairs op l r (argsort (l ++ r))) := by
  rw [arrayCsgUnsorted, ← zipWith_keptVals]
  simp only [surfaceCount_eq]
  rw [keepMask_eq _ _ (sum_signs_all op l r hle hre _ (h _).1)]
  · simp only [gather, pairs, List.map_map, Function.comp_def]
  · intro s hs
    rw [List.mem_map] at hs
    obtain ⟨i, -, rfl⟩ := hs
    exact signMask_abs _ _ _

theorem flag_spec (op : Operation) (a b : Prop) [Decidable a] [Decidable b] :
    xor (flag op (base op + ((if a then 1 else 0) + (if b then rsign op else 0)))) (flag op (base op))
      = true ↔ op.holds a b := by
  by_cases ha : a <;> by_cases hb : b <;> cases op <;> simp [flag, base, rsign, ha, hb, Operation.holds]

theorem countP_arrayCsgUnsorted (argsort : List α → List ℕ) (h : IsArgsort argsort) (l r : List α)
    (op : Operation) (hle : Even l.length) (hre : Even r.length)
    (hl : l.Pairwise (· ≤ ·)) (hr : r.Pairwise (· ≤ ·)) (p : α → Bool) (hp : LowerPred p) :
    Odd ((arrayCsgUnsorted argsort l r op).countP p) ↔
      op.holds (Odd (l.countP p)) (Odd (r.countP p)) := by
  rw [arrayCsgUnsorted_eq argsort h l r op hle hre]
  have hs : ((pairs op l r (argsort (l ++ r))).map Prod.fst).Pairwise (· ≤ ·) := by
    simpa [pairs, List.map_map, Function.comp_def, gather] using (h (l ++ r)).2
  have key := countP_keptVals op p hp (base op) _ hs
  rw [pairs, List.filter_map, List.map_map] at key
  have e : List.map (Prod.snd ∘ fun i => ((l ++ r).getD i ⊤, signMask op l.length i))
      (List.filter ((fun q : α × ℤ => p q.1) ∘ fun i => ((l ++ r).getD i ⊤, signMask op l.length i))
        (argsort (l ++ r))) =
      ((argsort (l ++ r)).filter fun i => p ((l ++ r).getD i ⊤)).map (signMask op l.length) := rfl
  rw [e, sum_signs op p hp l r hl hr hle _ (h _).1] at key
  rw [Nat.odd_iff, Nat.odd_iff, Nat.odd_iff, ← flag_spec, ← key, decide_eq_true_iff]
  rfl

end
end PyRayT
