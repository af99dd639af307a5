import Verif.Proofs.Csg

/-! Further helper lemmas on `arrayCsg`: shape of the output, and the stable case. -/

namespace PyRayT

section
variable {α : Type*} [LinearOrder α] [OrderTop α]

theorem insertionArgsort_isArgsort : IsArgsort (insertionArgsort (α := α)) := by
  intro xs
  refine ⟨List.perm_insertionSort _ _, ?_⟩
  rw [gather, List.pairwise_map]
  have : Std.Total fun i j : ℕ => xs.getD i ⊤ ≤ xs.getD j ⊤ := ⟨fun i j => le_total _ _⟩
  have : IsTrans ℕ fun i j : ℕ => xs.getD i ⊤ ≤ xs.getD j ⊤ := ⟨fun i j k => le_trans⟩
  exact List.pairwise_insertionSort _ _

theorem mem_takeWhile_imp' {β : Type*} {p : β → Bool} {x : β} {l : List β}
    (h : x ∈ l.takeWhile p) : p x = true := by
  induction l with
  | nil => simp at h
  | cons y l ih =>
    rw [List.takeWhile_cons] at h
    split at h
    · rcases List.mem_cons.1 h with rfl | h
      · assumption
      · exact ih h
    · simp at h

theorem insertionSort_stable (v : ℕ → α) (l : List ℕ) (hl : l.Pairwise (· < ·)) :
    (l.insertionSort fun i j => v i ≤ v j).Pairwise fun i j => v i = v j → i < j := by
  induction l with
  | nil => simp
  | cons a l ih =>
    rw [List.pairwise_cons] at hl
    rw [List.insertionSort_cons, List.orderedInsert_eq_take_drop]
    have ih := ih hl.2
    rw [← List.takeWhile_append_dropWhile (p := fun b => decide ¬ v a ≤ v b)
      (l := l.insertionSort fun i j => v i ≤ v j), List.pairwise_append] at ih
    rw [List.pairwise_append]
    refine ⟨ih.1, ?_, ?_⟩
    · rw [List.pairwise_cons]
      refine ⟨fun b hb _ => hl.1 b ?_, ih.2.1⟩
      have := (List.dropWhile_sublist _).subset hb
      simpa using this
    · intro b hb c hc
      rw [List.mem_cons] at hc
      rcases hc with rfl | hc
      · intro h
        have := mem_takeWhile_imp' hb
        simp [h] at this
      · exact ih.2.2 b hb c hc

theorem insertionArgsort_isStable : IsStableArgsort (insertionArgsort (α := α)) :=
  ⟨insertionArgsort_isArgsort, fun xs =>
    insertionSort_stable (fun i => xs.getD i ⊤) _ List.pairwise_lt_range⟩

theorem zipPrev_length {β γ : Type*} (g : β → β → γ) (z : β) (xs : List β) :
    (zipPrev g z xs).length = xs.length := by
  induction xs generalizing z with
  | nil => rfl
  | cons x xs ih => simp [zipPrev, ih]

theorem roll_length {β : Type*} (xs : List β) : (roll xs).length = xs.length := by
  cases xs with
  | nil => rfl
  | cons x xs => simp [roll, List.getLast?_cons]

theorem keepMask_length (op : Operation) (cs : List ℤ) : (keepMask op cs).length = cs.length := by
  cases op <;> simp [keepMask, roll_length]

theorem surfaceCount_length (op : Operation) (n : ℕ) (σ : List ℕ) :
    (surfaceCount op n σ).length = σ.length := by
  rw [surfaceCount_eq, cumsumFrom_length, List.length_map]

theorem arrayCsgUnsorted_length (argsort : List α → List ℕ) (h : IsArgsort argsort) (l r : List α)
    (op : Operation) : (arrayCsgUnsorted argsort l r op).length = l.length + r.length := by
  rw [arrayCsgUnsorted]
  simp [keepMask_length, surfaceCount_length, gather, (h (l ++ r)).1.length_eq]

theorem mask_perm (vs : List α) (ks : List Bool) (h : vs.length = ks.length) :
    ∃ k : List α, k.Sublist vs ∧
      (List.zipWith (fun v k => if k then v else ⊤) vs ks).Perm
        (k ++ List.replicate (vs.length - k.length) ⊤) := by
  induction vs generalizing ks with
  | nil => exact ⟨[], List.Sublist.refl _, by simp⟩
  | cons v vs ih =>
    cases ks with
    | nil => simp at h
    | cons b ks =>
      obtain ⟨k, hk, hp⟩ := ih ks (by simpa using h)
      cases b with
      | true =>
        exact ⟨v :: k, hk.cons_cons v, by simpa using hp⟩
      | false =>
        refine ⟨k, hk.cons v, ?_⟩
        have hlen := hk.length_le
        have : (v :: vs).length - k.length = (vs.length - k.length) + 1 := by simp; omega
        rw [this, List.replicate_succ]
        simp only [List.zipWith_cons_cons]
        refine List.Perm.trans ?_ List.perm_middle.symm
        simpa using hp

theorem gather_perm (xs : List α) (σ : List ℕ) (h : σ.Perm (List.range xs.length)) :
    (gather ⊤ xs σ).Perm xs := by
  have h1 : (gather ⊤ xs σ).Perm (gather ⊤ xs (List.range xs.length)) := h.map _
  have h2 : gather ⊤ xs (List.range xs.length) = xs := by
    apply List.ext_getElem
    · simp [gather]
    · intro i h1 h2
      simp [gather, List.getElem?_eq_getElem h2]
  rw [h2] at h1
  exact h1

theorem arrayCsg_shape (argsort : List α → List ℕ) (h : IsArgsort argsort) (l r : List α)
    (op : Operation) :
    ∃ k : List α, k.Subperm (l ++ r) ∧
      arrayCsg argsort l r op = k ++ List.replicate (l.length + r.length - k.length) ⊤ := by
  obtain ⟨k, hk, hp⟩ := mask_perm (gather ⊤ (l ++ r) (argsort (l ++ r)))
    (keepMask op (surfaceCount op l.length (argsort (l ++ r))))
    (by simp [keepMask_length, surfaceCount_length, gather])
  have hg := gather_perm (l ++ r) _ (h (l ++ r)).1
  refine ⟨k.insertionSort (· ≤ ·), ?_, ?_⟩
  · exact (((List.perm_insertionSort _ k).subperm).trans hk.subperm).trans hg.subperm
  · have hlen : (gather ⊤ (l ++ r) (argsort (l ++ r))).length = l.length + r.length := by
      rw [hg.length_eq, List.length_append]
    rw [hlen] at hp
    rw [List.length_insertionSort]
    apply List.Perm.eq_of_pairwise (le := (· ≤ ·))
    · intro a b _ _ h1 h2; exact le_antisymm h1 h2
    · exact List.pairwise_insertionSort _ _
    · rw [List.pairwise_append]
      refine ⟨List.pairwise_insertionSort _ _, ?_, ?_⟩
      · rw [List.pairwise_replicate]; exact Or.inr le_rfl
      · intro a _ b hb
        rw [(List.mem_replicate.1 hb).2]; exact le_top
    · refine (List.perm_insertionSort _ _).trans (hp.trans ?_)
      exact (List.perm_insertionSort _ k).symm.append_right _

/-! ### exact characterisation for a stable argsort -/

theorem count_keptVals_ne (op : Operation) [BEq α] [LawfulBEq α] (v : α) (hv : v ≠ ⊤) (acc : ℤ)
    (ps : List (α × ℤ)) (h : ∀ q ∈ ps, q.1 ≠ v) : (keptVals op acc ps).count v = 0 := by
  induction ps generalizing acc with
  | nil => simp [keptVals]
  | cons q ps ih =>
    obtain ⟨w, s⟩ := q
    rw [keptVals, List.count_cons_of_ne, ih]
    · intro q hq; exact h q (List.mem_cons_of_mem _ hq)
    · split
      · exact h _ List.mem_cons_self
      · exact fun h => hv h.symm

/-- alternating list of signs of length `n` starting with `s` -/
def altSigns (s : ℤ) : ℕ → List ℤ
  | 0 => []
  | n + 1 => s :: altSigns (-s) n

theorem keptVals_skip (op : Operation) [BEq α] [LawfulBEq α] (v : α) (hv : v ≠ ⊤) (acc : ℤ)
    (ps qs : List (α × ℤ)) (h : ∀ q ∈ ps, q.1 ≠ v) :
    (keptVals op acc (ps ++ qs)).count v =
      (keptVals op (acc + (ps.map Prod.snd).sum) qs).count v := by
  induction ps generalizing acc with
  | nil => simp
  | cons q ps ih =>
    obtain ⟨w, s⟩ := q
    rw [List.cons_append, keptVals, List.count_cons_of_ne, ih]
    · simp [add_assoc]
    · intro q hq; exact h q (List.mem_cons_of_mem _ hq)
    · split
      · exact h _ List.mem_cons_self
      · exact fun h => hv h.symm

theorem keptVals_group (op : Operation) [BEq α] [LawfulBEq α] (v : α) (hv : v ≠ ⊤) (acc s : ℤ)
    (n : ℕ) (qs : List (α × ℤ)) (h : ∀ q ∈ qs, q.1 ≠ v) :
    (keptVals op acc ((altSigns s n).map (fun s => (v, s)) ++ qs)).count v =
      if xor (flag op (acc + s)) (flag op acc) then n else 0 := by
  induction n generalizing acc s with
  | zero => simp [altSigns, count_keptVals_ne op v hv acc qs h]
  | succ n ih =>
    rw [altSigns, List.map_cons, List.cons_append, keptVals, List.count_cons, ih]
    have : acc + s + -s = acc := by ring
    rw [this, Bool.xor_comm (flag op acc)]
    by_cases hk : xor (flag op (acc + s)) (flag op acc) = true
    · simp [hk]
    · simp only [hk]
      simp [hv.symm]

/-- A list with increasing keys splits at a key value `v`. -/
theorem sorted_split (key : ℕ → α) (σ : List ℕ) (hs : σ.Pairwise fun i j => key i ≤ key j) (v : α) :
    σ = (σ.filter fun i => decide (key i < v)) ++ (σ.filter fun i => decide (key i = v)) ++
      (σ.filter fun i => decide (v < key i)) := by
  induction σ with
  | nil => simp
  | cons i σ ih =>
    rw [List.pairwise_cons] at hs
    have ih := ih hs.2
    rcases lt_trichotomy (key i) v with h | h | h
    · rw [List.filter_cons_of_pos (by simpa using h), List.filter_cons_of_neg (by simpa using h.ne),
        List.filter_cons_of_neg (by simpa using h.le), List.cons_append, List.cons_append, ← ih]
    · have h0 : (σ.filter fun j => decide (key j < v)) = [] := by
        rw [List.filter_eq_nil_iff]; intro j hj
        have := hs.1 j hj
        simpa [← h] using this
      rw [h0] at ih
      rw [List.filter_cons_of_neg (by simp [h]), List.filter_cons_of_pos (by simpa using h),
        List.filter_cons_of_neg (by simp [h]), h0, List.nil_append, List.cons_append]
      rw [List.nil_append] at ih
      rw [← ih]
    · have h0 : (σ.filter fun j => decide (key j < v)) = [] := by
        rw [List.filter_eq_nil_iff]; intro j hj
        have := hs.1 j hj
        simpa using (h.le.trans this)
      have h1 : (σ.filter fun j => decide (key j = v)) = [] := by
        rw [List.filter_eq_nil_iff]; intro j hj
        have := hs.1 j hj
        simpa using (h.trans_le this).ne'
      rw [h0, h1] at ih
      rw [List.filter_cons_of_neg (by simpa using h.le), List.filter_cons_of_neg (by simpa using h.ne'),
        List.filter_cons_of_pos (by simpa using h), h0, h1]
      simp only [List.nil_append] at ih ⊢
      rw [← ih]

theorem map_altSigns (f : ℕ → ℤ) (a n : ℕ) (s : ℤ) (h : ∀ i, i < n → f (a + i) = s * (-1) ^ i) :
    (List.range' a n).map f = altSigns s n := by
  induction n generalizing a s with
  | zero => rfl
  | succ n ih =>
    rw [List.range'_succ, List.map_cons, altSigns, ih (a + 1) (-s)]
    · congr 1
      simpa using h 0 (by omega)
    · intro i hi
      have := h (i + 1) (by omega)
      rw [show a + 1 + i = a + (i + 1) by omega, this, pow_succ]; ring

/-- In a sorted list the positions of the value `v` are contiguous. -/
theorem filter_range_eq (l : List α) [BEq α] [LawfulBEq α] (hl : l.Pairwise (· ≤ ·)) (v : α)
    (hv : v ≠ ⊤) (start n : ℕ) (key : ℕ → α) (hn : n = l.length)
    (hk : ∀ i, i < n → key (start + i) = l.getD i ⊤) :
    (List.range' start n).filter (fun i => decide (key i = v)) =
      List.range' (start + l.countP fun h => decide (h < v)) (l.count v) := by
  subst hn
  induction l generalizing start with
  | nil => simp
  | cons x xs ih =>
    rw [List.pairwise_cons] at hl
    have hx : key start = x := by simpa using hk 0 (by simp)
    have ih := ih hl.2 (start + 1) (fun i hi => by
      have := hk (i + 1) (by simpa using hi)
      rw [show start + 1 + i = start + (i + 1) by omega, this]; simp)
    rw [List.length_cons, List.range'_succ]
    rcases lt_trichotomy x v with h | h | h
    · rw [List.filter_cons_of_neg (by simp [hx, h.ne]), ih, List.countP_cons_of_pos (by simpa using h),
        List.count_cons_of_ne h.ne]
      congr 1; omega
    · subst h
      have h0 : xs.countP (fun h => decide (h < x)) = 0 := by
        rw [List.countP_eq_zero]; intro y hy; simpa using hl.1 y hy
      rw [List.filter_cons_of_pos (by simp [hx]), ih, List.countP_cons_of_neg (by simp),
        List.count_cons_self, h0, List.range'_succ]
      simp
    · have h0 : xs.countP (fun h => decide (h < v)) = 0 := by
        rw [List.countP_eq_zero]; intro y hy; simpa using h.le.trans (hl.1 y hy)
      have h1 : xs.count v = 0 := by
        rw [List.count_eq_zero]; intro hv; exact absurd (hl.1 v hv) (not_le.2 h)
      rw [List.filter_cons_of_neg (by simp [hx, h.ne']), ih, List.countP_cons_of_neg (by simp [h.le]),
        List.count_cons_of_ne h.ne', h0, h1]
      simp

/-- Two permutations of each other, both strictly increasing, are equal. -/
theorem eq_of_perm_lt {a b : List ℕ} (h : a.Perm b) (ha : a.Pairwise (· < ·)) (hb : b.Pairwise (· < ·)) :
    a = b :=
  h.eq_of_pairwise (fun _ _ _ _ h1 h2 => absurd h1 (not_lt.2 h2.le)) ha hb

theorem getD_ne_of_not_mem (l : List α) (v : α) (hv : v ≠ ⊤) (h : v ∉ l) (i : ℕ) :
    l.getD i ⊤ ≠ v := by
  rw [List.getD_eq_getElem?_getD]
  intro he
  cases hi : l[i]? with
  | none => rw [hi] at he; exact hv (by simpa using he.symm)
  | some w =>
    rw [hi] at he
    exact h (by rw [← he]; exact List.mem_of_getElem? hi)

/-- Core of the exact characterisation: group of equal values all coming from one operand. -/
theorem count_arrayCsgUnsorted [BEq α] [LawfulBEq α] (argsort : List α → List ℕ)
    (h : IsStableArgsort argsort)
    (l r : List α) (op : Operation) (hle : Even l.length) (hre : Even r.length)
    (hl : l.Pairwise (· ≤ ·)) (hr : r.Pairwise (· ≤ ·)) (v : α) (hv : v ≠ ⊤)
    (start n : ℕ) (s : ℤ)
    (hgrp : (List.range (l ++ r).length).filter (fun i => decide ((l ++ r).getD i ⊤ = v)) =
      List.range' start n)
    (hsign : ∀ i, i < n → signMask op l.length (start + i) = s * (-1) ^ i) :
    (arrayCsgUnsorted argsort l r op).count v =
      let acc := base op + ((if l.countP (fun h => decide (h < v)) % 2 = 1 then 1 else 0) +
        (if r.countP (fun h => decide (h < v)) % 2 = 1 then rsign op else 0))
      if xor (flag op (acc + s)) (flag op acc) then n else 0 := by
  rw [arrayCsgUnsorted_eq argsort h.1 l r op hle hre]
  set σ := argsort (l ++ r) with hσ
  have hsort : σ.Pairwise fun i j => (l ++ r).getD i ⊤ ≤ (l ++ r).getD j ⊤ := by
    have := (h.1 (l ++ r)).2
    rwa [gather, List.pairwise_map] at this
  have hsplit := sorted_split (fun i => (l ++ r).getD i ⊤) σ hsort v
  have heq : (σ.filter fun i => decide ((l ++ r).getD i ⊤ = v)) = List.range' start n := by
    rw [← hgrp]
    apply eq_of_perm_lt
    · exact (h.1 (l ++ r)).1.filter _
    · have := (h.2 (l ++ r)).filter fun i => decide ((l ++ r).getD i ⊤ = v)
      refine this.imp_of_mem ?_
      intro i j hi hj hij
      rw [List.mem_filter] at hi hj
      have hi := hi.2; have hj := hj.2
      simp only [decide_eq_true_eq] at hi hj
      exact hij (by rw [hi, hj])
    · exact List.pairwise_lt_range.filter _
  rw [hsplit, heq, pairs, List.map_append, List.map_append, List.append_assoc]
  rw [keptVals_skip op v hv]
  · have e : (List.range' start n).map (fun i => ((l ++ r).getD i ⊤, signMask op l.length i)) =
        (altSigns s n).map fun s => (v, s) := by
      rw [← map_altSigns _ start n s hsign, List.map_map]
      apply List.map_congr_left
      intro i hi
      rw [← hgrp, List.mem_filter] at hi
      have := hi.2
      simp only [decide_eq_true_eq] at this
      simp only [Function.comp_apply, this]
    rw [e, keptVals_group op v hv]
    · rw [List.map_map]
      have := sum_signs op (fun h => decide (h < v)) (lowerPred_lt v) l r hl hr hle σ (h.1 _).1
      have e2 : (List.map (Prod.snd ∘ fun i => ((l ++ r).getD i ⊤, signMask op l.length i))
        (σ.filter fun i => decide ((l ++ r).getD i ⊤ < v))).sum = _ := this
      rw [e2]
    · intro q hq
      rw [List.mem_map] at hq
      obtain ⟨i, hi, rfl⟩ := hq
      rw [List.mem_filter] at hi
      have := hi.2
      simp only [decide_eq_true_eq] at this
      exact this.ne'
  · intro q hq
    rw [List.mem_map] at hq
    obtain ⟨i, hi, rfl⟩ := hq
    rw [List.mem_filter] at hi
    have := hi.2
    simp only [decide_eq_true_eq] at this
    exact this.ne

theorem group_left [BEq α] [LawfulBEq α] (l r : List α) (hl : l.Pairwise (· ≤ ·)) (v : α) (hv : v ≠ ⊤)
    (hvr : v ∉ r) :
    (List.range (l ++ r).length).filter (fun i => decide ((l ++ r).getD i ⊤ = v)) =
      List.range' (l.countP fun h => decide (h < v)) (l.count v) := by
  rw [List.length_append, List.range_eq_range', ← List.range'_append_1, List.filter_append, Nat.zero_add]
  rw [filter_range_eq l hl v hv 0 l.length _ rfl
    (fun i hi => by rw [Nat.zero_add, List.getD_append _ _ _ _ hi])]
  have : (List.range' l.length r.length).filter (fun i => decide ((l ++ r).getD i ⊤ = v)) = [] := by
    rw [List.filter_eq_nil_iff]
    intro i hi
    rw [List.mem_range'_1] at hi
    rw [List.getD_append_right _ _ _ _ (by omega)]
    simpa using getD_ne_of_not_mem r v hv hvr _
  rw [this, List.append_nil, Nat.zero_add]

theorem group_right [BEq α] [LawfulBEq α] (l r : List α) (hr : r.Pairwise (· ≤ ·)) (v : α) (hv : v ≠ ⊤)
    (hvl : v ∉ l) :
    (List.range (l ++ r).length).filter (fun i => decide ((l ++ r).getD i ⊤ = v)) =
      List.range' (l.length + r.countP fun h => decide (h < v)) (r.count v) := by
  rw [List.length_append, List.range_eq_range', ← List.range'_append_1, List.filter_append, Nat.zero_add]
  rw [filter_range_eq r hr v hv l.length r.length _ rfl
    (fun i hi => by rw [List.getD_append_right _ _ _ _ (by omega), Nat.add_sub_cancel_left])]
  have : (List.range' 0 l.length).filter (fun i => decide ((l ++ r).getD i ⊤ = v)) = [] := by
    rw [List.filter_eq_nil_iff]
    intro i hi
    rw [List.mem_range'_1] at hi
    rw [List.getD_append _ _ _ _ (by omega)]
    simpa using getD_ne_of_not_mem l v hv hvl _
  rw [this, List.nil_append]

theorem count_left [BEq α] [LawfulBEq α] (argsort : List α → List ℕ)
    (h : IsStableArgsort argsort)
    (l r : List α) (op : Operation) (hle : Even l.length) (hre : Even r.length)
    (hl : l.Pairwise (· ≤ ·)) (hr : r.Pairwise (· ≤ ·)) (v : α) (hv : v ≠ ⊤) (hvr : v ∉ r) :
    (arrayCsgUnsorted argsort l r op).count v =
      if (op = .intersect ↔ r.countP (fun h => decide (h < v)) % 2 = 1) then l.count v else 0 := by
  by_cases hmem : l.count v = 0
  · have hc := count_arrayCsgUnsorted argsort h l r op hle hre hl hr v hv _ _ 1
      (group_left l r hl v hv hvr) (by intro i hi; omega)
    rw [hc, hmem]; simp
  have hlt : ∀ i, i < l.count v → l.countP (fun h => decide (h < v)) + i < l.length := by
    intro i hi
    have : l.countP (fun h => decide (h < v)) + l.count v ≤ l.length := by
      have h1 := List.length_eq_countP_add_countP (fun h => decide (h < v)) (l := l)
      have h2 : l.count v ≤ l.countP (fun a => decide ¬ decide (a < v) = true) := by
        rw [List.count]
        apply List.countP_mono_left
        intro x _ hx
        rw [beq_iff_eq] at hx
        simp [hx]
      omega
    omega
  have hc := count_arrayCsgUnsorted argsort h l r op hle hre hl hr v hv _ _
      (if l.countP (fun h => decide (h < v)) % 2 = 1 then -1 else 1)
      (group_left l r hl v hv hvr) (by
        intro i hi
        rw [signMask_left _ _ _ (hlt i hi), pow_add]
        congr 1
        split
        · rename_i ho; exact Odd.neg_one_pow (Nat.odd_iff.2 ho)
        · rename_i ho; exact Even.neg_one_pow (Nat.even_iff.2 (by omega)))
  rw [hc]
  by_cases h1 : l.countP (fun h => decide (h < v)) % 2 = 1 <;>
    by_cases h2 : r.countP (fun h => decide (h < v)) % 2 = 1 <;>
    cases op <;> simp [flag, base, rsign, h1, h2]

theorem count_right [BEq α] [LawfulBEq α] (argsort : List α → List ℕ)
    (h : IsStableArgsort argsort)
    (l r : List α) (op : Operation) (hle : Even l.length) (hre : Even r.length)
    (hl : l.Pairwise (· ≤ ·)) (hr : r.Pairwise (· ≤ ·)) (v : α) (hv : v ≠ ⊤) (hvl : v ∉ l) :
    (arrayCsgUnsorted argsort l r op).count v =
      if (op = .union ↔ ¬ l.countP (fun h => decide (h < v)) % 2 = 1) then r.count v else 0 := by
  have hc := count_arrayCsgUnsorted argsort h l r op hle hre hl hr v hv _ _
      (if r.countP (fun h => decide (h < v)) % 2 = 1 then - rsign op else rsign op)
      (group_right l r hr v hv hvl) (by
        intro i hi
        rw [Nat.add_assoc, signMask_right _ _ _ hle, pow_add, ← mul_assoc]
        congr 1
        split
        · rename_i ho; rw [Odd.neg_one_pow (Nat.odd_iff.2 ho)]; ring
        · rename_i ho; rw [Even.neg_one_pow (Nat.even_iff.2 (by omega))]; ring)
  rw [hc]
  by_cases h1 : l.countP (fun h => decide (h < v)) % 2 = 1 <;>
    by_cases h2 : r.countP (fun h => decide (h < v)) % 2 = 1 <;>
    cases op <;> simp [flag, base, rsign, h1, h2]

end
end PyRayT
