import Verif.Proofs.Bundles
import Verif.Proofs.CsgStable
import Verif.Proofs.Solid

/-!
# The array code, column by column: masks, CSG and placed objects
-/

namespace PyRayT

open Classical Matrix

section
variable {α : Type*} {r s n m : ℕ}

theorem mem_picked {mask : Fin n → Prop} {j : Fin n} : j ∈ picked mask ↔ mask j := by simp [picked]

theorem picked_nodup (mask : Fin n → Prop) : (picked mask).Nodup := (List.nodup_finRange n).filter _

/-- the place of a selected column among the selected ones -/
noncomputable def place (mask : Fin n → Prop) (j : Fin n) (h : mask j) : Fin (picked mask).length := ⟨(picked mask).idxOf j, List.idxOf_lt_length_of_mem (mem_picked.2 h)⟩

theorem get_place (mask : Fin n → Prop) (j : Fin n) (h : mask j) : (picked mask).get (place mask j h) = j := by
  simp [place]

theorem scatter_in {mask : Fin n → Prop} {j : Fin n} (h : mask j) (a : Tab α r n) (v : Tab α r (picked mask).length) (i : Fin r) :
    scatter mask a v i j = v i (place mask j h) := dif_pos (mem_picked.2 h)

theorem scatter_out {mask : Fin n → Prop} {j : Fin n} (h : ¬ mask j) (a : Tab α r n) (v : Tab α r (picked mask).length) (i : Fin r) :
    scatter mask a v i j = a i j := dif_neg fun hh => h (mem_picked.1 hh)

theorem compress_place {mask : Fin n → Prop} {j : Fin n} (h : mask j) (a : Tab α r n) (i : Fin r) : compress mask a i (place mask j h) = a i j := by
  unfold compress
  rw [get_place]

theorem Rays.compress_col (mask : Fin n → Prop) (rays : Rays n) (p : Fin (picked mask).length) : (rays.compress mask).col p = rays.col ((picked mask).get p) := rfl

theorem length_colList (a : Tab α r n) (j : Fin n) : (colList a j).length = r := by simp [colList]

theorem getElem_colList (a : Tab α r n) (j : Fin n) (i : ℕ) (h : i < (colList a j).length) :
    (colList a j)[i] = a ⟨i, by rwa [length_colList] at h⟩ j := by simp [colList]

theorem colList_ext {a : Tab α r n} {j : Fin n} {l : List α} (hl : l.length = r) (h : ∀ i : Fin r, l[i.val]'(by rw [hl]; exact i.isLt) = a i j) : colList a j = l := by
  apply List.ext_getElem
  · rw [length_colList, hl]
  · intro i h1 h2
    rw [getElem_colList, ← h ⟨i, by rwa [length_colList] at h1⟩]

theorem colList_vstack (a : Tab α r n) (b : Tab α s n) (j : Fin n) : colList (vstack a b) j = colList a j ++ colList b j := by
  have h : (fun i => vstack a b i j) = Fin.append (fun i => a i j) (fun i => b i j) := by
    funext i
    refine Fin.addCases (fun i => ?_) (fun i => ?_) i
    · simp [vstack]
    · simp [vstack]
  unfold colList
  rw [h, List.ofFn_fin_append]

theorem colList_sort0 (a : Tab EReal r n) (j : Fin n) : colList (sort0 a) j = (colList a j).insertionSort (· ≤ ·) := by
  have hp : (colList (sort0 a) j).Perm (colList a j) := by
    have := Equiv.Perm.ofFn_comp_perm (Tuple.sort fun k => a k j) (fun k => a k j)
    exact this
  have hs : (colList (sort0 a) j).Pairwise (· ≤ ·) := by
    have hm := Tuple.monotone_sort fun k => a k j
    unfold colList
    rw [List.pairwise_ofFn]
    intro p q hpq
    exact hm hpq.le
  exact List.Perm.eq_of_pairwise (le := (· ≤ ·)) (fun _ _ _ _ => le_antisymm) hs (List.pairwise_insertionSort _ _) (hp.trans (List.perm_insertionSort _ _).symm)

theorem colList_full (x : α) (j : Fin n) : colList (fun _ : Fin r => npFull x) j = List.replicate r x := by
  simp [colList, npFull]

end

section
variable {r s n : ℕ} {argsort : List EReal → List ℕ}

theorem argsort0_apply (ha : IsArgsort argsort) (a : Tab EReal r n) (i : Fin r) (j : Fin n) :
    argsort0 argsort a i j = (argsort (colList a j))[i.val]'(by rw [(ha _).1.length_eq, List.length_range, length_colList]; exact i.isLt) := by
  have h : i.val < (argsort (colList a j)).length := by rw [(ha _).1.length_eq, List.length_range, length_colList]; exact i.isLt
  show (argsort (colList a j)).getD i 0 = _
  rw [List.getD_eq_getElem _ _ h]

theorem argsort0_lt (ha : IsArgsort argsort) (a : Tab EReal r n) (i : Fin r) (j : Fin n) : argsort0 argsort a i j < r := by
  rw [argsort0_apply ha]
  have := (ha (colList a j)).1.mem_iff.1 (List.getElem_mem (l := argsort (colList a j)) (n := i.val) (by rw [(ha _).1.length_eq, List.length_range, length_colList]; exact i.isLt))
  exact lt_of_lt_of_eq (List.mem_range.1 this) (length_colList a j)

/-- fancy indexing with the result of `argsort` gathers every column -/
theorem colList_takeRows {β : Type*} (ha : IsArgsort argsort) (d : β) (a : Tab EReal r n) (b : Tab β r n) (j : Fin n) :
    colList (takeRows d b (argsort0 argsort a)) j = gather d (colList b j) (argsort (colList a j)) := by
  have hl : (gather d (colList b j) (argsort (colList a j))).length = r := by
    simp only [gather, List.length_map]
    rw [(ha _).1.length_eq, List.length_range, length_colList]
  refine colList_ext hl fun i => ?_
  have hlt := argsort0_lt ha a i j
  simp only [gather, List.getElem_map, takeRows, dif_pos hlt]
  rw [← argsort0_apply ha a i j, List.getD_eq_getElem _ _ (by rwa [length_colList]), getElem_colList]

theorem cumsumFrom_getElem (acc : ℤ) (xs : List ℤ) (i : ℕ) (h : i < (cumsumFrom acc xs).length) : (cumsumFrom acc xs)[i] = acc + (xs.take (i + 1)).sum := by
  induction xs generalizing acc i with
  | nil => simp [cumsumFrom] at h
  | cons x xs ih =>
    cases i with
    | zero => simp [cumsumFrom]
    | succ i =>
      simp only [cumsumFrom, List.getElem_cons_succ, List.take_succ_cons, List.sum_cons]
      rw [ih]
      ring

theorem cumsum0_apply (a : Tab ℤ r n) (i : Fin r) (j : Fin n) : cumsum0 a i j = ((colList a j).take (i.val + 1)).sum := by
  have hle : i.val + 1 ≤ r := i.isLt
  have ht : (colList a j).take (i.val + 1) = List.ofFn fun k : Fin (i.val + 1) => a (k.castLE hle) j := by
    apply List.ext_getElem
    · simp [colList, hle]
    · intro k h1 h2
      rw [List.getElem_take, getElem_colList, List.getElem_ofFn]
      rfl
  rw [ht, List.sum_ofFn]
  refine (Finset.sum_bij (fun k _ => k.castLE hle) ?_ ?_ ?_ ?_).symm
  · intro k _
    simp only [Finset.mem_filter, Finset.mem_univ, true_and, Fin.le_def, Fin.val_castLE]
    have := k.isLt
    omega
  · intro k _ k' _ h
    exact Fin.castLE_injective hle h
  · intro k hk
    simp only [Finset.mem_filter, Finset.mem_univ, true_and, Fin.le_def] at hk
    exact ⟨⟨k.val, by omega⟩, Finset.mem_univ _, rfl⟩
  · intro k _
    rfl

theorem colList_cumsum0 (a : Tab ℤ r n) (j : Fin n) : colList (cumsum0 a) j = cumsumFrom 0 (colList a j) := by
  refine colList_ext (by rw [cumsumFrom_length, length_colList]) fun i => ?_
  rw [cumsumFrom_getElem, cumsum0_apply, zero_add]

theorem roll_getElem {β : Type*} (xs : List β) (i : ℕ) (h : i < (roll xs).length) :
    (roll xs)[i] = xs[(i + xs.length - 1) % xs.length]'(Nat.mod_lt _ (by rw [roll_length] at h; omega)) := by
  rcases List.eq_nil_or_concat xs with rfl | ⟨ys, z, rfl⟩
  · simp [roll] at h
  · have hr : roll (ys ++ [z]) = z :: ys := by simp [roll]
    simp only [List.concat_eq_append] at h ⊢
    simp only [hr] at h ⊢
    cases i with
    | zero => simp
    | succ i =>
      have hi : i < ys.length := by simpa using h
      have hm : (i + 1 + (ys ++ [z]).length - 1) % (ys ++ [z]).length = i := by
        rw [show i + 1 + (ys ++ [z]).length - 1 = i + (ys ++ [z]).length by omega, Nat.add_mod_right, Nat.mod_eq_of_lt]
        simp
        omega
      simp only [hm, List.getElem_cons_succ]
      rw [List.getElem_append_left hi]

theorem colList_roll0 {β : Type*} (a : Tab β r n) (j : Fin n) : colList (roll0 a) j = roll (colList a j) := by
  refine colList_ext (by rw [roll_length, length_colList]) fun i => ?_
  rw [roll_getElem, getElem_colList]
  simp only [roll0, length_colList]

theorem colList_map {β γ : Type*} (f : β → γ) (a : Tab β r n) (j : Fin n) : colList (fun i j => f (a i j)) j = (colList a j).map f := by
  simp [colList, List.map_ofFn, Function.comp_def]

theorem keep_union (count : Tab ℤ r n) (j : Fin n) (i : Fin r) (h : i.val < (keepMask .union (colList count j)).length) :
    (keepMask .union (colList count j))[i.val] = true ↔ Xor (count i j ≠ 0) (roll0 count i j ≠ 0) := by
  have e : keepMask .union (colList count j) = List.zipWith (fun a b => Bool.xor (decide (a ≠ 0)) (decide (b ≠ 0))) (colList count j) (colList (roll0 count) j) := by
    rw [colList_roll0]; rfl
  simp only [e, List.getElem_zipWith, getElem_colList]
  by_cases h1 : count i j = 0 <;> by_cases h2 : roll0 count i j = 0 <;> simp [h1, h2, Xor]

theorem keep_two (op : Operation) (hop : op ≠ .union) (count : Tab ℤ r n) (j : Fin n) (i : Fin r) (h : i.val < (keepMask op (colList count j)).length) :
    (keepMask op (colList count j))[i.val] = true ↔ count i j = 2 ∨ roll0 (fun i j => count i j = 2) i j := by
  have e : keepMask op (colList count j) = List.zipWith (fun a b => a || b) (colList (fun i j => decide (count i j = 2)) j) (colList (roll0 fun i j => decide (count i j = 2)) j) := by
    rw [colList_roll0, colList_map (fun c : ℤ => decide (c = 2))]
    cases op
    · exact absurd rfl hop
    · rfl
    · rfl
  simp only [e, List.getElem_zipWith, getElem_colList, Bool.or_eq_true, roll0, decide_eq_true_eq]

/-- `array_csg` on arrays is the model of `array_csg` on every column -/
theorem arrayCsgUnsortedA_col (ha : IsArgsort argsort) (a : Tab EReal r n) (b : Tab EReal s n) (op : Operation) (j : Fin n) :
    colList (arrayCsgUnsortedA argsort a b op) j = arrayCsgUnsorted argsort (colList a j) (colList b j) op := by
  have hlen := arrayCsgUnsorted_length argsort ha (colList a j) (colList b j) op
  rw [length_colList, length_colList] at hlen
  refine colList_ext hlen fun i => ?_
  have hm := colList_takeRows ha ⊤ (vstack a b) (vstack a b) j
  rw [colList_vstack] at hm
  have hmi : ∀ h, (gather ⊤ (colList a j ++ colList b j) (argsort (colList a j ++ colList b j)))[i.val]'h = takeRows ⊤ (vstack a b) (argsort0 argsort (vstack a b)) i j := by
    intro h
    simp only [← hm]
    rw [getElem_colList]
  have hord : colList (argsort0 argsort (vstack a b)) j = argsort (colList a j ++ colList b j) := by
    refine colList_ext (by rw [(ha _).1.length_eq, List.length_range, List.length_append, length_colList, length_colList]) fun i => ?_
    rw [argsort0_apply ha]
    simp only [colList_vstack]
  simp only [arrayCsgUnsorted, List.getElem_zipWith, hmi]
  cases op with
  | union =>
    have hc : surfaceCount .union (colList a j).length (argsort (colList a j ++ colList b j)) =
        colList (cumsum0 fun i j => if argsort0 argsort (vstack a b) i j % 2 = 1 then (-1 : ℤ) else 1) j := by
      rw [colList_cumsum0, colList_map (fun k : ℕ => if k % 2 = 1 then (-1 : ℤ) else 1), hord]
      rfl
    simp only [hc, keep_union, arrayCsgUnsortedA, npWhere, npFull]
    congr
  | intersect =>
    have hc : surfaceCount .intersect (colList a j).length (argsort (colList a j ++ colList b j)) =
        colList (cumsum0 fun i j => if argsort0 argsort (vstack a b) i j % 2 = 1 then (-1 : ℤ) else 1) j := by
      rw [colList_cumsum0, colList_map (fun k : ℕ => if k % 2 = 1 then (-1 : ℤ) else 1), hord]
      rfl
    simp only [hc, keep_two .intersect (by decide), arrayCsgUnsortedA, npWhere, npFull]
    congr
  | difference =>
    have hc : surfaceCount .difference (colList a j).length (argsort (colList a j ++ colList b j)) =
        colList (fun i j => cumsum0 (fun i j => if Xor (argsort0 argsort (vstack a b) i j % 2 = 1) (argsort0 argsort (vstack a b) i j ≥ r) then (-1 : ℤ) else 1) i j + 1) j := by
      rw [colList_map (fun c : ℤ => c + 1), colList_cumsum0, colList_map (fun k : ℕ => if Xor (k % 2 = 1) (k ≥ r) then (-1 : ℤ) else 1), hord, length_colList]
      show List.map _ (cumsumFrom 0 _) = _
      congr 2
      apply List.map_congr_left
      intro k _
      by_cases h1 : k % 2 = 1 <;> by_cases h2 : r ≤ k <;> simp [signMask, h1, h2, Xor]
    simp only [hc, keep_two .difference (by decide), arrayCsgUnsortedA, npWhere, npFull]
    congr

theorem arrayCsgA_col (ha : IsArgsort argsort) (a : Tab EReal r n) (b : Tab EReal s n) (op : Operation) (j : Fin n) :
    colList (arrayCsgA argsort a b op) j = arrayCsg argsort (colList a j) (colList b j) op := by
  rw [arrayCsgA, colList_sort0, arrayCsgUnsortedA_col ha, arrayCsg]

end

/-! ### objects -/

section
variable {argsort : List EReal → List ℕ}

theorem colList_two {α : Type*} {n : ℕ} (a : Tab α 2 n) (j : Fin n) : colList a j = [(colPair a j).1, (colPair a j).2] := by
  simp [colList, colPair]

/-- the number of rows of `intersect` of an object -/
noncomputable def hitRows : ℕ → Heap → ℕ → ℕ
  | 0, _, _ => 0
  | fuel + 1, h, a =>
    match (h.obj a).kind with
    | .prim _ => 2
    | .csg _ l r => hitRows fuel h l + hitRows fuel h r
    | _ => 0

theorem intersectObj_rows (ha : IsArgsort argsort) (h : Heap) (ray : Ray) (fuel a : ℕ) : (intersectObj argsort fuel h a ray).1.length = hitRows fuel h a := by
  induction fuel generalizing a with
  | zero => rfl
  | succ fuel ih =>
    unfold intersectObj hitRows
    cases hk : (h.obj a).kind with
    | prim p => rfl
    | csg op l r =>
      simp only
      split_ifs
      · rw [(csgCombine_length argsort ha _ _ _ _ _ _).1, ih, ih]
      · simp only [List.length_replicate, ih]
    | group ms => rfl
    | plain => rfl

theorem intersectA_rows (junk : ∀ n, Tab EReal 2 (2 * n)) (h : Heap) (fuel a : ℕ) {n : ℕ} (rays : Rays n) :
    (intersectA argsort junk fuel h a rays).rows = hitRows fuel h a := by
  induction fuel generalizing a n with
  | zero => rfl
  | succ fuel ih =>
    unfold intersectA hitRows
    cases hk : (h.obj a).kind with
    | prim p => rfl
    | csg op l r => simp only [csgCombineA, ih]
    | group ms => rfl
    | plain => rfl

theorem intersectA_prim (junk : ∀ n, Tab EReal 2 (2 * n)) {h : Heap} {a : ℕ} {p : Prim} (hk : (h.obj a).kind = .prim p) (fuel : ℕ) {n : ℕ} (rays : Rays n) :
    intersectA argsort junk (fuel + 1) h a rays =
      ⟨2, sort0 (p.intersectA (junk n) fun k => matmulA (h.obj a).objT (rays k)), fun _ => npFull ((h.obj a).oid : ℤ)⟩ := by
  rw [intersectA]
  split
  · rename_i p' hk'
    rw [hk] at hk'
    cases hk'
    rfl
  · rename_i hk'
    rw [hk] at hk'
    cases hk'
  · rename_i h1 h2
    exact absurd hk (h1 p)

theorem intersectA_csg (junk : ∀ n, Tab EReal 2 (2 * n)) {h : Heap} {a l r : ℕ} {op : Operation} (hk : (h.obj a).kind = .csg op l r) (fuel : ℕ) {n : ℕ} (rays : Rays n)
    {mask : Fin n → Prop} (hm : mask = fun j => ∃ i, boxIntersectA (h.obj a).aobb rays i j ≠ ⊤ ∧ boxIntersectA (h.obj a).aobb rays i j ≠ ⊥) :
    intersectA argsort junk (fuel + 1) h a rays =
      csgCombineA argsort op mask (intersectA argsort junk fuel h l (rays.compress mask)) (intersectA argsort junk fuel h r (rays.compress mask)) := by
  subst hm
  rw [intersectA]
  split
  · rename_i hk'
    rw [hk] at hk'
    cases hk'
  · rename_i hk'
    rw [hk] at hk'
    cases hk'
    rfl
  · rename_i h1 h2
    exact absurd hk (h2 op l r)

theorem intersectA_none (junk : ∀ n, Tab EReal 2 (2 * n)) {h : Heap} {a : ℕ} (h1 : ∀ p, (h.obj a).kind ≠ .prim p) (h2 : ∀ op l r, (h.obj a).kind ≠ .csg op l r) (fuel : ℕ)
    {n : ℕ} (rays : Rays n) : intersectA argsort junk (fuel + 1) h a rays = ⟨0, nofun, nofun⟩ := by
  rw [intersectA]
  split
  · rename_i hk
    exact absurd hk (h1 _)
  · rename_i hk
    exact absurd hk (h2 _ _ _)
  · rfl

theorem colList_scatter_in {α : Type*} {r n : ℕ} {mask : Fin n → Prop} {j : Fin n} (h : mask j) (a : Tab α r n) (v : Tab α r (picked mask).length) :
    colList (scatter mask a v) j = colList v (place mask j h) := by
  unfold colList
  congr 1
  funext i
  exact scatter_in h _ _ _

theorem colList_scatter_out {α : Type*} {r n : ℕ} {mask : Fin n → Prop} {j : Fin n} (h : ¬ mask j) (a : Tab α r n) (v : Tab α r (picked mask).length) :
    colList (scatter mask a v) j = colList a j := by
  unfold colList
  congr 1
  funext i
  exact scatter_out h _ _ _

theorem csgCombineA_in (ha : IsArgsort argsort) (op : Operation) {n : ℕ} {mask : Fin n → Prop} {j : Fin n} (hm : mask j) (lh rh : HitsA (picked mask).length) :
    (colList (csgCombineA argsort op mask lh rh).hits j, colList (csgCombineA argsort op mask lh rh).surfaces j) =
      csgCombine argsort (-1) op (colList lh.hits (place mask j hm)) (colList lh.surfaces (place mask j hm)) (colList rh.hits (place mask j hm))
        (colList rh.surfaces (place mask j hm)) := by
  simp only [csgCombineA, csgCombine]
  rw [colList_scatter_in hm, colList_scatter_in hm, colList_takeRows ha, colList_takeRows ha, colList_takeRows ha, arrayCsgUnsortedA_col ha, colList_vstack, colList_vstack]

theorem csgCombineA_out (op : Operation) {n : ℕ} {mask : Fin n → Prop} {j : Fin n} (hm : ¬ mask j) (lh rh : HitsA (picked mask).length) :
    (colList (csgCombineA argsort op mask lh rh).hits j, colList (csgCombineA argsort op mask lh rh).surfaces j) =
      (List.replicate (lh.rows + rh.rows) ⊤, List.replicate (lh.rows + rh.rows) (-1)) := by
  simp only [csgCombineA]
  rw [colList_scatter_out hm, colList_scatter_out hm, colList_full, colList_full]

theorem matmul_col (m : Mat4) {n : ℕ} (rays : Rays n) (j : Fin n) : Rays.col (fun k => matmulA m (rays k)) j = (rays.col j).map m := by
  apply Ray.ext
  · exact matmulA_col m (rays 0) j
  · exact matmulA_col m (rays 1) j

theorem box_mask (box : Box) {n : ℕ} (rays : Rays n) (j : Fin n) :
    (∃ i, boxIntersectA box rays i j ≠ ⊤ ∧ boxIntersectA box rays i j ≠ ⊥) ↔ boxPasses box (rays.col j) := by
  unfold boxPasses
  rw [← boxIntersectA_col]
  simp only [Fin.exists_fin_two, colPair]

/-- hits and surfaces of `intersect`, for every ray of the array, are those of the model for that ray alone -/
theorem intersectA_col_obj (ha : IsArgsort argsort) (junk : ∀ n, Tab EReal 2 (2 * n)) (h : Heap) (fuel a : ℕ) {n : ℕ} (rays : Rays n) (j : Fin n) :
    (colList (intersectA argsort junk fuel h a rays).hits j, colList (intersectA argsort junk fuel h a rays).surfaces j) =
      intersectObj argsort fuel h a (rays.col j) := by
  induction fuel generalizing a n with
  | zero => rfl
  | succ fuel ih =>
    cases hk : (h.obj a).kind with
    | prim p =>
      rw [intersectA_prim junk hk]
      simp only [intersectObj, hk, leafIntersect]
      rw [colList_two, colPair_sort, intersectA_col, matmul_col]
      simp [colList, npFull]
    | csg op l r =>
      set mask : Fin n → Prop := fun j => ∃ i, boxIntersectA (h.obj a).aobb rays i j ≠ ⊤ ∧ boxIntersectA (h.obj a).aobb rays i j ≠ ⊥ with hmask
      rw [intersectA_csg junk hk fuel rays hmask]
      simp only [intersectObj, hk]
      by_cases hb : boxPasses (h.obj a).aobb (rays.col j)
      · have hm : mask j := (box_mask _ rays j).2 hb
        rw [if_pos hb, csgCombineA_in ha op hm]
        have hcol : (rays.compress mask).col (place mask j hm) = rays.col j := by rw [Rays.compress_col, get_place]
        have hl := ih l (rays.compress mask) (place mask j hm)
        have hr := ih r (rays.compress mask) (place mask j hm)
        rw [hcol] at hl hr
        rw [← hl, ← hr]
      · have hm : ¬ mask j := fun hh => hb ((box_mask _ rays j).1 hh)
        rw [if_neg hb, csgCombineA_out op hm, intersectObj_rows ha, intersectObj_rows ha, intersectA_rows, intersectA_rows]
    | group ms =>
      rw [intersectA_none junk (by simp [hk]) (by simp [hk])]
      simp only [intersectObj, hk]
      rfl
    | plain =>
      rw [intersectA_none junk (by simp [hk]) (by simp [hk])]
      simp only [intersectObj, hk]
      rfl

end

end PyRayT
