import Verif.Model.Bundles
import Mathlib.Tactic.Ring
import Mathlib.Tactic.Linarith

/-!
# The array code, column by column: lemmas
-/

namespace PyRayT

open Classical Matrix

section
variable {α : Type*} {r s n m : ℕ}

/-- both entries of a column of a 2 x n array -/
def colPair (a : Tab α 2 n) (j : Fin n) : α × α := (a 0 j, a 1 j)

theorem colPair_where (mask : Fin n → Prop) (a b : Tab α 2 n) (j : Fin n) :
    colPair (npWhere2 mask a b) j = if mask j then colPair a j else colPair b j := by
  simp only [colPair, npWhere2, npWhere]
  split_ifs <;> rfl

theorem perm_two_sort [LinearOrder α] (f : Fin 2 → α) (σ : Equiv.Perm (Fin 2)) (h : Monotone (f ∘ σ)) :
    f (σ 0) = min (f 0) (f 1) ∧ f (σ 1) = max (f 0) (f 1) := by
  have h01 : f (σ 0) ≤ f (σ 1) := h (by decide)
  have hne : σ 0 ≠ σ 1 := fun hh => absurd (σ.injective hh) (by decide)
  have h2 : ∀ x : Fin 2, x = 0 ∨ x = 1 := by decide
  rcases h2 (σ 0) with h0 | h0 <;> rcases h2 (σ 1) with h1 | h1
  · exact absurd (h0.trans h1.symm) hne
  · rw [h0, h1] at h01 ⊢
    exact ⟨(min_eq_left h01).symm, (max_eq_right h01).symm⟩
  · rw [h0, h1] at h01 ⊢
    exact ⟨(min_eq_right h01).symm, (max_eq_left h01).symm⟩
  · exact absurd (h0.trans h1.symm) hne

theorem sort0_two_zero [LinearOrder α] (a : Tab α 2 n) (j : Fin n) : sort0 a 0 j = min (a 0 j) (a 1 j) :=
  (perm_two_sort (fun k => a k j) _ (Tuple.monotone_sort _)).1

theorem sort0_two_one [LinearOrder α] (a : Tab α 2 n) (j : Fin n) : sort0 a 1 j = max (a 0 j) (a 1 j) :=
  (perm_two_sort (fun k => a k j) _ (Tuple.monotone_sort _)).2

theorem colPair_sort (a : Tab EReal 2 n) (j : Fin n) : colPair (sort0 a) j = sort2 (colPair a j) := by
  simp only [colPair, sort2, sort0_two_zero, sort0_two_one]

theorem reshape_even {c : ℕ} (h : (2 + 2) * n = 2 * c) (hc : c = n + n) (a : Tab α 2 c) (i : Fin (2 + 2)) (k : Fin 2) (j : Fin n)
    (hi : i.val = 2 * k.val) : reshape h a i j = a k ⟨j.val, by omega⟩ := by
  subst hc
  have hj := j.isLt
  have hn : 0 < n + n := by omega
  have he : i.val * n + j.val = j.val + (n + n) * k.val := by rw [hi]; ring
  have hlt : j.val < n + n := by omega
  simp only [reshape]
  congr 1
  · congr 1
    simp only [he, Nat.add_mul_div_left _ _ hn, Nat.div_eq_of_lt hlt, zero_add]
  · apply Fin.ext
    simp only [he, Nat.add_mul_mod_self_left, Nat.mod_eq_of_lt hlt]

theorem reshape_odd {c : ℕ} (h : (2 + 2) * n = 2 * c) (hc : c = n + n) (a : Tab α 2 c) (i : Fin (2 + 2)) (k : Fin 2) (j : Fin n)
    (hi : i.val = 2 * k.val + 1) : reshape h a i j = a k ⟨n + j.val, by omega⟩ := by
  subst hc
  have hj := j.isLt
  have hn : 0 < n + n := by omega
  have he : i.val * n + j.val = (n + j.val) + (n + n) * k.val := by rw [hi]; ring
  have hlt : n + j.val < n + n := by omega
  simp only [reshape]
  congr 1
  · congr 1
    simp only [he, Nat.add_mul_div_left _ _ hn, Nat.div_eq_of_lt hlt, zero_add]
  · apply Fin.ext
    simp only [he, Nat.add_mul_mod_self_left, Nat.mod_eq_of_lt hlt]

theorem hstack_left (a : Tab α r n) (b : Tab α r m) (i : Fin r) (j : Fin n) (h : j.val < n + m) : hstack a b i ⟨j.val, h⟩ = a i j :=
  Fin.append_left _ _ j

theorem hstack_right (a : Tab α r n) (b : Tab α r m) (i : Fin r) (j : Fin m) (h : n + j.val < n + m) : hstack a b i ⟨n + j.val, h⟩ = b i j :=
  Fin.append_right _ _ j

theorem max0_two (a : Tab EReal 2 n) (j : Fin n) : max0 a j = max (a 0 j) (a 1 j) := by
  simp [max0, Fin.univ_succ]

theorem min0_two (a : Tab EReal 2 n) (j : Fin n) : min0 a j = min (a 0 j) (a 1 j) := by
  simp [min0, Fin.univ_succ]

theorem max0_three (a : Tab EReal 3 n) (j : Fin n) : max0 a j = max (max (a 0 j) (a 1 j)) (a 2 j) := by
  simp [max0, Fin.univ_succ, max_assoc]

theorem min0_three (a : Tab EReal 3 n) (j : Fin n) : min0 a j = min (min (a 0 j) (a 1 j)) (a 2 j) := by
  simp [min0, Fin.univ_succ, min_assoc]

end

section
variable {n : ℕ}

theorem clipHitsA_col (side caps : Tab EReal 2 n) (j : Fin n) : colPair (clipHitsA side caps) j = clipHits (colPair side j) (colPair caps j) := by
  have e0 : ∀ (b : Tab EReal (2 + 2) n), firstRows 2 b 0 j = b 0 j := fun _ => rfl
  have e1 : ∀ (b : Tab EReal (2 + 2) n), firstRows 2 b 1 j = b 1 j := fun _ => rfl
  have e2 : ∀ (b : Tab EReal (2 + 2) n), lastRows 2 b 0 j = b 2 j := fun _ => rfl
  have e3 : ∀ (b : Tab EReal (2 + 2) n), lastRows 2 b 1 j = b 3 j := fun _ => rfl
  have hs : ∀ k : Fin 2, sort0 (hstack side caps) k ⟨j.val, by omega⟩ = sort0 side k j := by
    intro k
    rcases (by decide : ∀ x : Fin 2, x = 0 ∨ x = 1) k with rfl | rfl
    · rw [sort0_two_zero, sort0_two_zero, hstack_left, hstack_left]
    · rw [sort0_two_one, sort0_two_one, hstack_left, hstack_left]
  have hb : ∀ k : Fin 2, sort0 (hstack side caps) k ⟨n + j.val, by omega⟩ = sort0 caps k j := by
    intro k
    rcases (by decide : ∀ x : Fin 2, x = 0 ∨ x = 1) k with rfl | rfl
    · rw [sort0_two_zero, sort0_two_zero, hstack_right, hstack_right]
    · rw [sort0_two_one, sort0_two_one, hstack_right, hstack_right]
  have r0 := reshape_even (by ring) rfl (sort0 (hstack side caps)) 0 0 j rfl
  have r1 := reshape_odd (by ring) rfl (sort0 (hstack side caps)) 1 0 j rfl
  have r2 := reshape_even (by ring) rfl (sort0 (hstack side caps)) 2 1 j rfl
  have r3 := reshape_odd (by ring) rfl (sort0 (hstack side caps)) 3 1 j rfl
  have v0 : ∀ (x y : Fin n → EReal), vstack (r := 1) (s := 1) (fun _ => x) (fun _ => y) 0 j = x j := fun _ _ => rfl
  have v1 : ∀ (x y : Fin n → EReal), vstack (r := 1) (s := 1) (fun _ => x) (fun _ => y) 1 j = y j := fun _ _ => rfl
  simp only [clipHitsA, colPair_where, clipHits]
  simp only [colPair, v0, v1, max0_two, min0_two, e0, e1, e2, e3, r0, r1, r2, r3, hs, hb, sort0_two_zero, sort0_two_one, sort2, npFull]
  congr

theorem capHitsA_col (lo hi : ℝ) (oz dz : Fin n → ℝ) (j : Fin n) : colPair (capHitsA lo hi oz dz) j = capHits lo hi (oz j) (dz j) := by
  simp [capHitsA, capHits, colPair, setRow, npWhere2, npWhere, close0, plusMask, addMask, up, npFull]
  constructor <;> congr

theorem binomialRootA_col (a b c : Fin n → ℝ) (j : Fin n) : colPair (binomialRootA a b c) j = binomialRoot (a j) (b j) (c j) := by
  simp [binomialRootA, binomialRoot, polyRoots, colPair, setRow, npWhere2, npWhere, close0, plusMask, addMask, up, npFull]
  split_ifs <;> simp_all
  split_ifs <;> simp

theorem cylinderIntersectA_col (radius hMin hMax : ℝ) (rays : Rays n) (j : Fin n) :
    colPair (cylinderIntersectA radius hMin hMax rays) j = cylinderIntersect radius hMin hMax (rays.col j) := by
  simp only [cylinderIntersectA, clipHitsA_col, colPair_sort, binomialRootA_col, capHitsA_col, cylinderIntersect]
  simp [einsum, Rays.origins, Rays.directions, Rays.col, npFull, Fin.sum_univ_two]

theorem sphereIntersectA_col (radius : ℝ) (rays : Rays n) (j : Fin n) : colPair (sphereIntersectA radius rays) j = sphereIntersect radius (rays.col j) := by
  simp only [sphereIntersectA, colPair_where, sphereIntersect, polyRoots]
  simp [colPair, einsum, Rays.origins, Rays.directions, Rays.col, npFull, Fin.sum_univ_three, up]

theorem paraboloidIntersectA_col (focus height : ℝ) (rays : Rays n) (j : Fin n) :
    colPair (paraboloidIntersectA focus height rays) j = paraboloidIntersect focus height (rays.col j) := by
  simp only [paraboloidIntersectA, clipHitsA_col, colPair_sort, colPair_where, capHitsA_col, paraboloidIntersect, polyRoots]
  simp [colPair, einsum, Rays.origins, Rays.directions, Rays.col, npFull, Fin.sum_univ_two, up, npWhere, close0, plusMask, addMask]
  congr 2

theorem setSlice_in {α : Type*} {r c m : ℕ} (a : Tab α r c) (row : Fin r) (lo : ℕ) (v : Fin m → α) (j : Fin m) (k : Fin c) (hk : k.val = lo + j.val) :
    setSlice a row lo v row k = v j := by
  have h : row = row ∧ lo ≤ k.val ∧ k.val < lo + m := ⟨rfl, by omega, by have := j.isLt; omega⟩
  unfold setSlice
  rw [dif_pos h]
  congr 1
  exact Fin.ext (by simp [hk])

theorem setSlice_out {α : Type*} {r c m : ℕ} (a : Tab α r c) (row i : Fin r) (lo : ℕ) (v : Fin m → α) (k : Fin c)
    (hk : ¬ (i = row ∧ lo ≤ k.val ∧ k.val < lo + m)) : setSlice a row lo v i k = a i k := by
  unfold setSlice
  rw [dif_neg hk]

/-- one axis of a plane: the pair that the loop writes -/
theorem planeLoopA_in (rays : Rays n) (a : Tab EReal 2 (2 * n)) (axis : Fin 3) (dim : ℝ) (j : Fin n) (k : Fin (2 * n)) (hk : k.val = axis * n + j.val) :
    (planeLoopA rays a axis dim 0 k, planeLoopA rays a axis dim 1 k) = planeBound dim (rays 0 axis.castSucc j) (rays 1 axis.castSucc j) := by
  unfold planeLoopA
  rw [setSlice_in _ 1 _ _ j k hk, setSlice_out _ 1 0 _ _ _ (by simp), setSlice_in _ 0 _ _ j k hk]
  simp only [npWhere, npFull, close0, up, planeBound, Rays.origins, Rays.directions, plusMask, addMask, Pi.div_apply, Pi.neg_apply, Pi.sub_apply, Pi.add_apply]
  congr

theorem planeLoopA_out (rays : Rays n) (a : Tab EReal 2 (2 * n)) (axis : Fin 3) (dim : ℝ) (k : Fin (2 * n)) (hk : ¬ (axis * n ≤ k.val ∧ k.val < axis * n + n))
    (i : Fin 2) : planeLoopA rays a axis dim i k = a i k := by
  unfold planeLoopA
  rw [setSlice_out _ _ _ _ _ _ (fun h => hk h.2), setSlice_out _ _ _ _ _ _ (fun h => hk h.2)]

theorem planeIntersectA_col (junk : Tab EReal 2 (2 * n)) (width length : ℝ) (rays : Rays n) (j : Fin n) :
    colPair (planeIntersectA junk width length rays) j = planeIntersect width length (rays.col j) := by
  have hj := j.isLt
  set b := planeLoopA rays (planeLoopA rays junk 0 width) 1 length with hb
  have hc : 2 * n = n + n := by ring
  have p0 : (b 0 ⟨j.val, by omega⟩, b 1 ⟨j.val, by omega⟩) = planeBound width (rays 0 0 j) (rays 1 0 j) := by
    have hk : ¬ ((1 : Fin 3).val * n ≤ j.val ∧ j.val < (1 : Fin 3).val * n + n) := by
      simp
    rw [hb, planeLoopA_out _ _ _ _ ⟨j.val, by omega⟩ hk, planeLoopA_out _ _ _ _ ⟨j.val, by omega⟩ hk]
    exact planeLoopA_in rays junk 0 width j ⟨j.val, by omega⟩ (by simp)
  have p1 : (b 0 ⟨n + j.val, by omega⟩, b 1 ⟨n + j.val, by omega⟩) = planeBound length (rays 0 1 j) (rays 1 1 j) := by
    rw [hb]
    exact planeLoopA_in rays _ 1 length j ⟨n + j.val, by omega⟩ (by simp)
  have r0 := reshape_even (by ring) hc (sort0 b) 0 0 j rfl
  have r1 := reshape_odd (by ring) hc (sort0 b) 1 0 j rfl
  have r2 := reshape_even (by ring) hc (sort0 b) 2 1 j rfl
  have r3 := reshape_odd (by ring) hc (sort0 b) 3 1 j rfl
  rw [sort0_two_zero] at r0 r1
  rw [sort0_two_one] at r2 r3
  have v1 : ∀ (x y : Tab EReal 2 n), vstack x y 1 j = x 1 j := fun _ _ => rfl
  have v2 : ∀ (x y : Tab EReal 2 n), vstack x y 2 j = y 0 j := fun _ _ => rfl
  have e0 : ∀ (b : Tab EReal (2 + 2) n), firstRows 2 b 0 j = b 0 j := fun _ => rfl
  have e1 : ∀ (b : Tab EReal (2 + 2) n), firstRows 2 b 1 j = b 1 j := fun _ => rfl
  have e2 : ∀ (b : Tab EReal (2 + 2) n), lastRows 2 b 0 j = b 2 j := fun _ => rfl
  have e3 : ∀ (b : Tab EReal (2 + 2) n), lastRows 2 b 1 j = b 3 j := fun _ => rfl
  obtain ⟨q0, q1⟩ := Prod.ext_iff.1 p0
  obtain ⟨q2, q3⟩ := Prod.ext_iff.1 p1
  simp only at q0 q1 q2 q3
  simp only [planeIntersectA, ← hb, colPair, npWhere, v1, v2, sort0_two_zero, sort0_two_one, e0, e1, e2, e3, r0, r1, r2, r3, q0, q1, q2, q3, planeIntersect, sort2, Rays.col,
    Rays.origins, Rays.directions, close0, up, npFull, plusMask, addMask, Pi.div_apply, Pi.neg_apply]
  rfl

theorem setRow_same {α : Type*} {r : ℕ} (a : Tab α r n) (row : Fin r) (v : Fin n → α) : setRow a row v row = v := if_pos rfl

theorem setRow_other {α : Type*} {r : ℕ} (a : Tab α r n) {row i : Fin r} (h : i ≠ row) (v : Fin n → α) : setRow a row v i = a i := if_neg h

theorem cubeLoopA_same (box : Box) (rays : Rays n) (hits : Tab EReal (3 + 3) n) (axis : Fin 3) (j : Fin n) :
    (cubeLoopA box rays hits axis (Fin.castAdd 3 axis) j, cubeLoopA box rays hits axis (Fin.natAdd 3 axis) j) =
      slab (box axis) (rays 0 axis.castSucc j) (rays 1 axis.castSucc j) := by
  have hne : Fin.castAdd 3 axis ≠ Fin.natAdd 3 axis := by
    intro h
    have := congrArg Fin.val h
    simp at this
  unfold cubeLoopA
  simp only [setRow_same, setRow_other _ hne, sort0_two_zero, sort0_two_one, slab, sort2, npWhere, npFull, close0, plusMask, addMask, Rays.origins, Rays.directions, cons_val_zero, cons_val_one]
  congr

theorem cubeLoopA_other (box : Box) (rays : Rays n) (hits : Tab EReal (3 + 3) n) {axis other : Fin 3} (h : other ≠ axis) :
    cubeLoopA box rays hits axis (Fin.castAdd 3 other) = hits (Fin.castAdd 3 other) ∧
      cubeLoopA box rays hits axis (Fin.natAdd 3 other) = hits (Fin.natAdd 3 other) := by
  have hv : other.val ≠ axis.val := fun hh => h (Fin.ext hh)
  unfold cubeLoopA
  constructor
  · rw [setRow_other, setRow_other]
    · intro hh; exact hv (by simpa using congrArg Fin.val hh)
    · intro hh; have := congrArg Fin.val hh; simp at this; omega
  · rw [setRow_other, setRow_other]
    · intro hh; have := congrArg Fin.val hh; simp at this; omega
    · intro hh; exact hv (by simpa using congrArg Fin.val hh)

theorem boxIntersectA_col (box : Box) (rays : Rays n) (j : Fin n) : colPair (boxIntersectA box rays) j = boxIntersect box (rays.col j) := by
  set h0 : Tab EReal (3 + 3) n := fun _ => npFull (-1) with hh0
  set h1 := cubeLoopA box rays h0 0 with hh1
  set h2 := cubeLoopA box rays h1 1 with hh2
  set h3 := cubeLoopA box rays h2 2 with hh3
  have hf : [0, 1, 2].foldl (cubeLoopA box rays) h0 = h3 := rfl
  have s0 : (h3 (Fin.castAdd 3 0) j, h3 (Fin.natAdd 3 0) j) = slab (box 0) (rays 0 0 j) (rays 1 0 j) := by
    rw [hh3, (cubeLoopA_other box rays h2 (by decide : (0 : Fin 3) ≠ 2)).1, (cubeLoopA_other box rays h2 (by decide : (0 : Fin 3) ≠ 2)).2,
      hh2, (cubeLoopA_other box rays h1 (by decide : (0 : Fin 3) ≠ 1)).1, (cubeLoopA_other box rays h1 (by decide : (0 : Fin 3) ≠ 1)).2]
    exact cubeLoopA_same box rays h0 0 j
  have s1 : (h3 (Fin.castAdd 3 1) j, h3 (Fin.natAdd 3 1) j) = slab (box 1) (rays 0 1 j) (rays 1 1 j) := by
    rw [hh3, (cubeLoopA_other box rays h2 (by decide : (1 : Fin 3) ≠ 2)).1, (cubeLoopA_other box rays h2 (by decide : (1 : Fin 3) ≠ 2)).2]
    exact cubeLoopA_same box rays h1 1 j
  have s2 : (h3 (Fin.castAdd 3 2) j, h3 (Fin.natAdd 3 2) j) = slab (box 2) (rays 0 2 j) (rays 1 2 j) := cubeLoopA_same box rays h2 2 j
  unfold boxIntersectA
  rw [← hh0]
  simp only
  rw [hf, colPair_where]
  simp only [colPair, cons_val_zero, cons_val_one, max0_three, min0_three, firstRows, lastRows, boxIntersect, Rays.col, npFull]
  simp only [← s0, ← s1, ← s2]

theorem intersectA_col (junk : Tab EReal 2 (2 * n)) (p : Prim) (rays : Rays n) (j : Fin n) :
    colPair (p.intersectA junk rays) j = p.intersect (rays.col j) := by
  cases p with
  | sphere r => exact sphereIntersectA_col r rays j
  | paraboloid f h => exact paraboloidIntersectA_col f h rays j
  | plane w l => exact planeIntersectA_col junk w l rays j
  | cube a b => exact boxIntersectA_col _ rays j
  | cylinder r a b => exact cylinderIntersectA_col r a b rays j

/-! ### normals, reflection, refraction -/

theorem colNorm_four (a : Tab ℝ 4 n) (j : Fin n) : colNorm a j = norm4 (fun i => a i j) := by
  simp [colNorm, norm4, Fin.sum_univ_four]

theorem divRows_norm (a : Tab ℝ 4 n) (j : Fin n) : (fun i => divRows a (colNorm a) i j) = normalize (fun i => a i j) := by
  funext i
  simp only [divRows, Pi.div_apply, colNorm_four, normalize]

theorem einsum_four (a b : Tab ℝ 4 n) (j : Fin n) : einsum a b j = dot4 (fun i => a i j) (fun i => b i j) := by
  simp [einsum, dot4, Fin.sum_univ_four]

theorem where2_pos {α : Type*} {r : ℕ} {mask : Fin n → Prop} {j : Fin n} (h : mask j) (a b : Tab α r n) :
    (fun i => npWhere2 mask a b i j) = fun i => a i j := by
  funext i
  exact if_pos h

theorem where2_neg {α : Type*} {r : ℕ} {mask : Fin n → Prop} {j : Fin n} (h : ¬ mask j) (a b : Tab α r n) :
    (fun i => npWhere2 mask a b i j) = fun i => b i j := by
  funext i
  exact if_neg h

theorem matmulA_col (m : Mat4) (x : Tab ℝ 4 n) (j : Fin n) : (fun i => matmulA m x i j) = m *ᵥ fun i => x i j := by
  funext i
  simp [matmulA, mulVec, dotProduct]

theorem vec4_ext {a b : Vec4} (h0 : a 0 = b 0) (h1 : a 1 = b 1) (h2 : a 2 = b 2) (h3 : a 3 = b 3) : a = b := by
  funext i
  fin_cases i <;> assumption

theorem setW_col (x : Tab ℝ 4 n) (j : Fin n) : (fun i => setRow x 3 (npFull 0) i j) = ![x 0 j, x 1 j, x 2 j, 0] :=
  vec4_ext rfl rfl rfl rfl

theorem normalA_col (p : Prim) (x : Tab ℝ 4 n) (j : Fin n) : (fun i => p.normalA x i j) = p.normal fun i => x i j := by
  cases p with
  | sphere r =>
    simp only [Prim.normalA, divRows_norm, Prim.normal, setW_col]
  | paraboloid f h =>
    simp only [Prim.normalA, divRows_norm, Prim.normal]
    by_cases hc : isclose (x 2 j) h
    · rw [if_pos hc, where2_pos (mask := closeTo (x 2) h) hc]
      rfl
    · rw [if_neg hc, where2_neg (mask := closeTo (x 2) h) hc]
      congr 1
      exact vec4_ext rfl rfl rfl rfl
  | plane w l =>
    simp only [Prim.normalA, Prim.normal]
    exact vec4_ext rfl rfl rfl rfl
  | cube a b =>
    simp only [Prim.normalA, divRows_norm, Prim.normal, setW_col]
    rfl
  | cylinder r lo hi =>
    simp only [Prim.normalA, divRows_norm, Prim.normal]
    by_cases hc : isclose (x 2 j) hi
    · rw [if_pos hc, where2_pos (mask := closeTo (x 2) hi) hc]
      rfl
    · rw [if_neg hc, where2_neg (mask := closeTo (x 2) hi) hc]
      by_cases hc' : isclose (x 2 j) lo
      · rw [if_pos hc', where2_pos (mask := closeTo (x 2) lo) hc']
        rfl
      · rw [if_neg hc', where2_neg (mask := closeTo (x 2) lo) hc']
        congr 1
        exact vec4_ext rfl rfl rfl rfl

theorem worldNormalsA_col (o : Obj) (p : Prim) (pos : Tab ℝ 4 n) (j : Fin n) : (fun i => worldNormalsA o p pos i j) = worldNormal o p fun i => pos i j := by
  have h1 : (fun i => matmulA o.objTᵀ (p.normalA (matmulA o.objT pos)) i j) = o.objTᵀ *ᵥ p.normal (o.objT *ᵥ fun i => pos i j) := by
    rw [matmulA_col, normalA_col, matmulA_col]
  have h2 : (fun i => setRow (matmulA o.objTᵀ (p.normalA (matmulA o.objT pos))) 3 (npFull 0) i j) = zeroW (o.objTᵀ *ᵥ p.normal (o.objT *ᵥ fun i => pos i j)) := by
    rw [setW_col, ← h1]
    rfl
  have h3 := divRows_norm (setRow (matmulA o.objTᵀ (p.normalA (matmulA o.objT pos))) 3 (npFull 0)) j
  rw [h2] at h3
  funext i
  simp only [worldNormalsA, worldNormal, Pi.smul_apply, smul_eq_mul, Pi.mul_apply, npFull]
  rw [← h3]

theorem surfaceNormalsA_col (h : Heap) (x : ℕ) (pos : Tab ℝ 4 n) (j : Fin n) : (fun i => surfaceNormalsA h x pos i j) = surfaceNormal h x fun i => pos i j := by
  unfold surfaceNormalsA surfaceNormal
  cases hk : (h.obj x).kind with
  | prim p => exact worldNormalsA_col _ _ _ _
  | csg op l r => rfl
  | group ms => rfl
  | plain => rfl

theorem reflectA_col (v normals : Tab ℝ 4 n) (j : Fin n) :
    (fun i => reflectA v normals i j) = fun i => v i j - 2 * normals i j * dot4 (fun i => v i j) (fun i => normals i j) := by
  funext i
  simp [reflectA, einsum_four]

theorem reflectSingleA_col (v : Tab ℝ 4 n) (normal : Vec4) (j : Fin n) : (fun i => reflectSingleA v normal i j) = reflect (fun i => v i j) normal := by
  funext i
  simp only [reflectSingleA, reflect, column, npFull, dot4, Fin.sum_univ_four, Pi.sub_apply, Pi.mul_apply, Pi.ofNat_apply]
  ring

theorem refractA_col (v normals : Tab ℝ 4 n) (n1 n2 : Fin n → ℝ) (nGlobal : ℝ) (j : Fin n) :
    ((fun i => (refractA v normals n1 n2 nGlobal).1 i j), (refractA v normals n1 n2 nGlobal).2 j) =
      (refract (fun i => v i j) (fun i => normals i j) (n1 j) (n2 j) nGlobal).2 := by
  have hd : ∀ i, divRows v (colNorm v) i j = normalize (fun i => v i j) i := fun i => congrFun (divRows_norm v j) i
  have hP : einsum (divRows v (colNorm v)) normals j = dot4 (normalize fun i => v i j) fun i => normals i j := by rw [einsum_four, divRows_norm]
  have hN : einsum (divRows v (colNorm v)) (fun i => -normals i) j = dot4 (normalize fun i => v i j) (-fun i => normals i j) := by
    rw [einsum_four, divRows_norm]
    rfl
  simp only [refractA, divRows_norm, refract, refractIndex]
  by_cases hc : dot4 (normalize fun i => v i j) (fun i => normals i j) > 0
  · simp only [if_pos hc]
    simp only [npWhere, npWhere2, npFull, Pi.add_apply, Pi.mul_apply, Pi.sub_apply, Pi.div_apply, Pi.neg_apply, Pi.pow_apply, Pi.one_apply, Pi.ofNat_apply, hd, hP, hN, if_pos hc]
    split_ifs <;> rfl
  · simp only [if_neg hc]
    simp only [npWhere, npWhere2, npFull, Pi.add_apply, Pi.mul_apply, Pi.sub_apply, Pi.div_apply, Pi.neg_apply, Pi.pow_apply, Pi.one_apply, Pi.ofNat_apply, hd, hP, hN, if_neg hc]
    split_ifs <;> rfl

end

end PyRayT
