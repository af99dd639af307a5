import Verif.Proofs.RoundingPlane

/-!
# The rounded change to the coordinates of an object
-/

namespace PyRayT

open Classical

variable {u : ℝ}

/-- The vector `v` in the coordinates of an object with the matrix `M`, exactly. -/
def Spec.facing (M : Mat4) (v : Vec4) : Vec4 :=
  ![M 0 0 * v 0 + M 0 1 * v 1 + M 0 2 * v 2, M 1 0 * v 0 + M 1 1 * v 1 + M 1 2 * v 2, M 2 0 * v 0 + M 2 1 * v 1 + M 2 2 * v 2, 0]

/-- The place `p` in the coordinates of an object with the matrix `M`, exactly (the last component of `p` is taken to be one). -/
def Spec.seen (M : Mat4) (p : Vec4) : Vec4 :=
  ![M 0 0 * p 0 + M 0 1 * p 1 + M 0 2 * p 2 + M 0 3, M 1 0 * p 0 + M 1 1 * p 1 + M 1 2 * p 2 + M 1 3, M 2 0 * p 0 + M 2 1 * p 1 + M 2 2 * p 2 + M 2 3, 0]

/-- The matrix of an object that has been moved and turned, in a scene of the size `L`: lengths are kept up to one part in ten thousand (so the matrix itself may have been rounded), the
origin of the scene is within `L` of the object. -/
structure Spec.Placed (L : ℝ) (M : Mat4) : Prop where
  rigid : ∀ x y z : ℝ, |((M 0 0 * x + M 0 1 * y + M 0 2 * z) ^ 2 + (M 1 0 * x + M 1 1 * y + M 1 2 * z) ^ 2 + (M 2 0 * x + M 2 1 * y + M 2 2 * z) ^ 2) - (x ^ 2 + y ^ 2 + z ^ 2)|
    ≤ 1e-4 * (x ^ 2 + y ^ 2 + z ^ 2)
  shift : M 0 3 ^ 2 + M 1 3 ^ 2 + M 2 3 ^ 2 ≤ L ^ 2

namespace Spec

theorem seen_eq (M : Mat4) (p : Vec4) : seen M p = facing M p + vector (M 0 3) (M 1 3) (M 2 3) := by
  funext i; fin_cases i <;> simp [seen, facing, vector]

theorem facing_add (M : Mat4) (v w : Vec4) : facing M (v + w) = facing M v + facing M w := by
  funext i; fin_cases i <;> simp [facing] <;> ring

theorem facing_sub (M : Mat4) (v w : Vec4) : facing M (v - w) = facing M v - facing M w := by
  funext i; fin_cases i <;> simp [facing] <;> ring

theorem facing_smul (M : Mat4) (t : ℝ) (v : Vec4) : facing M (t • v) = t • facing M v := by
  funext i; fin_cases i <;> simp [facing] <;> ring

theorem facing_cut (M : Mat4) (v : Vec4) : facing M (cut v) = facing M v := by
  funext i; fin_cases i <;> simp [facing, cut, vector]

theorem seen_step (M : Mat4) (o d : Vec4) (t : ℝ) : seen M (o + t • d) = seen M o + t • facing M d := by
  rw [seen_eq, seen_eq, facing_add, facing_smul]; abel

theorem seen_sub (M : Mat4) (p q : Vec4) : seen M p - seen M q = facing M (cut p - cut q) := by
  rw [seen_eq, seen_eq, facing_sub, facing_cut, facing_cut]; abel

theorem norm4_facing_sq (M : Mat4) (v : Vec4) : norm4 (facing M v) ^ 2 = (M 0 0 * v 0 + M 0 1 * v 1 + M 0 2 * v 2) ^ 2 + (M 1 0 * v 0 + M 1 1 * v 1 + M 1 2 * v 2) ^ 2 +
    (M 2 0 * v 0 + M 2 1 * v 1 + M 2 2 * v 2) ^ 2 := by
  rw [norm4, Real.sq_sqrt (by positivity)]
  simp [facing]

theorem Placed.facing_sq {L : ℝ} {M : Mat4} (h : Placed L M) (v : Vec4) : |norm4 (facing M v) ^ 2 - norm4 (cut v) ^ 2| ≤ 1e-4 * norm4 (cut v) ^ 2 := by
  have := h.rigid (v 0) (v 1) (v 2)
  rw [norm4_facing_sq, norm4_cut_sq, dot3]
  simpa only [sq] using this

theorem Placed.facing_le {L : ℝ} {M : Mat4} (h : Placed L M) (v : Vec4) : norm4 (facing M v) ≤ 1.0001 * norm4 (cut v) := by
  have h1 := (abs_le.1 (h.facing_sq v)).2
  refine (abs_le_of_sq_le_sq' ?_ (mul_nonneg (by norm_num) (norm4_nonneg _))).2
  rw [mul_pow]
  have := sq_nonneg (norm4 (cut v))
  norm_num at h1 ⊢
  linarith

theorem Placed.shift_le {L : ℝ} {M : Mat4} (h : Placed L M) (hL : 0 ≤ L) : norm4 (vector (M 0 3) (M 1 3) (M 2 3)) ≤ L := by
  refine (abs_le_of_sq_le_sq' ?_ hL).2
  rw [norm4, Real.sq_sqrt (by positivity)]
  simpa [vector] using h.shift

theorem Placed.seen_le {L A : ℝ} {M : Mat4} (h : Placed L M) (hL : 0 ≤ L) {p : Vec4} (hp : norm4 (cut p) ≤ A) : norm4 (seen M p) ≤ 1.0001 * A + L := by
  rw [seen_eq]
  have h1 := norm4_add_le (facing M p) (vector (M 0 3) (M 1 3) (M 2 3))
  have h2 := h.facing_le p
  have h3 := h.shift_le hL
  have : 1.0001 * norm4 (cut p) ≤ 1.0001 * A := mul_le_mul_of_nonneg_left hp (by norm_num)
  linarith

/-- the rows of the matrix -/
theorem Placed.row {L : ℝ} {M : Mat4} (h : Placed L M) (i : Fin 3) : norm4 (vector (M i.castSucc 0) (M i.castSucc 1) (M i.castSucc 2)) ≤ 1.0001 := by
  have h1 := (abs_le.1 (h.rigid (M i.castSucc 0) (M i.castSucc 1) (M i.castSucc 2))).2
  set S := M i.castSucc 0 ^ 2 + M i.castSucc 1 ^ 2 + M i.castSucc 2 ^ 2 with hS
  have hS0 : 0 ≤ S := by positivity
  have h2 : S ^ 2 ≤ (M 0 0 * M i.castSucc 0 + M 0 1 * M i.castSucc 1 + M 0 2 * M i.castSucc 2) ^ 2 + (M 1 0 * M i.castSucc 0 + M 1 1 * M i.castSucc 1 + M 1 2 * M i.castSucc 2) ^ 2 +
      (M 2 0 * M i.castSucc 0 + M 2 1 * M i.castSucc 1 + M 2 2 * M i.castSucc 2) ^ 2 := by
    have e : ∀ j : Fin 3, i = j → S = M j.castSucc 0 * M i.castSucc 0 + M j.castSucc 1 * M i.castSucc 1 + M j.castSucc 2 * M i.castSucc 2 := by
      rintro j rfl; rw [hS]; ring
    fin_cases i
    · rw [e 0 rfl]
      simp only [Fin.castSucc_zero, Fin.zero_eta]
      nlinarith [sq_nonneg (M 1 0 * M 0 0 + M 1 1 * M 0 1 + M 1 2 * M 0 2), sq_nonneg (M 2 0 * M 0 0 + M 2 1 * M 0 1 + M 2 2 * M 0 2)]
    · rw [e 1 rfl]
      simp only [Fin.castSucc_one, Fin.mk_one]
      nlinarith [sq_nonneg (M 0 0 * M 1 0 + M 0 1 * M 1 1 + M 0 2 * M 1 2), sq_nonneg (M 2 0 * M 1 0 + M 2 1 * M 1 1 + M 2 2 * M 1 2)]
    · rw [e 2 rfl]
      show (M 2 0 * M 2 0 + M 2 1 * M 2 1 + M 2 2 * M 2 2) ^ 2 ≤ (M 0 0 * M 2 0 + M 0 1 * M 2 1 + M 0 2 * M 2 2) ^ 2 + (M 1 0 * M 2 0 + M 1 1 * M 2 1 + M 1 2 * M 2 2) ^ 2 +
        (M 2 0 * M 2 0 + M 2 1 * M 2 1 + M 2 2 * M 2 2) ^ 2
      nlinarith [sq_nonneg (M 0 0 * M 2 0 + M 0 1 * M 2 1 + M 0 2 * M 2 2), sq_nonneg (M 1 0 * M 2 0 + M 1 1 * M 2 1 + M 1 2 * M 2 2)]
  have h3 : S ≤ 1.0001 := by
    norm_num at h1 ⊢
    by_contra hn
    push Not at hn
    nlinarith
  refine (abs_le_of_sq_le_sq' ?_ (by norm_num)).2
  rw [norm4, Real.sq_sqrt (by positivity)]
  have : vector (M i.castSucc 0) (M i.castSucc 1) (M i.castSucc 2) 0 ^ 2 + vector (M i.castSucc 0) (M i.castSucc 1) (M i.castSucc 2) 1 ^ 2 +
      vector (M i.castSucc 0) (M i.castSucc 1) (M i.castSucc 2) 2 ^ 2 + vector (M i.castSucc 0) (M i.castSucc 1) (M i.castSucc 2) 3 ^ 2 = S := by
    simp [vector, hS]
  rw [this]
  norm_num at h3 ⊢
  linarith

end Spec

/-- one component of a rounded product with the matrix -/
theorem TransformR.err (hu : 0 ≤ u) (hu6 : u ≤ 1e-6) {L A W : ℝ} {M : Mat4} {v w : Vec4} (hM : Spec.Placed L M) (hL : 0 ≤ L) (hA : norm4 (cut v) ≤ A) (hW : |v 3| ≤ W) (h : TransformR u M v w)
    (i : Fin 3) : |w i.castSucc - (Spec.facing M v + v 3 • vector (M 0 3) (M 1 3) (M 2 3)) i.castSucc| ≤ 4.00001 * (1.0001 * A + L * W + 4e-6) * u := by
  have h1 := SumsTo.err hu (h i.castSucc)
  have e1 : sumProd [(M i.castSucc 0, v 0), (M i.castSucc 1, v 1), (M i.castSucc 2, v 2), (M i.castSucc 3, v 3)] = (Spec.facing M v + v 3 • vector (M 0 3) (M 1 3) (M 2 3)) i.castSucc := by
    fin_cases i <;> simp [sumProd, Spec.facing, vector] <;> ring
  have e2 : sumAbs [(M i.castSucc 0, v 0), (M i.castSucc 1, v 1), (M i.castSucc 2, v 2), (M i.castSucc 3, v 3)] ≤ 1.0001 * A + L * W := by
    have h2 := abs_dot4_le (fun j => |vector (M i.castSucc 0) (M i.castSucc 1) (M i.castSucc 2) j|) (fun j => |cut v j|)
    rw [norm4_abs, norm4_abs] at h2
    have h3 := h2.trans (mul_le_mul (hM.row i) hA (norm4_nonneg _) (by norm_num))
    have h4 : |M i.castSucc 3| ≤ L := by
      have h5 := hM.shift_le hL
      refine le_trans ?_ h5
      have h6 := abs_le_norm4 (vector (M 0 3) (M 1 3) (M 2 3)) i.castSucc
      refine le_trans (le_of_eq ?_) h6
      fin_cases i <;> simp [vector]
    have h5 : |M i.castSucc 3| * |v 3| ≤ L * W := mul_le_mul h4 hW (abs_nonneg _) hL
    have h6 := (le_abs_self _).trans h3
    have e : dot4 (fun j => |vector (M i.castSucc 0) (M i.castSucc 1) (M i.castSucc 2) j|) (fun j => |cut v j|) =
        |M i.castSucc 0| * |v 0| + |M i.castSucc 1| * |v 1| + |M i.castSucc 2| * |v 2| := by
      simp [dot4, cut, vector]
    rw [e] at h6
    simp only [sumAbs, List.map_cons, List.map_nil, List.sum_cons, List.sum_nil, abs_mul]
    linarith
  have e3 := sumAbs_nonneg [(M i.castSucc 0, v 0), (M i.castSucc 1, v 1), (M i.castSucc 2, v 2), (M i.castSucc 3, v 3)]
  rw [e1] at h1
  simp only [List.length_cons, List.length_nil, zero_add, Nat.reduceAdd, Nat.cast_ofNat] at h1
  refine h1.trans ?_
  have h2 := pow_four_le hu hu6
  refine (mul_le_mul h2 (show _ ≤ 1.0001 * A + L * W + 4e-6 by norm_num at hu6 ⊢; linarith) (by positivity) (by positivity)).trans (le_of_eq ?_)
  ring

theorem TransformR.point_err (hu : 0 ≤ u) (hu6 : u ≤ 1e-6) {L : ℝ} {M : Mat4} {v w : Vec4} (hM : Spec.Placed L M) (hL : 1 ≤ L) (hA : norm4 (cut v) ≤ 1.01 * L) (h1 : v 3 = 1)
    (h : TransformR u M v w) (i : Fin 3) : |w i.castSucc - Spec.seen M v i.castSucc| ≤ 8.05 * u * L := by
  have := h.err hu hu6 hM (by linarith) hA (W := 1) (by rw [h1]; norm_num) i
  rw [h1, one_smul, ← Spec.seen_eq] at this
  refine this.trans ?_
  have : 0 ≤ u * (L - 1) := mul_nonneg hu (by linarith)
  have : 0 ≤ u * L := mul_nonneg hu (by linarith)
  norm_num
  linarith

theorem TransformR.dir_err (hu : 0 ≤ u) (hu6 : u ≤ 1e-6) {L : ℝ} {M : Mat4} {v w : Vec4} (hM : Spec.Placed L M) (hL : 0 ≤ L) (hA : norm4 (cut v) ≤ 1.001) (h0 : v 3 = 0)
    (h : TransformR u M v w) (i : Fin 3) : |w i.castSucc - Spec.facing M v i.castSucc| ≤ 4.01 * u := by
  have := h.err hu hu6 hM hL hA (W := 0) (by rw [h0]; norm_num) i
  rw [h0, zero_smul, add_zero] at this
  refine this.trans ?_
  norm_num
  linarith

theorem norm4_cut_sub_le {v w : Vec4} {k : ℝ} (hk : 0 ≤ k) (h : ∀ i : Fin 3, |v i.castSucc - w i.castSucc| ≤ k) : norm4 (cut v - cut w) ≤ 2 * k := by
  refine norm4_le_two_mul fun i => ?_
  fin_cases i
  · exact h 0
  · exact h 1
  · exact h 2
  · simpa [cut, vector] using hk

theorem cut_seen (M : Mat4) (p : Vec4) : cut (Spec.seen M p) = Spec.seen M p := by
  funext i; fin_cases i <;> simp [cut, vector, Spec.seen]

theorem cut_facing (M : Mat4) (p : Vec4) : cut (Spec.facing M p) = Spec.facing M p := by
  funext i; fin_cases i <;> simp [cut, vector, Spec.facing]

/-- A scene of size `L`: where the ray starts, in which direction it goes. -/
structure Spec.Scene (L : ℝ) (ray : Ray) : Prop where
  one_le : 1 ≤ L
  start : ray.o 0 ^ 2 + ray.o 1 ^ 2 + ray.o 2 ^ 2 ≤ L ^ 2
  length : |ray.d 0 ^ 2 + ray.d 1 ^ 2 + ray.d 2 ^ 2 - 1| ≤ 0.0001
  isPoint : ray.o 3 = 1
  isVector : ray.d 3 = 0

theorem Spec.Scene.start' {L : ℝ} {ray : Ray} (h : Scene L ray) : norm4 (cut ray.o) ≤ L :=
  norm4_cut_le (by linarith [h.one_le]) (by have := h.start; simp only [dot3]; linarith)

theorem unit_le {d : Vec4} (h : |d 0 ^ 2 + d 1 ^ 2 + d 2 ^ 2 - 1| ≤ 0.0001) : norm4 (cut d) ≤ 1.0001 :=
  norm4_cut_le (by norm_num) (by have := (abs_le.1 h).2; simp only [dot3]; norm_num at this ⊢; linarith)

/-- the length of a computed direction -/
theorem TransformR.unit (hu : 0 ≤ u) (hu6 : u ≤ 1e-6) {L : ℝ} {M : Mat4} {v w : Vec4} (hM : Spec.Placed L M) (hL : 0 ≤ L) (hv : |v 0 ^ 2 + v 1 ^ 2 + v 2 ^ 2 - 1| ≤ 0.0001) (h0 : v 3 = 0)
    (h : TransformR u M v w) : |dot3 w w - 1| ≤ 0.001 := by
  have hA := unit_le hv
  have e1 := norm4_cut_sub_le (by positivity) (h.dir_err hu hu6 hM hL (hA.trans (by norm_num)) h0)
  rw [cut_facing] at e1
  have e2 := hM.facing_le v
  have e3 : norm4 (Spec.facing M v) ≤ 1.001 := by norm_num at hA e2 ⊢; linarith
  have e4 := sq_err (v := w) (w := Spec.facing M v) (k := 8.02) (X := 1.001) (m := 17) hu hu6 (by rw [cut_facing]; linarith) (by norm_num) (by rw [cut_facing]; exact e3) (by norm_num)
  rw [← norm4_cut_sq (Spec.facing M v), cut_facing] at e4
  have e5 := hM.facing_sq v
  rw [norm4_cut_sq] at e5
  have e6 : dot3 v v = v 0 ^ 2 + v 1 ^ 2 + v 2 ^ 2 := by simp only [dot3]; ring
  rw [← e6] at hv
  have h1 := abs_le.1 hv
  have h2 := abs_le.1 e5
  have h3 := abs_le.1 e4
  norm_num at h1 h2 h3 hu6 ⊢
  exact abs_le.2 ⟨by linarith, by linarith⟩

/-- a rounded step of a ray, in a scene of size `L` -/
theorem AdvanceR.err_scene (hu : 0 ≤ u) (hu6 : u ≤ 1e-6) {L : ℝ} {ray : Ray} {t T B : ℝ} {p : Vec4} (hL : 1 ≤ L) (h : AdvanceR u ray t p) (hT : norm4 (cut (t • ray.d)) ≤ T * L) (hT0 : 0 ≤ T)
    (hB : norm4 (cut (ray.o + t • ray.d)) ≤ B * L) (hTB : T ≤ 10) (hB2 : B ≤ 10) : norm4 (cut p - cut (ray.o + t • ray.d)) ≤ (T + B + 0.0001) * u * L := by
  have hL0 : 0 < L := by linarith
  have hLi : 0 < L⁻¹ := inv_pos.2 hL0
  have h' := AdvanceR.scale hu hLi.le (inv_le_one' hL) (o := ray.o) (d := ray.d) h
  have e1 : (L⁻¹ * t) • ray.d = L⁻¹ • (t • ray.d) := by rw [smul_smul]
  have e2 : L⁻¹ • ray.o + (L⁻¹ * t) • ray.d = L⁻¹ • (ray.o + t • ray.d) := by rw [smul_add, smul_smul]
  have h2 := h'.err hu hu6 (T := T) (B := B) (by
    show norm4 (cut ((L⁻¹ * t) • ray.d)) ≤ T
    rw [e1, cut_smul, norm4_smul, abs_of_pos hLi, inv_mul_le_iff₀ hL0]; linarith) hT0 (by
    show norm4 (cut (L⁻¹ • ray.o + (L⁻¹ * t) • ray.d)) ≤ B
    rw [e2, cut_smul, norm4_smul, abs_of_pos hLi, inv_mul_le_iff₀ hL0]; linarith) hTB hB2
  replace h2 : norm4 (cut (L⁻¹ • p) - cut (L⁻¹ • ray.o + (L⁻¹ * t) • ray.d)) ≤ (T + B + 0.0001) * u := h2
  rw [e2, cut_smul, cut_smul, ← smul_sub, norm4_smul, abs_of_pos hLi, inv_mul_le_iff₀ hL0] at h2
  linarith

end PyRayT
