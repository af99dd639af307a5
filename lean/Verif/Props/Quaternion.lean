import Mathlib.Algebra.Quaternion
import Mathlib.LinearAlgebra.Matrix.Adjugate
import Verif.Model.Quaternion
import Verif.Proofs.Placed

/-!
# Property C101: the quaternion of an object

The specification are the quaternions of Mathlib: a unit quaternion `q` turns the vector `v` to `q v q*`.
-/

namespace PyRayT

open Classical Matrix

variable {argsort : List EReal → List ℕ}

/-- a quaternion given with the scalar last -/
def Spec.quat (q : Vec4) : Quaternion ℝ := ⟨q 3, q 0, q 1, q 2⟩

/-- a vector as a pure quaternion -/
def Spec.pureQuat (v : Vec4) : Quaternion ℝ := ⟨0, v 0, v 1, v 2⟩

@[simp] theorem Spec.quat_re (q : Vec4) : (Spec.quat q).re = q 3 := rfl
@[simp] theorem Spec.quat_i (q : Vec4) : (Spec.quat q).imI = q 0 := rfl
@[simp] theorem Spec.quat_j (q : Vec4) : (Spec.quat q).imJ = q 1 := rfl
@[simp] theorem Spec.quat_k (q : Vec4) : (Spec.quat q).imK = q 2 := rfl
@[simp] theorem Spec.pureQuat_re (q : Vec4) : (Spec.pureQuat q).re = 0 := rfl
@[simp] theorem Spec.pureQuat_i (q : Vec4) : (Spec.pureQuat q).imI = q 0 := rfl
@[simp] theorem Spec.pureQuat_j (q : Vec4) : (Spec.pureQuat q).imJ = q 1 := rfl
@[simp] theorem Spec.pureQuat_k (q : Vec4) : (Spec.pureQuat q).imK = q 2 := rfl

/-- 4 times the products of the components of the quaternion of a rotation matrix -/
def quatTable (m : Mat4) : Matrix (Fin 4) (Fin 4) ℝ := fun i => quatRaw m i

theorem norm4_sq' (q : Vec4) : norm4 q ^ 2 = q 0 ^ 2 + q 1 ^ 2 + q 2 ^ 2 + q 3 ^ 2 := by
  unfold norm4
  rw [Real.sq_sqrt (by positivity)]

/-- the entries of the 3x3 block of a rigid matrix -/
theorem rigid_entries {m : Mat4} (hm : Rigid m) :
    (∀ i j : Fin 3, m 0 i.castSucc * m 0 j.castSucc + m 1 i.castSucc * m 1 j.castSucc + m 2 i.castSucc * m 2 j.castSucc = if i = j then 1 else 0) ∧
    (∀ i j : Fin 3, m i.castSucc 0 * m j.castSucc 0 + m i.castSucc 1 * m j.castSucc 1 + m i.castSucc 2 * m j.castSucc 2 = if i = j then 1 else 0) ∧
    m 0 0 * (m 1 1 * m 2 2 - m 1 2 * m 2 1) - m 0 1 * (m 1 0 * m 2 2 - m 1 2 * m 2 0) + m 0 2 * (m 1 0 * m 2 1 - m 1 1 * m 2 0) = 1 := by
  have r30 : m 3 0 = 0 := by rw [hm.1]; rfl
  have r31 : m 3 1 = 0 := by rw [hm.1]; rfl
  have r32 : m 3 2 = 0 := by rw [hm.1]; rfl
  have r33 : m 3 3 = 1 := by rw [hm.1]; rfl
  have hd := hm.2.1
  rw [det4, r30, r31, r32, r33] at hd
  -- norms of the images
  have hn : ∀ x y z : ℝ, (m 0 0 * x + m 0 1 * y + m 0 2 * z) ^ 2 + (m 1 0 * x + m 1 1 * y + m 1 2 * z) ^ 2 +
      (m 2 0 * x + m 2 1 * y + m 2 2 * z) ^ 2 = x ^ 2 + y ^ 2 + z ^ 2 := by
    intro x y z
    have := congrArg (· ^ 2) (hm.2.2 (vector x y z) rfl)
    simp only [norm4_sq', mulVec4, r30, r31, r32] at this
    simpa [vector] using this
  have a1 := hn 1 0 0
  have a2 := hn 0 1 0
  have a3 := hn 0 0 1
  have b1 := hn 1 1 0
  have b2 := hn 1 0 1
  have b3 := hn 0 1 1
  have hcol : ∀ i j : Fin 3, m 0 i.castSucc * m 0 j.castSucc + m 1 i.castSucc * m 1 j.castSucc + m 2 i.castSucc * m 2 j.castSucc = if i = j then 1 else 0 := by
    intro i j
    fin_cases i <;> fin_cases j <;> simp <;> linarith
  refine ⟨hcol, ?_, by linarith⟩
  -- rows
  have hA : (m.submatrix Fin.castSucc Fin.castSucc)ᵀ * m.submatrix Fin.castSucc Fin.castSucc = (1 : Matrix (Fin 3) (Fin 3) ℝ) := by
    ext i j
    rw [Matrix.mul_apply, Fin.sum_univ_three, Matrix.one_apply]
    exact hcol i j
  have hB := mul_eq_one_comm.1 hA
  intro i j
  have := congrFun (congrFun hB i) j
  rw [Matrix.mul_apply, Fin.sum_univ_three, Matrix.one_apply] at this
  exact this

theorem rigid_cofactors {m : Mat4} (hm : Rigid m) :
    m 0 0 = m 1 1 * m 2 2 - m 1 2 * m 2 1 ∧ m 0 1 = m 1 2 * m 2 0 - m 1 0 * m 2 2 ∧ m 0 2 = m 1 0 * m 2 1 - m 1 1 * m 2 0 ∧
    m 1 0 = m 0 2 * m 2 1 - m 0 1 * m 2 2 ∧ m 1 1 = m 0 0 * m 2 2 - m 0 2 * m 2 0 ∧ m 1 2 = m 0 1 * m 2 0 - m 0 0 * m 2 1 ∧
    m 2 0 = m 0 1 * m 1 2 - m 0 2 * m 1 1 ∧ m 2 1 = m 0 2 * m 1 0 - m 0 0 * m 1 2 ∧ m 2 2 = m 0 0 * m 1 1 - m 0 1 * m 1 0 := by
  obtain ⟨hc, -, hd⟩ := rigid_entries hm
  have h00 := hc 0 0; have h01 := hc 0 1; have h02 := hc 0 2
  have h11 := hc 1 1; have h12 := hc 1 2; have h22 := hc 2 2
  simp at h00 h01 h02 h11 h12 h22
  refine ⟨?_, ?_, ?_, ?_, ?_, ?_, ?_, ?_, ?_⟩
  · linear_combination (m 1 1 * m 2 2 - m 1 2 * m 2 1) * h00 + (m 1 2 * m 2 0 - m 1 0 * m 2 2) * h01 + (m 1 0 * m 2 1 - m 1 1 * m 2 0) * h02 - m 0 0 * hd
  · linear_combination (m 1 1 * m 2 2 - m 1 2 * m 2 1) * h01 + (m 1 2 * m 2 0 - m 1 0 * m 2 2) * h11 + (m 1 0 * m 2 1 - m 1 1 * m 2 0) * h12 - m 0 1 * hd
  · linear_combination (m 1 1 * m 2 2 - m 1 2 * m 2 1) * h02 + (m 1 2 * m 2 0 - m 1 0 * m 2 2) * h12 + (m 1 0 * m 2 1 - m 1 1 * m 2 0) * h22 - m 0 2 * hd
  · linear_combination (m 2 1 * m 0 2 - m 2 2 * m 0 1) * h00 + (m 2 2 * m 0 0 - m 2 0 * m 0 2) * h01 + (m 2 0 * m 0 1 - m 2 1 * m 0 0) * h02 - m 1 0 * hd
  · linear_combination (m 2 1 * m 0 2 - m 2 2 * m 0 1) * h01 + (m 2 2 * m 0 0 - m 2 0 * m 0 2) * h11 + (m 2 0 * m 0 1 - m 2 1 * m 0 0) * h12 - m 1 1 * hd
  · linear_combination (m 2 1 * m 0 2 - m 2 2 * m 0 1) * h02 + (m 2 2 * m 0 0 - m 2 0 * m 0 2) * h12 + (m 2 0 * m 0 1 - m 2 1 * m 0 0) * h22 - m 1 2 * hd
  · linear_combination (m 0 1 * m 1 2 - m 0 2 * m 1 1) * h00 + (m 0 2 * m 1 0 - m 0 0 * m 1 2) * h01 + (m 0 0 * m 1 1 - m 0 1 * m 1 0) * h02 - m 2 0 * hd
  · linear_combination (m 0 1 * m 1 2 - m 0 2 * m 1 1) * h01 + (m 0 2 * m 1 0 - m 0 0 * m 1 2) * h11 + (m 0 0 * m 1 1 - m 0 1 * m 1 0) * h12 - m 2 1 * hd
  · linear_combination (m 0 1 * m 1 2 - m 0 2 * m 1 1) * h02 + (m 0 2 * m 1 0 - m 0 0 * m 1 2) * h12 + (m 0 0 * m 1 1 - m 0 1 * m 1 0) * h22 - m 2 2 * hd

/-- the table has rank one -/
theorem quatTable_minor {m : Mat4} (hm : Rigid m) (c i j : Fin 4) : quatRaw m c i * quatRaw m c j = quatRaw m c c * quatRaw m i j := by
  obtain ⟨hc, hr, -⟩ := rigid_entries hm
  obtain ⟨k1, k2, k3, k4, k5, k6, k7, k8, k9⟩ := rigid_cofactors hm
  have c00 := hc 0 0; have c01 := hc 0 1; have c02 := hc 0 2
  have c11 := hc 1 1; have c12 := hc 1 2; have c22 := hc 2 2
  have r00 := hr 0 0; have r01 := hr 0 1; have r02 := hr 0 2
  have r11 := hr 1 1; have r12 := hr 1 2; have r22 := hr 2 2
  simp at c00 c01 c02 c11 c12 c22 r00 r01 r02 r11 r12 r22
  fin_cases c <;> fin_cases i <;> fin_cases j <;> simp [quatRaw, quatTrace] <;> linarith

theorem quatChoice_max (m : Mat4) (i : Fin 4) : quatRaw m i i ≤ quatRaw m (quatChoice m) (quatChoice m) := by
  have e0 : quatRaw m 0 0 = 1 - quatTrace m + 2 * m 0 0 := rfl
  have e1 : quatRaw m 1 1 = 1 - quatTrace m + 2 * m 1 1 := rfl
  have e2 : quatRaw m 2 2 = 1 - quatTrace m + 2 * m 2 2 := rfl
  have e3 : quatRaw m 3 3 = 1 + quatTrace m := rfl
  unfold quatChoice
  split_ifs with h1 h2 h3
  · fin_cases i <;> simp only [Fin.zero_eta, Fin.mk_one, Fin.reduceFinMk, e0, e1, e2, e3] <;> linarith [h1.1, h1.2.1, h1.2.2]
  · have : m 0 0 ≤ m 1 1 := by
      by_contra h
      exact h1 ⟨by linarith, by linarith [h2.1], by linarith [h2.2]⟩
    fin_cases i <;> simp only [Fin.zero_eta, Fin.mk_one, Fin.reduceFinMk, e0, e1, e2, e3] <;> linarith [h2.1, h2.2]
  · have h12 : m 1 1 ≤ m 2 2 := by
      by_contra h
      exact h2 ⟨by linarith, by linarith⟩
    have : m 0 0 ≤ m 2 2 := by
      by_contra h
      exact h1 ⟨by linarith, by linarith, by linarith⟩
    fin_cases i <;> simp only [Fin.zero_eta, Fin.mk_one, Fin.reduceFinMk, e0, e1, e2, e3] <;> linarith
  · have h12 : m 1 1 ≤ quatTrace m := by
      by_contra h
      exact h2 ⟨by linarith, by linarith⟩
    have : m 0 0 ≤ quatTrace m := by
      by_contra h
      exact h1 ⟨by linarith, by linarith, by linarith⟩
    fin_cases i <;> simp only [Fin.zero_eta, Fin.mk_one, Fin.reduceFinMk, e0, e1, e2, e3] <;> linarith

/-- the products of the components of the returned quaternion -/
theorem quat_products {m : Mat4} (hm : Rigid m) (i j : Fin 4) :
    (quatRaw m (quatChoice m) i / norm4 (quatRaw m (quatChoice m))) * (quatRaw m (quatChoice m) j / norm4 (quatRaw m (quatChoice m))) =
      quatRaw m i j / 4 := by
  set c := quatChoice m
  have hs : quatRaw m 0 0 + quatRaw m 1 1 + quatRaw m 2 2 + quatRaw m 3 3 = 4 := by
    simp [quatRaw, quatTrace]; ring
  have hpos : 0 < quatRaw m c c := by
    have := quatChoice_max m
    linarith [this 0, this 1, this 2, this 3]
  have hn : norm4 (quatRaw m c) ^ 2 = 4 * quatRaw m c c := by
    rw [norm4_sq', sq, sq, sq, sq, quatTable_minor hm, quatTable_minor hm, quatTable_minor hm, quatTable_minor hm]
    linear_combination quatRaw m c c * hs
  rw [div_mul_div_comm, ← sq, hn, quatTable_minor hm]
  field_simp

/-- **C101, for moved and turned objects.** After any history of `move` and `rotate` calls (on the object itself or on groups and composites it
belongs to), `get_quaternion()` is a unit quaternion and turns every vector as the object's world transform does. In particular it turns the z axis to
`get_orientation()`. -/
theorem C101_quaternion_partial {fuel : ℕ} {h : Heap} (hr : ReachesBy argsort Movement.IsRigid fuel Heap.empty h) (a : ℕ) :
    Quaternion.normSq (Spec.quat (getQuaternion h a)) = 1 ∧
    (∀ v : Vec4, v 3 = 0 →
      Spec.quat (getQuaternion h a) * Spec.pureQuat v * star (Spec.quat (getQuaternion h a)) = Spec.pureQuat ((h.obj a).world *ᵥ v)) ∧
    (a < h.size → Spec.quat (getQuaternion h a) * Spec.pureQuat (vector 0 0 1) * star (Spec.quat (getQuaternion h a)) = Spec.pureQuat (h.obj a).dir) := by
  have hi := reaches_inv argsort empty_inv hr.reaches
  have hm := reachesBy_rigid hr a
  have key := quat_products hm
  set m := (h.obj a).world
  have k := fun i j => key i j
  have e : ∀ i, getQuaternion h a i = quatRaw m (quatChoice m) i / norm4 (quatRaw m (quatChoice m)) := fun i => rfl
  simp only [← e] at k
  set q := getQuaternion h a
  have k00 := k 0 0; have k01 := k 0 1; have k02 := k 0 2; have k03 := k 0 3
  have k11 := k 1 1; have k12 := k 1 2; have k13 := k 1 3
  have k22 := k 2 2; have k23 := k 2 3; have k33 := k 3 3
  simp [quatRaw, quatTrace] at k00 k01 k02 k03 k11 k12 k13 k22 k23 k33
  have hturn : ∀ v : Vec4, v 3 = 0 → Spec.quat q * Spec.pureQuat v * star (Spec.quat q) = Spec.pureQuat (m *ᵥ v) := by
    intro v hv
    ext
    · simp; ring
    · simp [mulVec4, hv]
      linear_combination v 0 * (k00 - k11 - k22 + k33) + 2 * v 1 * (k01 - k23) + 2 * v 2 * (k02 + k13)
    · simp [mulVec4, hv]
      linear_combination v 1 * (k11 - k00 - k22 + k33) + 2 * v 0 * (k01 + k23) + 2 * v 2 * (k12 - k03)
    · simp [mulVec4, hv]
      linear_combination v 2 * (k22 - k00 - k11 + k33) + 2 * v 0 * (k02 - k13) + 2 * v 1 * (k12 + k03)
  refine ⟨?_, hturn, fun ha => ?_⟩
  · rw [Quaternion.normSq_def']
    simp only [Spec.quat_re, Spec.quat_i, Spec.quat_j, Spec.quat_k]
    linarith
  · rw [hturn _ rfl]
    obtain ⟨-, -, -, -, hd⟩ := hi.synced a ha
    have h1 : norm4 (m *ᵥ vector 0 0 1) = 1 := by
      rw [hm.2.2 _ rfl]; simp [norm4, vector]
    rw [hd]
    congr 1
    funext i
    show _ = (m *ᵥ vector 0 0 1) i / norm4 (m *ᵥ vector 0 0 1)
    rw [h1, div_one]

/-- a plain object that has been placed takes another movement -/
theorem plain_moves {P : Movement → Prop} {h : Heap} (hr : ReachesBy argsort P 1 Heap.empty h) (hs : h.size = 1) (hk : (h.obj 0).kind = .plain)
    (hg : GoodWorld (h.obj 0).world) {mv : Movement} (hP : P mv) {m : Mat4} (hm : mv.matrix = .ok m) (hgood : ∀ w, GoodWorld w → GoodWorld (m * w)) :
    ∃ h', ReachesBy argsort P 1 Heap.empty h' ∧ h'.size = 1 ∧ (h'.obj 0).kind = .plain ∧ GoodWorld (h'.obj 0).world ∧
      (h'.obj 0).world = m * (h.obj 0).world := by
  have hi := reaches_inv argsort empty_inv hr.reaches
  obtain ⟨h', ht, hg'⟩ := transform_succeeds argsort hgood 1 0 hi (fun b hb => by
    obtain rfl : b = 0 := by omega
    exact hg) (by omega) (by simp [Spec.fits, hk])
  have hmv := (transform_ok argsort m 1 0 hi (by omega) ht).2
  have hst := transform_static argsort m 1 h 0
  rw [ht] at hst
  have hsize : h'.size = 1 := hst.1.trans hs
  refine ⟨h', .step (.movement 0 mv) hr (by show 0 < h.size; omega) (fun a mv' e => by cases e; exact hP) ?_, hsize, (hst.2.2 0).1.trans hk,
    hg' 0 (by omega), ?_⟩
  · show callMovement argsort 1 h 0 mv = _
    unfold callMovement
    rw [hm]
    exact ht
  · have := hmv.2 0
    simpa [Spec.visits, hk] using this

theorem scale2_good : ∀ w, GoodWorld w → GoodWorld (scaleMatrix 2 2 2 * w) := by
  intro w ⟨h1, h2, h3⟩
  refine ⟨?_, row_mul rfl h2, ?_⟩
  · rw [det_mul]
    refine mul_ne_zero ?_ h1
    rw [det4]; simp [scaleMatrix]
  · rw [← mulVec_mulVec]
    set v := w *ᵥ vector 0 0 1
    have hv : v 3 = 0 := by
      simp only [v, mulVec4, h2]; simp [vector]
    have : norm4 (scaleMatrix 2 2 2 *ᵥ v) = 2 * norm4 v := by
      unfold norm4
      rw [show (2 : ℝ) = √(2 ^ 2) by rw [Real.sqrt_sq (by norm_num)], ← Real.sqrt_mul (by norm_num)]
      congr 1
      simp only [mulVec4, hv]
      simp [scaleMatrix, hv]
      ring
    rw [this]
    have : 0 ≤ norm4 v := Real.sqrt_nonneg _
    linarith

theorem deg90 : (Movement.rotateX 90 .deg).matrix = .ok (rotXMatrix 1 0) := by
  have : (90 : ℝ) * Real.pi / 180 = Real.pi / 2 := by ring
  simp only [Movement.matrix, sinCos]
  simp [this]

/-- **C101 is false for scaled objects.** After `scale_all(2)` and `rotate_x(90)`, the quaternion turns by an angle whose cosine is 7/25, not by 90 degrees: the y
axis, which the object's transform sends to twice the z axis, is turned to (0, 7/25, 24/25). -/
theorem C101_scaled_false : ∃ h, ReachesBy argsort (fun mv => mv.IsRigid ∨ mv = .scale 2 2 2) 1 Heap.empty h ∧ h.size = 1 ∧
    (h.obj 0).world *ᵥ vector 0 1 0 = vector 0 0 2 ∧ getQuaternion h 0 = ![3 / 5, 0, 0, 4 / 5] ∧
    Spec.quat (getQuaternion h 0) * Spec.pureQuat (vector 0 1 0) * star (Spec.quat (getQuaternion h 0)) = Spec.pureQuat (vector 0 (7 / 25) (24 / 25)) := by
  have h0 : ReachesBy argsort (fun mv => mv.IsRigid ∨ mv = .scale 2 2 2) 1 Heap.empty (newPlain Heap.empty) :=
    .step .newPlain (.refl _) trivial (fun _ _ h => by cases h) rfl
  have w0 : ((newPlain Heap.empty).obj 0).world = 1 := by simp [newPlain, Heap.alloc, Heap.empty]
  obtain ⟨h1, r1, s1, k1, g1, w1⟩ := plain_moves h0 rfl (by simp [newPlain, Heap.alloc, Heap.empty]) (by rw [w0]; exact goodWorld_one)
    (mv := .scale 2 2 2) (.inr rfl) (m := scaleMatrix 2 2 2) (by simp [Movement.matrix]) scale2_good
  obtain ⟨h2, r2, s2, k2, g2, w2⟩ := plain_moves r1 s1 k1 g1 (mv := .rotateX 90 .deg) (.inl (.inr ⟨_, _, .inl rfl⟩)) deg90
    (rigid_good (rotX_rigid (by norm_num)))
  rw [w1, w0, mul_one] at w2
  have hw : (h2.obj 0).world = !![2, 0, 0, 0; 0, 0, -2, 0; 0, 2, 0, 0; 0, 0, 0, 1] := by
    rw [w2]
    ext i j
    rw [Matrix.mul_apply, Fin.sum_univ_four]
    fin_cases i <;> fin_cases j <;> simp [rotXMatrix, scaleMatrix]
  have hq : getQuaternion h2 0 = ![3 / 5, 0, 0, 4 / 5] := by
    have hc : quatChoice (h2.obj 0).world = 0 := by
      rw [hw]; simp [quatChoice, quatTrace]
    have hraw : quatRaw (h2.obj 0).world 0 = ![3, 0, 0, 4] := by
      rw [hw]
      funext i
      fin_cases i <;> simp [quatRaw, quatTrace] <;> norm_num
    have hn : norm4 (![3, 0, 0, 4] : Vec4) = 5 := by
      unfold norm4
      rw [Real.sqrt_eq_iff_mul_self_eq_of_pos (by norm_num)]
      simp; norm_num
    funext i
    simp only [getQuaternion, hc, hraw, hn]
    fin_cases i <;> simp
  refine ⟨h2, r2, s2, ?_, hq, ?_⟩
  · rw [hw]
    funext i
    rw [mulVec4]
    fin_cases i <;> simp [vector]
  · rw [hq]
    ext <;> simp [vector] <;> norm_num

/-- non-vacuity of `C101_quaternion_partial`: after `rotate_x(90)` the y axis is turned to the z axis -/
example : ∃ h, ReachesBy argsort Movement.IsRigid 1 Heap.empty h ∧
    Spec.quat (getQuaternion h 0) * Spec.pureQuat (vector 0 1 0) * star (Spec.quat (getQuaternion h 0)) = Spec.pureQuat (vector 0 0 1) := by
  have h0 : ReachesBy argsort Movement.IsRigid 1 Heap.empty (newPlain Heap.empty) :=
    .step .newPlain (.refl _) trivial (fun _ _ h => by cases h) rfl
  have w0 : ((newPlain Heap.empty).obj 0).world = 1 := by simp [newPlain, Heap.alloc, Heap.empty]
  obtain ⟨h1, r1, s1, k1, g1, w1⟩ := plain_moves h0 rfl (by simp [newPlain, Heap.alloc, Heap.empty]) (by rw [w0]; exact goodWorld_one)
    (mv := .rotateX 90 .deg) (.inr ⟨_, _, .inl rfl⟩) deg90 (rigid_good (rotX_rigid (by norm_num)))
  refine ⟨h1, r1, ?_⟩
  rw [(C101_quaternion_partial r1 0).2.1 _ rfl, w1, w0, mul_one]
  congr 1
  funext i
  rw [mulVec4]
  fin_cases i <;> simp [rotXMatrix, vector]

end PyRayT
