import Verif.Proofs.Paraxial
import Verif.Proofs.Components4
import Verif.Props.Components
import Verif.Props.Normals
import Mathlib.Analysis.SpecialFunctions.Trigonometric.Inverse

/-! Helper lemmas for C92: two refractions at faces that make 60 degrees, and the normals of the slanted faces of the prism. -/

namespace PyRayT

open Classical Matrix Spec

/-! ### the least deviation -/

/-- length of the change of direction (for unit vectors) in the symmetrical passage -/
noncomputable def leastTurn (n : ℝ) : ℝ := (√3 * n - √(4 - n ^ 2)) / 2

theorem sqrt_three : √3 ^ 2 = 3 ∧ 0 < √3 := ⟨Real.sq_sqrt (by norm_num), Real.sqrt_pos.2 (by norm_num)⟩

/-- x ↦ √(x² - c) is concave -/
theorem hyperbola_concave {c x y A B : ℝ} (hc : 0 ≤ c) (hx : 0 ≤ x) (hy : 0 ≤ y) (hA : 0 ≤ A) (hB : 0 ≤ B) (eA : A ^ 2 = x ^ 2 - c)
    (eB : B ^ 2 = y ^ 2 - c) : 0 ≤ ((x + y) / 2) ^ 2 - c ∧ (A + B) / 2 ≤ √(((x + y) / 2) ^ 2 - c) := by
  have hxy : c ≤ x * y := by
    have h1 : c ≤ x ^ 2 := by nlinarith
    have h2 : c ≤ y ^ 2 := by nlinarith
    by_contra h
    push Not at h
    nlinarith [mul_nonneg hx hy, mul_le_mul h1 h2 hc (by positivity)]
  have hAB : A * B ≤ x * y - c := by
    refine abs_le_of_sq_le_sq' ?_ (by linarith) |>.2
    rw [mul_pow, eA, eB]
    nlinarith [mul_nonneg hc (sq_nonneg (x - y))]
  have h0 : ((A + B) / 2) ^ 2 ≤ ((x + y) / 2) ^ 2 - c := by nlinarith
  exact ⟨(sq_nonneg _).trans h0, Real.le_sqrt_of_sq_le h0⟩

/-- x ↦ x - √(x² - c) falls -/
theorem hyperbola_falls {c x y : ℝ} (hc : 0 < c) (hx : 0 < x) (hxc : 0 ≤ x ^ 2 - c) (h : x < y) : y - √(y ^ 2 - c) < x - √(x ^ 2 - c) := by
  have h1 := Real.sq_sqrt hxc
  have h2 := Real.sqrt_nonneg (x ^ 2 - c)
  suffices hs : √(x ^ 2 - c) + (y - x) < √(y ^ 2 - c) by linarith
  have hlt : √(x ^ 2 - c) < x := by
    rw [Real.sqrt_lt' hx]; linarith
  apply Real.lt_sqrt_of_sq_lt
  nlinarith

theorem dot4_comm' (u v : Vec4) : dot4 u v = dot4 v u := by simp only [dot4]; ring

/-- only a ray at equal angles to both faces has this sum of cosines -/
theorem equal_angles {w m1 m2 : Vec4} (h : dot4 (fun i => √3 * w i - (m2 i - m1 i)) (fun i => √3 * w i - (m2 i - m1 i)) = 0) (i : Fin 4) : w i = (m2 i - m1 i) / √3 := by
  have hz : √3 * w i - (m2 i - m1 i) = 0 := by
    simp only [dot4] at h
    have p0 := mul_self_nonneg (√3 * w 0 - (m2 0 - m1 0))
    have p1 := mul_self_nonneg (√3 * w 1 - (m2 1 - m1 1))
    have p2 := mul_self_nonneg (√3 * w 2 - (m2 2 - m1 2))
    have p3 := mul_self_nonneg (√3 * w 3 - (m2 3 - m1 3))
    rw [← mul_self_eq_zero]
    fin_cases i
    · show (√3 * w 0 - (m2 0 - m1 0)) * (√3 * w 0 - (m2 0 - m1 0)) = 0
      linarith
    · show (√3 * w 1 - (m2 1 - m1 1)) * (√3 * w 1 - (m2 1 - m1 1)) = 0
      linarith
    · show (√3 * w 2 - (m2 2 - m1 2)) * (√3 * w 2 - (m2 2 - m1 2)) = 0
      linarith
    · show (√3 * w 3 - (m2 3 - m1 3)) * (√3 * w 3 - (m2 3 - m1 3)) = 0
      linarith
  rw [eq_div_iff sqrt_three.2.ne']; linarith

theorem equal_angles_dot {w m1 m2 : Vec4} (he : ∀ i, w i = (m2 i - m1 i) / √3) (m : Vec4) : dot4 w m = (dot4 m2 m - dot4 m1 m) / √3 := by
  simp only [dot4, he]; ring

/-- Two refractions, into a glass of index n and out again, at faces with outward unit normals at 120 degrees: the directions before and after differ at least as much as
when the ray runs at equal angles to the faces, and only then as little. -/
theorem deviation_core {n : ℝ} (hn : 1 < n) {u w v m1 m2 : Vec4} (hu : dot4 u u = 1) (hw : dot4 w w = 1) (hv : dot4 v v = 1)
    (h1 : dot4 m1 m1 = 1) (h2 : dot4 m2 m2 = 1) (h12 : dot4 m1 m2 = -1 / 2) (hu1 : dot4 u m1 ≤ 0) (hw1 : dot4 w m1 < 0)
    (hw2 : 0 < dot4 w m2) (hv2 : 0 < dot4 v m2)
    (s1 : ∀ i, u i - dot4 u m1 * m1 i = n * (w i - dot4 w m1 * m1 i)) (s2 : ∀ i, n * (w i - dot4 w m2 * m2 i) = v i - dot4 v m2 * m2 i) :
    n ≤ 2 ∧ dot4 u v ≤ 1 - leastTurn n ^ 2 / 2 ∧ (dot4 u v = 1 - leastTurn n ^ 2 / 2 ↔ ∀ i, w i = (m2 i - m1 i) / √3) := by
  obtain ⟨k2, k0⟩ := sqrt_three
  obtain ⟨x, hx⟩ : ∃ x, x = -(n * dot4 w m1) := ⟨_, rfl⟩
  obtain ⟨y, hy⟩ : ∃ y, y = n * dot4 w m2 := ⟨_, rfl⟩
  obtain ⟨A, hA⟩ : ∃ A, A = -dot4 u m1 := ⟨_, rfl⟩
  obtain ⟨B, hB⟩ : ∃ B, B = dot4 v m2 := ⟨_, rfl⟩
  obtain ⟨c, hc⟩ : ∃ c, c = n ^ 2 - 1 := ⟨_, rfl⟩
  have hn0 : 0 < n := by linarith
  have hc0 : 0 < c := by rw [hc]; nlinarith
  have hx0 : 0 < x := by rw [hx]; nlinarith
  have hy0 : 0 < y := by rw [hy]; positivity
  have eA : A ^ 2 = x ^ 2 - c := by
    have q1 := unit_split hu h1
    have q2 := unit_split hw h1
    rw [s1 0, s1 1, s1 2, s1 3] at q1
    rw [hA, hx, hc]
    linear_combination q1 - n ^ 2 * q2
  have eB : B ^ 2 = y ^ 2 - c := by
    have q1 := unit_split hv h2
    have q2 := unit_split hw h2
    rw [← s2 0, ← s2 1, ← s2 2, ← s2 3] at q1
    rw [hB, hy, hc]
    linear_combination q1 - n ^ 2 * q2
  have hA0 : 0 ≤ A := by rw [hA]; linarith
  have hB0 : 0 ≤ B := by rw [hB]; exact hv2.le
  obtain ⟨g1, g2⟩ := hyperbola_concave hc0.le hx0.le hy0.le hA0 hB0 eA eB
  -- the angles between the ray in the glass and the faces
  have hcs : dot4 (fun i => √3 * w i - (m2 i - m1 i)) (fun i => √3 * w i - (m2 i - m1 i)) = 6 - 2 * √3 * (dot4 w m2 - dot4 w m1) := by
    have : dot4 (fun i => √3 * w i - (m2 i - m1 i)) (fun i => √3 * w i - (m2 i - m1 i)) =
        √3 ^ 2 * dot4 w w - 2 * √3 * (dot4 w m2 - dot4 w m1) + (dot4 m2 m2 + dot4 m1 m1 - 2 * dot4 m1 m2) := by
      simp only [dot4]; ring
    rw [this, k2, hw, h1, h2, h12]; ring
  have hcs0 : 0 ≤ dot4 (fun i => √3 * w i - (m2 i - m1 i)) (fun i => √3 * w i - (m2 i - m1 i)) := by
    simp only [dot4]
    exact add_nonneg (add_nonneg (add_nonneg (mul_self_nonneg _) (mul_self_nonneg _)) (mul_self_nonneg _)) (mul_self_nonneg _)
  have hsum : x + y = n * (dot4 w m2 - dot4 w m1) := by rw [hx, hy]; ring
  have hle : dot4 w m2 - dot4 w m1 ≤ √3 := by
    rw [hcs] at hcs0
    have : √3 * (dot4 w m2 - dot4 w m1) ≤ √3 * √3 := by nlinarith
    exact le_of_mul_le_mul_left this k0
  obtain ⟨S, hS⟩ : ∃ S, S = (x + y) / 2 := ⟨_, rfl⟩
  obtain ⟨S0, hS0⟩ : ∃ S0, S0 = √3 / 2 * n := ⟨_, rfl⟩
  rw [← hS] at g1 g2
  have hSpos : 0 < S := by rw [hS]; linarith
  have hSS : S ≤ S0 := by
    rw [hS, hsum, hS0]
    have := mul_le_mul_of_nonneg_left hle hn0.le
    linarith
  have hS0c : S0 ^ 2 - c = 1 - n ^ 2 / 4 := by rw [hS0, hc]; linear_combination n ^ 2 / 4 * k2
  have hS0g : 0 ≤ S0 ^ 2 - c := by
    have := pow_le_pow_left₀ hSpos.le hSS 2
    linarith
  have hn2 : n ≤ 2 := by
    rw [hS0c] at hS0g
    refine abs_le_of_sq_le_sq' ?_ (by norm_num) |>.2
    linarith
  have hturn : leastTurn n = S0 - √(S0 ^ 2 - c) := by
    have : √(4 - n ^ 2) = 2 * √(1 - n ^ 2 / 4) := by
      rw [show 4 - n ^ 2 = 2 ^ 2 * (1 - n ^ 2 / 4) by ring, Real.sqrt_mul (by norm_num), Real.sqrt_sq (by norm_num)]
    unfold leastTurn
    rw [this, hS0c, hS0]; ring
  have hturn0 : 0 ≤ leastTurn n := by
    rw [hturn, sub_nonneg]
    apply Real.sqrt_le_iff.2
    exact ⟨by rw [hS0]; positivity, by linarith⟩
  have hfall : leastTurn n ≤ S - √(S ^ 2 - c) := by
    rw [hturn]
    rcases hSS.lt_or_eq with h | h
    · exact (hyperbola_falls hc0 hSpos g1 h).le
    · rw [h]
  -- the change of direction
  have huv : 2 - 2 * dot4 u v = (x - A) ^ 2 + (y - B) ^ 2 - (x - A) * (y - B) := by
    have e1 : ∀ i, u i = n * w i + (x - A) * m1 i := by
      intro i; rw [hx, hA]; linear_combination s1 i
    have e2 : ∀ i, v i = n * w i - (y - B) * m2 i := by
      intro i; rw [hy, hB]; linear_combination -(s2 i)
    have : dot4 (fun i => u i - v i) (fun i => u i - v i) = dot4 u u + dot4 v v - 2 * dot4 u v := by simp only [dot4]; ring
    rw [hu, hv] at this
    have h' : (fun i => u i - v i) = fun i => (x - A) * m1 i + (y - B) * m2 i := by
      funext i; rw [e1 i, e2 i]; ring
    rw [h'] at this
    have h'' : dot4 (fun i => (x - A) * m1 i + (y - B) * m2 i) (fun i => (x - A) * m1 i + (y - B) * m2 i) =
        (x - A) ^ 2 * dot4 m1 m1 + (y - B) ^ 2 * dot4 m2 m2 + 2 * ((x - A) * (y - B)) * dot4 m1 m2 := by simp only [dot4]; ring
    rw [h'', h1, h2, h12] at this
    linarith
  have hG : leastTurn n ≤ ((x - A) + (y - B)) / 2 := by linarith
  have hsq : leastTurn n ^ 2 ≤ (((x - A) + (y - B)) / 2) ^ 2 := pow_le_pow_left₀ hturn0 hG 2
  have hthree : (((x - A) + (y - B)) / 2) ^ 2 ≤ 2 - 2 * dot4 u v := by
    have : 2 - 2 * dot4 u v = (((x - A) + (y - B)) / 2) ^ 2 + 3 / 4 * ((x - A) - (y - B)) ^ 2 := by rw [huv]; ring
    rw [this]
    exact le_add_of_nonneg_right (mul_nonneg (by norm_num) (sq_nonneg _))
  refine ⟨hn2, by linarith, fun he => ?_, fun he => ?_⟩
  · have hGe : ((x - A) + (y - B)) / 2 ≤ leastTurn n := by
      refine abs_le_of_sq_le_sq' ?_ hturn0 |>.2
      linarith
    have hSeq : S = S0 := by
      rcases hSS.lt_or_eq with h | h
      · have := hyperbola_falls hc0 hSpos g1 h
        rw [← hturn] at this
        linarith
      · exact h
    have hd : dot4 w m2 - dot4 w m1 = √3 := by
      have : n * (dot4 w m2 - dot4 w m1) = n * √3 := by rw [← hsum]; linarith
      exact mul_left_cancel₀ hn0.ne' this
    rw [hd, mul_assoc, ← sq, k2] at hcs
    exact equal_angles (by rw [hcs]; norm_num)
  · have f := equal_angles_dot he
    have hxv : x = S0 := by
      rw [hx, f, h1, dot4_comm' m2 m1, h12, hS0]; field_simp; rw [k2]; ring
    have hyv : y = S0 := by
      rw [hy, f, h2, h12, hS0]; field_simp; rw [k2]; ring
    have hAv : A = √(S0 ^ 2 - c) := by
      rw [← hxv, ← eA, Real.sqrt_sq hA0]
    have hBv : B = √(S0 ^ 2 - c) := by
      rw [← hyv, ← eB, Real.sqrt_sq hB0]
    rw [hAv, hBv, hxv, hyv, ← hturn] at huv
    linarith

/-- the least angle of deviation -/
noncomputable def Spec.leastDeviation (n : ℝ) : ℝ := 2 * Real.arcsin (n / 2) - Real.pi / 3

theorem leastDeviation_spec {n : ℝ} (h1 : 1 ≤ n) (h2 : n ≤ 2) : Real.cos (leastDeviation n) = 1 - leastTurn n ^ 2 / 2 ∧ 0 ≤ leastDeviation n ∧ leastDeviation n ≤ Real.pi := by
  obtain ⟨k2, k0⟩ := sqrt_three
  have hlo : Real.pi / 6 ≤ Real.arcsin (n / 2) := by
    rw [Real.le_arcsin_iff_sin_le' ⟨by linarith [Real.pi_pos], by linarith [Real.pi_pos]⟩, Real.sin_pi_div_six]
    linarith
  have hhi := Real.arcsin_le_pi_div_two (n / 2)
  unfold leastDeviation
  refine ⟨?_, by linarith, by linarith [Real.pi_pos]⟩
  have e : 2 * Real.arcsin (n / 2) - Real.pi / 3 = 2 * (Real.arcsin (n / 2) - Real.pi / 6) := by ring
  have hs : Real.sin (Real.arcsin (n / 2) - Real.pi / 6) = leastTurn n / 2 := by
    rw [Real.sin_sub, Real.sin_arcsin (by linarith) (by linarith), Real.cos_arcsin, Real.cos_pi_div_six, Real.sin_pi_div_six]
    have : √(4 - n ^ 2) = 2 * √(1 - (n / 2) ^ 2) := by
      rw [show 4 - n ^ 2 = 2 ^ 2 * (1 - (n / 2) ^ 2) by ring, Real.sqrt_mul (by norm_num), Real.sqrt_sq (by norm_num)]
    unfold leastTurn
    rw [this]; ring
  rw [e, Real.cos_two_mul, Real.cos_sq', hs]; ring

/-! ### the slanted faces -/

theorem not_isclose {x b : ℝ} (h : 1e-8 + 1e-5 * |b| < |x - b|) : ¬ isclose x b := not_le.2 h

/-- normal of a subtracted block on its face towards the prism -/
theorem cut_normal {o : Obj} {s w u sg : ℝ} (h : sg = 1 ∨ sg = -1) (hT : o.objT = (cutPlace s u sg)⁻¹) (hns : o.nscale = -1) (hs : 1e-6 ≤ s) (hw : 1e-6 ≤ w)
    {x y z : ℝ} (hface : z - u + s / 2 = √3 * (s / 2 - sg * x)) (hy : |y| ≤ w / 2) (hlo : 1e-8 + 1e-5 * s < z - u + s / 2)
    (hhi : z - u + s / 2 ≤ √3 / 2 * s) : worldNormal o (cutBlock s w) (point x y z) = vector (sg * (√3 / 2)) 0 (1 / 2) := by
  obtain ⟨k2, k0⟩ := sqrt_three
  have ka : √3 < 1.74 := by rw [Real.sqrt_lt' (by norm_num)]; norm_num
  have kb : 1.73 < √3 := by rw [Real.lt_sqrt (by norm_num)]; norm_num
  obtain ⟨c, hc⟩ : ∃ c, c = 1.1 * s / (√3 / 2) := ⟨_, rfl⟩
  have hc1 : c * √3 = 2.2 * s := by rw [hc]; field_simp; norm_num
  have hc2 : 1.26 * s ≤ c := by
    refine le_of_mul_le_mul_right ?_ k0
    rw [hc1]; nlinarith
  have hc3 : c ≤ 1.3 * s := by
    refine le_of_mul_le_mul_right ?_ k0
    rw [hc1]; nlinarith
  have hsg : sg * sg = 1 := by rcases h with rfl | rfl <;> norm_num
  have hs0 : 0 < s := by linarith
  have hc0 : 0 < c := by linarith
  have hw0 : 0 < w := by linarith
  obtain ⟨B, hB⟩ : ∃ B, B = 2 * (s / 2 - sg * x) := ⟨_, rfl⟩
  have hBZ : z - u + s / 2 = √3 / 2 * B := by rw [hface, hB]; ring
  have hB1 : 1e-8 + 1e-5 * s < B := by
    rw [hBZ] at hlo
    have : 0 < B := by
      by_contra hn
      push Not at hn
      nlinarith
    nlinarith
  have hB2 : B ≤ s := by
    rw [hBZ] at hhi
    exact le_of_mul_le_mul_left hhi (by positivity)
  have hloc : (cutPlace s u sg)⁻¹ *ᵥ point x y z = point (-sg * (c / 2)) y (B - c / 2) := by
    rw [cutPlace_point s u h, sin60, ← hc]
    congr 1
    · rw [hface]; ring_nf
      rcases h with rfl | rfl <;> ring
    · rw [hface, hB]; linear_combination (s / 4 - sg * x / 2) * k2 + s / 4 * hsg
  have hlocn : (cutBlock s w).normal (point (-sg * (c / 2)) y (B - c / 2)) = vector (-sg) 0 0 := by
    unfold cutBlock
    rw [sin60, ← hc]
    simp only [Prim.normal]
    have e0 : cubeNormalComp (cubeSpans ![-0.5 * c, -0.5 * (1.1 * w), -0.5 * c] ![0.5 * c, 0.5 * (1.1 * w), 0.5 * c] 0) (point (-sg * (c / 2)) y (B - c / 2) 0) = -sg := by
      have : cubeSpans ![-0.5 * c, -0.5 * (1.1 * w), -0.5 * c] ![0.5 * c, 0.5 * (1.1 * w), 0.5 * c] 0 = (-(c / 2), c / 2) := by
        simp [cubeSpans]
        constructor
        · rw [min_eq_left (by linarith)]; ring
        · rw [max_eq_right (by linarith)]; ring
      rw [this]
      rcases h with rfl | rfl
      · rw [cubeNormalComp_lo]
        · apply not_isclose
          simp only [point, Matrix.cons_val_zero]
          rw [show -1 * (c / 2) - c / 2 = -c by ring, abs_neg, abs_of_pos hc0, abs_of_pos (by linarith)]
          linarith
        · simp only [point, Matrix.cons_val_zero]
          rw [neg_one_mul]; exact isclose_self _
      · rw [cubeNormalComp_hi, neg_neg]
        simp only [point, Matrix.cons_val_zero]
        rw [neg_neg, one_mul]; exact isclose_self _
    have e1 : cubeNormalComp (cubeSpans ![-0.5 * c, -0.5 * (1.1 * w), -0.5 * c] ![0.5 * c, 0.5 * (1.1 * w), 0.5 * c] 1) (point (-sg * (c / 2)) y (B - c / 2) 1) = 0 := by
      have : cubeSpans ![-0.5 * c, -0.5 * (1.1 * w), -0.5 * c] ![0.5 * c, 0.5 * (1.1 * w), 0.5 * c] 1 = (-(0.55 * w), 0.55 * w) := by
        simp [cubeSpans]
        constructor
        · rw [min_eq_left (by linarith)]; ring
        · rw [max_eq_right (by linarith)]; ring
      rw [this]
      obtain ⟨y1, y2⟩ := abs_le.1 hy
      apply cubeNormalComp_none
      · apply not_isclose 
        simp only [point, Matrix.cons_val_one, Matrix.cons_val_zero]
        rw [abs_of_pos (show 0 < 0.55 * w by linarith), abs_of_neg (by linarith)]
        linarith
      · apply not_isclose 
        simp only [point, Matrix.cons_val_one, Matrix.cons_val_zero]
        rw [abs_of_neg (show -(0.55 * w) < 0 by linarith), abs_of_pos (by linarith)]
        linarith
    have e2 : cubeNormalComp (cubeSpans ![-0.5 * c, -0.5 * (1.1 * w), -0.5 * c] ![0.5 * c, 0.5 * (1.1 * w), 0.5 * c] 2) (point (-sg * (c / 2)) y (B - c / 2) 2) = 0 := by
      have : cubeSpans ![-0.5 * c, -0.5 * (1.1 * w), -0.5 * c] ![0.5 * c, 0.5 * (1.1 * w), 0.5 * c] 2 = (-(c / 2), c / 2) := by
        simp [cubeSpans]
        constructor
        · rw [min_eq_left (by linarith)]; ring
        · rw [max_eq_right (by linarith)]; ring
      rw [this]
      apply cubeNormalComp_none
      · apply not_isclose 
        simp only [point, Matrix.cons_val_two, Matrix.tail_cons, Matrix.head_cons]
        rw [abs_of_pos (show 0 < c / 2 by linarith), abs_of_neg (by linarith)]
        linarith
      · apply not_isclose 
        simp only [point, Matrix.cons_val_two, Matrix.tail_cons, Matrix.head_cons]
        rw [abs_of_neg (show -(c / 2) < 0 by linarith), abs_of_pos (by linarith)]
        linarith
    rw [e0, e1, e2]
    have hn1 : norm4 ![-sg, 0, 0, 0] = 1 := by
      rw [norm4, Real.sqrt_eq_one]
      rcases h with rfl | rfl <;> simp
    funext i
    simp only [normalize, hn1, div_one, vector]
  have hcol : ∀ k : Fin 4, k ≠ 3 → ((cutPlace s u sg)⁻¹ᵀ *ᵥ vector (-sg) 0 0) k = -sg * (√3 / 2 * (Pi.single k 1 : Vec4) 0 + sg * (1 / 2) * (Pi.single k 1 : Vec4) 2) := by
    intro k hk
    have e := cutPlace_dir s u h (d := Pi.single k 1) (by simp [Pi.single_apply, hk.symm])
    have e0 := congrFun e 0
    rw [Matrix.mulVec_single_one] at e0
    simp only [vector, Matrix.cons_val_zero, Matrix.col_apply] at e0
    rw [mulVec4]
    simp only [Matrix.transpose_apply, vector]
    simp
    rw [e0]
    ring
  unfold worldNormal
  rw [hT, hloc, hlocn, hns]
  have hz : zeroW ((cutPlace s u sg)⁻¹ᵀ *ᵥ vector (-sg) 0 0) = vector (-sg * (√3 / 2)) 0 (-(1 / 2)) := by
    unfold zeroW
    rw [hcol 0 (by decide), hcol 1 (by decide), hcol 2 (by decide)]
    funext i
    fin_cases i
    · simp [vector]
    · simp [vector]
    · simp [vector]; linear_combination 1 / 2 * hsg
    · rfl
  rw [hz]
  have hn1 : norm4 (vector (-sg * (√3 / 2)) 0 (-(1 / 2))) = 1 := by
    rw [norm4, Real.sqrt_eq_one]
    have e : ∀ a b c : ℝ, vector a b c 0 ^ 2 + vector a b c 1 ^ 2 + vector a b c 2 ^ 2 + vector a b c 3 ^ 2 = a ^ 2 + b ^ 2 + c ^ 2 := by
      intro a b c; simp [vector]
    rw [e]
    linear_combination sg ^ 2 / 4 * k2 + 3 / 4 * hsg
  funext i
  simp only [normalize, hn1, div_one, Pi.smul_apply, smul_eq_mul]
  fin_cases i <;> simp [vector]

end PyRayT
