import Verif.Proofs.Rounding
import Mathlib.Data.Int.Log
import Mathlib.Algebra.Order.Round

/-!
# Property C107: what rounding does to reflected and refracted rays
-/

namespace PyRayT

open Classical

variable {u : ℝ}

/-! ### Doubles round in the sense of the model -/

/-- the finite numbers of the binary64 format, without the upper limit of the exponent -/
def Spec.IsDouble (y : ℝ) : Prop := ∃ m e : ℤ, |m| < 2 ^ 53 ∧ -1074 ≤ e ∧ y = m * (2 : ℝ) ^ e

/-- `y` is a double closest to `x` -/
def Spec.NearestDouble (x y : ℝ) : Prop := Spec.IsDouble y ∧ ∀ z, Spec.IsDouble z → |y - x| ≤ |z - x|

theorem exists_double (x : ℝ) : ∃ z, Spec.IsDouble z ∧ Rounds (2 ^ (-53 : ℤ)) x z := by
  rcases eq_or_ne x 0 with rfl | hx
  · exact ⟨0, ⟨0, 0, by norm_num, by norm_num, by simp⟩, Rounds.exact (zpow_nonneg (by norm_num) _) 0⟩
  have hx0 : 0 < |x| := abs_pos.2 hx
  set k := Int.log 2 |x| with hk
  have hk1 : (2 : ℝ) ^ k ≤ |x| := by simpa using Int.zpow_log_le_self (b := 2) (by norm_num) hx0
  have hk2 : |x| < (2 : ℝ) ^ (k + 1) := by simpa using Int.lt_zpow_succ_log_self (b := 2) (by norm_num) |x|
  set e := max (k - 52) (-1074) with he
  have h2e : (0 : ℝ) < 2 ^ e := zpow_pos (by norm_num) _
  have hr := abs_sub_round (x / 2 ^ e)
  set m := round (x / 2 ^ e) with hm
  have herr : |(m : ℝ) * 2 ^ e - x| ≤ 2 ^ e / 2 := by
    have e1 : (m : ℝ) * 2 ^ e - x = -(x / 2 ^ e - m) * 2 ^ e := by field_simp; ring
    rw [e1, abs_mul, abs_neg, abs_of_pos h2e]
    nlinarith
  have hround : Rounds (2 ^ (-53 : ℤ)) x ((m : ℝ) * 2 ^ e) := by
    refine herr.trans ?_
    rcases max_cases (k - 52) (-1074) with ⟨h, -⟩ | ⟨h, -⟩
    · have e1 : (2 : ℝ) ^ e / 2 = 2 ^ (-53 : ℤ) * 2 ^ k := by
        rw [he, h, ← zpow_add₀ (by norm_num), div_eq_mul_inv, ← zpow_sub_one₀ (by norm_num)]
        congr 1; ring
      rw [e1]
      exact mul_le_mul_of_nonneg_left (hk1.trans (le_max_left _ _)) (by positivity)
    · have e1 : (2 : ℝ) ^ e / 2 ≤ 2 ^ (-53 : ℤ) * 2 ^ (-53 : ℤ) := by
        rw [he, h, ← zpow_add₀ (by norm_num), div_eq_mul_inv, ← zpow_sub_one₀ (by norm_num)]
        exact zpow_le_zpow_right₀ (by norm_num) (by norm_num)
      exact e1.trans (mul_le_mul_of_nonneg_left (le_max_right _ _) (by positivity))
  have hm53 : |m| ≤ 2 ^ 53 := by
    have h1 : |x / 2 ^ e| < 2 ^ 53 := by
      rw [abs_div, abs_of_pos h2e, div_lt_iff₀ h2e]
      refine hk2.trans_le ?_
      rw [← zpow_natCast, ← zpow_add₀ (by norm_num)]
      exact zpow_le_zpow_right₀ (by norm_num) (by have := le_max_left (k - 52) (-1074); push_cast; omega)
    have h2 : |(m : ℝ)| < 2 ^ 53 + 1 := by
      have h3 := abs_add_le ((m : ℝ) - x / 2 ^ e) (x / 2 ^ e)
      rw [sub_add_cancel, abs_sub_comm] at h3
      linarith
    have h3 : ((|m| : ℤ) : ℝ) < ((2 ^ 53 + 1 : ℤ) : ℝ) := by push_cast; exact h2.trans_le (by norm_num)
    have := Int.cast_lt.1 h3
    omega
  refine ⟨_, ?_, hround⟩
  rcases hm53.lt_or_eq with h | h
  · exact ⟨m, e, h, le_max_right _ _, rfl⟩
  · have he1 : (2 : ℝ) ^ (e + 1) = 2 ^ e * 2 := zpow_add_one₀ (by norm_num) e
    have hle : -1074 ≤ e + 1 := (le_max_right (k - 52) (-1074)).trans (by omega)
    rcases abs_eq (by norm_num) |>.1 h with h | h
    · refine ⟨2 ^ 52, e + 1, by norm_num, hle, ?_⟩
      rw [h, he1]; push_cast; ring
    · refine ⟨-2 ^ 52, e + 1, by norm_num, hle, ?_⟩
      rw [h, he1]; push_cast; ring

/-- **C107 (1).** Rounding to a nearest double rounds in the sense of the model, with `u = 2⁻⁵³`: whatever tie-breaking, also when the result underflows. -/
theorem C107_doubles {x y : ℝ} (h : Spec.NearestDouble x y) : Rounds (2 ^ (-53 : ℤ)) x y := by
  obtain ⟨z, hz, hr⟩ := exists_double x
  exact (h.2 z hz).trans hr

/-! ### Reflection -/

/-- **C107 (2).** Rounded reflection is exact reflection up to 30 units of roundoff. -/
theorem C107_reflect (hu : 0 ≤ u) (hu6 : u ≤ 1e-6) {v n w : Vec4} (hv : norm4 v ≤ 2) (hn : norm4 n ≤ 1.001) (h : ReflectR u v n w) :
    norm4 (w - reflect v n) ≤ 30 * u := by
  obtain ⟨s, p, q, hs, hp, hq, hw⟩ := h
  have hvn : norm4 v * norm4 n ≤ 2.002 := (mul_le_mul hv hn (norm4_nonneg _) (by norm_num)).trans (by norm_num)
  have hs0 : |dot4 v n| ≤ 2.002 := (abs_dot4_le v n).trans hvn
  have e1 := hs.err hu hu6 (B := 2.002) (k := 8.02) hvn (by norm_num)
  have e2 : norm4 (p - (2 : ℝ) • n) ≤ 2.01 * u := by
    refine vec_err hu hu6 (x := (2 : ℝ) • n) (fun i => by simpa using hp i) (vself_err _) (B := 2.002) ?_ le_rfl (by norm_num)
    rw [norm4_smul, abs_of_pos (by norm_num)]; linarith
  have e3 : norm4 (q - dot4 v n • (2 : ℝ) • n) ≤ 25 * u := by
    have h2n : norm4 ((2 : ℝ) • n) ≤ 2.002 := by rw [norm4_smul, abs_of_pos (by norm_num)]; linarith
    refine vec_err hu hu6 (x := s • p) (fun i => by have := hq i; rw [mul_comm] at this; simpa using this)
      (smul_err hu hu6 (m := 20.2) e1 e2 hs0 h2n (by norm_num) (by norm_num) (by norm_num)) (B := 4.01) ?_ (by norm_num) (by norm_num)
    rw [norm4_smul]
    exact (mul_le_mul hs0 h2n (norm4_nonneg _) (by norm_num)).trans (by norm_num)
  have er : reflect v n = v - dot4 v n • (2 : ℝ) • n := by
    funext i; simp only [reflect, Pi.sub_apply, Pi.smul_apply, smul_eq_mul]; ring
  have hsq : norm4 (reflect v n) ≤ 2.01 := by
    refine Real.sqrt_le_iff.2 ⟨by norm_num, ?_⟩
    have e : reflect v n 0 ^ 2 + reflect v n 1 ^ 2 + reflect v n 2 ^ 2 + reflect v n 3 ^ 2 = dot4 v v + 4 * dot4 v n ^ 2 * (dot4 n n - 1) := by
      simp only [reflect, dot4]; ring
    rw [e, ← norm4_sq, ← norm4_sq]
    have a1 : dot4 v n ^ 2 ≤ 2.002 ^ 2 := sq_le_sq' (by linarith [(abs_le.1 hs0).1]) (abs_le.1 hs0).2
    have a2 : norm4 n ^ 2 ≤ 1.001 ^ 2 := pow_le_pow_left₀ (norm4_nonneg _) hn 2
    have a3 : norm4 v ^ 2 ≤ 2 ^ 2 := pow_le_pow_left₀ (norm4_nonneg _) hv 2
    have a4 : dot4 v n ^ 2 * (norm4 n ^ 2 - 1) ≤ 2.002 ^ 2 * 0.0021 := by
      by_cases hneg : norm4 n ^ 2 - 1 ≤ 0
      · have := mul_nonneg (sq_nonneg (dot4 v n)) (neg_nonneg.2 hneg)
        norm_num; linarith
      · push Not at hneg
        exact mul_le_mul a1 (by norm_num at a2 ⊢; linarith) hneg.le (by norm_num)
    norm_num at a4 a3 ⊢
    linarith
  rw [er] at hsq ⊢
  refine vec_err hu hu6 (x := v - q) (fun i => by simpa using hw i) (vsub_err (vself_err v) e3) hsq (by norm_num) (by norm_num)

/-- the normals that the surfaces compute: unit vectors up to rounding -/
def Spec.NearUnit (u : ℝ) (n : Vec4) : Prop := |norm4 n ^ 2 - 1| ≤ 10 * u

theorem Spec.NearUnit.le (hu6 : u ≤ 1e-6) {n : Vec4} (h : Spec.NearUnit u n) : norm4 n ≤ 1.00001 := by
  have := (abs_le.1 h).2
  refine abs_le_of_sq_le_sq' ?_ (by norm_num) |>.2
  norm_num at hu6 ⊢
  linarith

/-- **C107 (3).** Rounded normalisation yields a unit vector along the given one up to five units of roundoff. -/
theorem C107_normalize (hu : 0 ≤ u) (hu6 : u ≤ 1e-6) {v w : Vec4} (h1 : 1 / 2 ≤ norm4 v) (h2 : norm4 v ≤ 2) (h : NormalizeR u v w) :
    norm4 (w - normalize v) ≤ 5 * u ∧ Spec.NearUnit u w := by
  have e := h.err hu hu6 h1 h2
  refine ⟨by linarith, ?_⟩
  have hv : norm4 (normalize v) = 1 := by
    rw [normalize_eq_smul, norm4_smul, abs_of_pos (by positivity), inv_mul_cancel₀ (by linarith)]
  have h3 := (abs_norm4_sub_le w (normalize v)).trans e
  rw [hv] at h3
  have h4 : norm4 w + 1 ≤ 2.1 := by
    have := (abs_le.1 h3).2
    norm_num at hu6 this ⊢; linarith
  rw [Spec.NearUnit, show norm4 w ^ 2 - 1 = (norm4 w - 1) * (norm4 w + 1) by ring, abs_mul, abs_of_nonneg (a := norm4 w + 1) (by linarith [norm4_nonneg w])]
  have := mul_le_mul h3 h4 (by linarith [norm4_nonneg w]) (by positivity)
  norm_num at this ⊢; linarith

theorem reflect_norm4_sq (v n : Vec4) : norm4 (reflect v n) ^ 2 = norm4 v ^ 2 + 4 * dot4 v n ^ 2 * (norm4 n ^ 2 - 1) := by
  rw [norm4_sq, norm4_sq, norm4_sq]; simp only [reflect, dot4]; ring

/-- one reflection changes the length by at most 80 units of roundoff -/
theorem reflect_length (hu : 0 ≤ u) (hu6 : u ≤ 1e-6) {v n w : Vec4} (h1 : 1 / 2 ≤ norm4 v) (hv : norm4 v ≤ 5 / 4) (hn : Spec.NearUnit u n) (h : ReflectR u v n w) :
    |norm4 w - norm4 v| ≤ 80.1 * u := by
  have hn1 := hn.le hu6
  have e1 := (abs_norm4_sub_le _ _).trans (C107_reflect hu hu6 (hv.trans (by norm_num)) (hn1.trans (by norm_num)) h)
  have e2 := reflect_norm4_sq v n
  set R := norm4 (reflect v n) with hR
  have hR0 : 0 ≤ R := norm4_nonneg _
  have hd : dot4 v n ^ 2 ≤ norm4 v ^ 2 * 1.0001 := by
    have h3 : dot4 v n ^ 2 ≤ (norm4 v * norm4 n) ^ 2 := by
      rw [← sq_abs]; exact pow_le_pow_left₀ (abs_nonneg _) (abs_dot4_le v n) 2
    rw [mul_pow] at h3
    have h4 : norm4 n ^ 2 ≤ 1.0001 := (pow_le_pow_left₀ (norm4_nonneg _) hn1 2).trans (by norm_num)
    exact h3.trans (mul_le_mul_of_nonneg_left h4 (sq_nonneg _))
  have h5 : |R - norm4 v| * (R + norm4 v) ≤ 40.01 * u * norm4 v ^ 2 := by
    rw [← abs_of_nonneg (a := R + norm4 v) (by linarith [norm4_nonneg v]), ← abs_mul, show (R - norm4 v) * (R + norm4 v) = R ^ 2 - norm4 v ^ 2 by ring, e2, add_sub_cancel_left,
      abs_mul, abs_of_nonneg (a := 4 * dot4 v n ^ 2) (by positivity)]
    refine (mul_le_mul (mul_le_mul_of_nonneg_left hd (by norm_num : (0 : ℝ) ≤ 4)) hn (abs_nonneg _) (by positivity)).trans ?_
    have : 0 ≤ norm4 v ^ 2 * u := by positivity
    norm_num; linarith
  have h6 : |R - norm4 v| ≤ 40.01 * u * norm4 v := by
    have : |R - norm4 v| * norm4 v ≤ 40.01 * u * norm4 v * norm4 v := by
      have := mul_nonneg (abs_nonneg (R - norm4 v)) hR0
      linarith
    exact le_of_mul_le_mul_right this (by linarith)
  have h7 : 40.01 * u * norm4 v ≤ 40.01 * u * (5 / 4) := mul_le_mul_of_nonneg_left hv (by positivity)
  have h8 := abs_sub_le (norm4 w) R (norm4 v)
  norm_num at h6 h7 ⊢
  linarith

/-- **C107 (4).** Between refractions, directions are never normalised again: their length drifts. After `k` rounded reflections at normals that are unit up to rounding, the length of
a direction that had length one is still one up to `81 k` units of roundoff (as long as this is below a quarter). -/
theorem C107_drift (hu : 0 ≤ u) (hu6 : u ≤ 1e-6) (v n : ℕ → Vec4) (h0 : norm4 (v 0) = 1) {K : ℕ} (hn : ∀ k < K, Spec.NearUnit u (n k)) (h : ∀ k < K, ReflectR u (v k) (n k) (v (k + 1)))
    (hK : 81 * K * u ≤ 1 / 4) : ∀ k ≤ K, |norm4 (v k) - 1| ≤ 81 * k * u := by
  intro k
  induction k with
  | zero => intro _; simp [h0]
  | succ k ih =>
    intro hk
    have i1 := ih (by omega)
    have hle : 81 * (k : ℝ) * u ≤ 1 / 4 := by
      refine le_trans ?_ hK
      have : (k : ℝ) ≤ K := by exact_mod_cast (by omega : k ≤ K)
      exact mul_le_mul_of_nonneg_right (by linarith) hu
    have i2 := abs_le.1 (i1.trans hle)
    have i3 := reflect_length hu hu6 (by linarith) (by linarith) (hn k (by omega)) (h k (by omega))
    have i4 := abs_sub_le (norm4 (v (k + 1))) (norm4 (v k)) 1
    push_cast
    norm_num at i3 ⊢
    linarith

/-! ### Refraction -/

/-- the unit vectors along the surface with the normal `n` -/
def Spec.Along (n t : Vec4) : Prop := dot4 t n = 0 ∧ norm4 t = 1

theorem norm4_of_sq {v : Vec4} {e : ℝ} (h : |norm4 v ^ 2 - 1| ≤ e) : |norm4 v - 1| ≤ e := by
  have h1 := norm4_nonneg v
  rw [show norm4 v ^ 2 - 1 = (norm4 v - 1) * (norm4 v + 1) by ring, abs_mul, abs_of_nonneg (a := norm4 v + 1) (by linarith)] at h
  nlinarith [abs_nonneg (norm4 v - 1)]

set_option maxHeartbeats 1000000 in
/-- **C107 (5).** Rounded refraction. For an incoming direction of about length one, a normal that is unit up to rounding, not at grazing incidence, and a ratio of indices of at most four: the
result is a unit vector up to rounding, and either the returned index is that behind the surface, the radicand of Snell's law is not below zero by more than rounding, Snell's law holds up to
2000 units of roundoff in every direction along the surface (even at the critical angle), and the ray goes through the surface up to rounding; or the returned index is the one before, the radicand is not above zero by more than rounding, and the
ray is reflected as by a mirror up to rounding. -/
theorem C107_refract (hu : 0 ≤ u) (hu6 : u ≤ 1e-6) {v n w : Vec4} {n1 n2 nGlobal index : ℝ} (h1 : 1 / 2 ≤ norm4 v) (h2 : norm4 v ≤ 2) (hn : Spec.NearUnit u n)
    (hg : 9 * u < |dot4 (normalize v) n|) {far : ℝ} (hfar : far = if dot4 (normalize v) n > 0 then nGlobal else n2) (hr0 : 0 ≤ n1 / far) (hr4 : n1 / far ≤ 4)
    (h : RefractR u v n n1 n2 nGlobal w index) :
    Spec.NearUnit u w ∧
    ((index = far ∧ -(500 * u) ≤ 1 - (n1 / far) ^ 2 * (1 - dot4 (normalize v) n ^ 2) ∧
        (∀ t, Spec.Along n t → |dot4 w t - n1 / far * dot4 (normalize v) t| ≤ 2000 * u) ∧
        (0 < dot4 (normalize v) n → -(2000 * u) ≤ dot4 w n) ∧ (dot4 (normalize v) n < 0 → dot4 w n ≤ 2000 * u)) ∨
      (index = n1 ∧ 1 - (n1 / far) ^ 2 * (1 - dot4 (normalize v) n ^ 2) ≤ 500 * u ∧ norm4 (w - reflect (normalize v) n) ≤ 200 * u)) := by
  have hn1 := hn.le hu6
  obtain ⟨a, hdir, cosP, cosN, hcosP, hcosN, r, hr, r2, c2, s2, rs, radicand, hr2, hc2, hs2, hrs, hrad, cos2, hcos2, A, b, cc, d, refracted, hA, hb, hc, hd, href, e, f, reflected, he, hf,
    hrefl, hw, hindex⟩ := h
  obtain ⟨-, ha1⟩ := C107_normalize hu hu6 h1 h2 hdir
  have ha := hdir.err hu hu6 h1 h2
  set vh := normalize v with hvh
  have hvh1 : norm4 vh = 1 := by
    rw [hvh, normalize_eq_smul, norm4_smul, abs_of_pos (by positivity), inv_mul_cancel₀ (by linarith)]
  have ha2 := ha1.le hu6
  have han : norm4 a * norm4 n ≤ 1.0001 := (mul_le_mul ha2 hn1 (norm4_nonneg _) (by norm_num)).trans (by norm_num)
  have ep := hcosP.err hu hu6 (B := 1.0001) (k := 4.001) han (by norm_num)
  have en := hcosN.err hu hu6 (B := 1.0001) (k := 4.001) (by rw [norm4_neg]; exact han) (by norm_num)
  -- the change of the cosine by normalising
  have eav : |dot4 a n - dot4 vh n| ≤ 4.11 * u := by
    have h3 := abs_dot4_le (a - vh) n
    rw [show dot4 (a - vh) n = dot4 a n - dot4 vh n by simp only [dot4, Pi.sub_apply]; ring] at h3
    refine h3.trans ((mul_le_mul ha hn1 (norm4_nonneg _) (by positivity)).trans ?_)
    norm_num; linarith
  have epv := err_trans ep eav
  -- the side is decided rightly
  have hside : cosP > 0 ↔ dot4 vh n > 0 := by
    have := abs_le.1 epv
    norm_num at this
    rcases lt_abs.1 hg with h3 | h3
    · exact ⟨fun _ => by linarith, fun _ => by linarith [this.1]⟩
    · exact ⟨fun h4 => by linarith [this.2], fun h4 => by linarith⟩
  have hfar' : (if cosP > 0 then nGlobal else n2) = far := by rw [hfar]; simp only [hside]
  rw [hfar'] at hr hindex
  set q := n1 / far with hq
  set nn : Vec4 := if cosP > 0 then -n else n with hnn
  set c' := if cosP > 0 then cosP else cosN with hc'
  have hnn1 : norm4 nn = norm4 n := by rw [hnn]; split <;> simp [norm4_neg]
  set c := -dot4 a nn with hcdef
  have ec : |c' - c| ≤ 4.001 * u := by
    rw [hcdef, hnn, hc']
    split
    · rw [dot4_neg_right, neg_neg]; exact ep
    · rw [dot4_neg_right] at en; exact en
  have hcv : |c - abs (dot4 vh n)| ≤ 4.11 * u := by
    rw [hcdef, hnn]
    split
    · rename_i h3
      rw [dot4_neg_right, neg_neg, abs_of_pos (hside.1 h3)]; exact eav
    · rename_i h3
      have : dot4 vh n ≤ 0 := not_lt.1 fun h4 => h3 (hside.2 h4)
      rw [abs_of_nonpos this, ← abs_neg]
      convert eav using 2; ring
  have hc1 : |c| ≤ 1.0001 := by
    rw [hcdef, abs_neg]
    exact (abs_dot4_le _ _).trans (by rw [hnn1]; exact han)
  have hcs : c ^ 2 ≤ 1.001 := by
    rw [← sq_abs]; exact (pow_le_pow_left₀ (abs_nonneg _) hc1 2).trans (by norm_num)
  have hq4 : |q| ≤ 4 := by rw [abs_of_nonneg hr0]; exact hr4
  have hqq : |q * q| ≤ 16 := by rw [abs_mul]; nlinarith [abs_nonneg q]
  have hcc : |c * c| ≤ 1.001 := by rw [← sq, abs_of_nonneg (sq_nonneg c)]; exact hcs
  have er : |r - q| ≤ 4.001 * u := hr.err hu hu6 (self_err _) hq4 le_rfl (by norm_num)
  have er2 : |r2 - q * q| ≤ 48.1 * u := hr2.err hu hu6 (mul_err hu hu6 (m := 32.05) er er hq4 hq4 (by norm_num) (by norm_num) (by norm_num)) hqq (by norm_num) (by norm_num)
  have ec2 : |c2 - c * c| ≤ 9.1 * u := hc2.err hu hu6 (mul_err hu hu6 (m := 8.01) ec ec hc1 hc1 (by norm_num) (by norm_num) (by norm_num)) hcc (by norm_num) (by norm_num)
  have h1c : |1 - c * c| ≤ 1.001 := by
    rw [abs_le]; constructor <;> norm_num at hcs ⊢ <;> nlinarith [sq_nonneg c]
  have es2 : |s2 - (1 - c * c)| ≤ 10.2 * u := hs2.err hu hu6 (sub_err (self_err 1) ec2) h1c (by norm_num) (by norm_num)
  have hqs : |q * q * (1 - c * c)| ≤ 16.02 := by
    rw [abs_mul]; exact (mul_le_mul hqq h1c (abs_nonneg _) (by norm_num)).trans (by norm_num)
  have ers : |rs - q * q * (1 - c * c)| ≤ 228 * u := hrs.err hu hu6 (mul_err hu hu6 (m := 211.5) er2 es2 hqq h1c (by norm_num) (by norm_num) (by norm_num)) hqs (by norm_num) (by norm_num)
  have h1q : |1 - q * q * (1 - c * c)| ≤ 17.02 := by
    have h3 := abs_sub 1 (q * q * (1 - c * c))
    rw [abs_one] at h3
    linarith
  have erad : |radicand - (1 - q * q * (1 - c * c))| ≤ 246 * u := hrad.err hu hu6 (sub_err (self_err 1) ers) h1q (by norm_num) (by norm_num)
  -- the radicand of the exact input
  have hcsq : |c * c - dot4 vh n ^ 2| ≤ 8.23 * u := by
    have hv1 : |dot4 vh n| ≤ 1.00001 := (abs_dot4_le _ _).trans (by rw [hvh1, one_mul]; exact hn1)
    rw [← sq_abs (dot4 vh n), sq]
    exact mul_err hu hu6 (X := 1.00001) (Y := 1.00001) hcv hcv (by rw [abs_abs]; exact hv1) (by rw [abs_abs]; exact hv1) (by norm_num) (by norm_num) (by norm_num)
  have erad0 : |radicand - (1 - q ^ 2 * (1 - dot4 vh n ^ 2))| ≤ 380 * u := by
    have h3 : |(1 - q * q * (1 - c * c)) - (1 - q ^ 2 * (1 - dot4 vh n ^ 2))| ≤ 131.7 * u := by
      rw [show (1 - q * q * (1 - c * c)) - (1 - q ^ 2 * (1 - dot4 vh n ^ 2)) = q * q * (c * c - dot4 vh n ^ 2) by ring, abs_mul]
      refine (mul_le_mul hqq hcsq (abs_nonneg _) (by norm_num)).trans ?_
      norm_num; linarith
    have := err_trans erad h3
    norm_num at this ⊢; linarith
  by_cases hpos : radicand > 0
  · -- refracted
    rw [if_pos hpos] at hw hindex
    rw [max_eq_right hpos.le] at hcos2
    have hsq := Real.sq_sqrt hpos.le
    set S := √radicand with hS
    have hS0 : 0 ≤ S := Real.sqrt_nonneg _
    have hrad1 : radicand ≤ 1.02 := by
      have h3 := (abs_le.1 erad).2
      have h4 : -(0.016 : ℝ) ≤ q * q * (1 - c * c) := by
        have h5 : (0 : ℝ) ≤ q * q := mul_self_nonneg q
        have h6 : q * q ≤ 16 := (le_abs_self _).trans hqq
        have h7 : -(0.001 : ℝ) ≤ 1 - c * c := by norm_num at hcs ⊢; linarith
        nlinarith
      norm_num at hu6 h3 h4 ⊢; linarith
    have hS1 : S ≤ 1.01 := by
      refine abs_le_of_sq_le_sq' ?_ (by norm_num) |>.2
      rw [hsq]; refine hrad1.trans (by norm_num)
    have ek : |cos2 - S| ≤ 1.02 * u := hcos2.err hu hu6 (self_err _) (B := 1.01) (by rw [abs_of_nonneg hS0]; exact hS1) le_rfl (by norm_num)
    have ekk : |cos2 * cos2 - radicand| ≤ 2.1 * u := by
      rw [← hsq, sq]
      exact mul_err hu hu6 ek ek (X := 1.01) (Y := 1.01) (by rw [abs_of_nonneg hS0]; exact hS1) (by rw [abs_of_nonneg hS0]; exact hS1) (by norm_num) (by norm_num) (by norm_num)
    have hk1 : |cos2| ≤ 1.02 := by
      have h3 := abs_add_le (cos2 - S) S
      rw [sub_add_cancel, abs_of_nonneg hS0] at h3
      linarith
    set X : Vec4 := q • a + (q * c - cos2) • nn with hX
    have hqc : |q * c| ≤ 4.001 := by
      rw [abs_mul]; exact (mul_le_mul hq4 hc1 (abs_nonneg _) (by norm_num)).trans (by norm_num)
    have hcoef : |q * c - cos2| ≤ 5.03 := by
      have := abs_sub (q * c) cos2
      linarith
    have hXn : |norm4 X ^ 2 - 1| ≤ 700 * u := by
      have e1 : norm4 X ^ 2 - 1 = q * q * (norm4 a ^ 2 - 1) + (q * c - cos2) ^ 2 * (norm4 nn ^ 2 - 1) + ((cos2 * cos2 - radicand) + (radicand - (1 - q * q * (1 - c * c)))) := by
        rw [norm4_sq X, norm4_sq a, norm4_sq nn, hX]
        have : dot4 (q • a + (q * c - cos2) • nn) (q • a + (q * c - cos2) • nn) = q * q * dot4 a a + 2 * q * (q * c - cos2) * dot4 a nn + (q * c - cos2) ^ 2 * dot4 nn nn := by
          simp only [dot4, Pi.add_apply, Pi.smul_apply, smul_eq_mul]; ring
        rw [this, show dot4 a nn = -c by rw [hcdef, neg_neg]]
        ring
      have f1 : |q * q * (norm4 a ^ 2 - 1)| ≤ 160 * u := by
        rw [abs_mul]
        refine (mul_le_mul hqq ha1 (abs_nonneg _) (by norm_num)).trans ?_
        linarith
      have f2 : |(q * c - cos2) ^ 2 * (norm4 nn ^ 2 - 1)| ≤ 254 * u := by
        have : (q * c - cos2) ^ 2 ≤ 25.4 := by
          rw [← sq_abs]; exact (pow_le_pow_left₀ (abs_nonneg _) hcoef 2).trans (by norm_num)
        rw [abs_mul, abs_of_nonneg (sq_nonneg (q * c - cos2)), hnn1]
        refine (mul_le_mul this hn (abs_nonneg _) (by norm_num)).trans ?_
        norm_num; linarith
      have f3 := abs_add_three (q * q * (norm4 a ^ 2 - 1)) ((q * c - cos2) ^ 2 * (norm4 nn ^ 2 - 1)) ((cos2 * cos2 - radicand) + (radicand - (1 - q * q * (1 - c * c))))
      have f4 := abs_add_le (cos2 * cos2 - radicand) (radicand - (1 - q * q * (1 - c * c)))
      rw [e1]
      norm_num at ekk f1 f2 f3 f4 erad ⊢; linarith
    have hX1 := norm4_of_sq hXn
    have hX2 : norm4 X ≤ 1.001 := by
      have := (abs_le.1 hX1).2
      norm_num at hu6 this ⊢; linarith
    have eA : norm4 (A - q • a) ≤ 8.1 * u := by
      have hqa : norm4 (q • a) ≤ 4.001 := by
        rw [norm4_smul]; exact (mul_le_mul hq4 ha2 (norm4_nonneg _) (by norm_num)).trans (by norm_num)
      exact vec_err hu hu6 (x := r • a) (fun i => by simpa using hA i)
        (smul_err hu hu6 (m := 4.05) er (vself_err a) hq4 ha2 (by norm_num) le_rfl (by norm_num)) hqa (by norm_num) (by norm_num)
    have eb : |b - q * c| ≤ 24.1 * u := hb.err hu hu6 (mul_err hu hu6 (m := 20.01) er ec hq4 hc1 (by norm_num) (by norm_num) (by norm_num)) hqc (by norm_num) (by norm_num)
    have ecc : |cc - (q * c - cos2)| ≤ 29.2 * u := hc.err hu hu6 (sub_err eb (self_err cos2)) hcoef (by norm_num) (by norm_num)
    have ed : norm4 (d - (q * c - cos2) • nn) ≤ 34.4 * u := by
      have hqa : norm4 ((q * c - cos2) • nn) ≤ 5.04 := by
        rw [norm4_smul, hnn1]; exact (mul_le_mul hcoef hn1 (norm4_nonneg _) (by norm_num)).trans (by norm_num)
      exact vec_err hu hu6 (x := cc • nn) (fun i => by simpa using hd i)
        (smul_err hu hu6 (m := 29.3) (Y := 1.00001) ecc (vself_err nn) hcoef (by rw [hnn1]; exact hn1) (by norm_num) le_rfl (by norm_num)) hqa (by norm_num) (by norm_num)
    have eo : norm4 (refracted - X) ≤ 44 * u :=
      vec_err hu hu6 (x := A + d) (fun i => by simpa using href i) (vadd_err eA ed) hX2 (by norm_num) (by norm_num)
    have ho1 : |norm4 refracted - 1| ≤ 744 * u := by
      have h3 := (abs_norm4_sub_le refracted X).trans eo
      have h4 := abs_sub_le (norm4 refracted) (norm4 X) 1
      linarith
    have ho2 := abs_le.1 ho1
    have hol : 1 / 2 ≤ norm4 refracted := by norm_num at hu6 ho2 ⊢; linarith [ho2.1]
    have hou : norm4 refracted ≤ 2 := by norm_num at hu6 ho2 ⊢; linarith [ho2.2]
    obtain ⟨-, hw1⟩ := C107_normalize hu hu6 hol hou hw
    have ew := hw.err hu hu6 hol hou
    have ewo : norm4 (normalize refracted - refracted) ≤ 744 * u := by
      rw [normalize_eq_smul, show (norm4 refracted)⁻¹ • refracted - refracted = ((norm4 refracted)⁻¹ - 1) • refracted by rw [sub_smul, one_smul], norm4_smul]
      have hp : 0 < norm4 refracted := by linarith
      rw [← abs_of_pos hp, ← abs_mul, abs_of_pos hp, sub_mul, inv_mul_cancel₀ hp.ne', one_mul, abs_sub_comm]
      exact ho1
    have ewX : norm4 (w - X) ≤ 793 * u := by
      have h3 := norm4_sub_le w (normalize refracted) X
      have h4 := norm4_sub_le (normalize refracted) refracted X
      norm_num at ew ⊢; linarith
    have hXnn : |dot4 X nn + cos2| ≤ 60 * u := by
      have e1 : dot4 X nn + cos2 = (q * c - cos2) * (norm4 nn ^ 2 - 1) := by
        rw [norm4_sq nn, hX]
        have : dot4 (q • a + (q * c - cos2) • nn) nn = q * dot4 a nn + (q * c - cos2) * dot4 nn nn := by
          simp only [dot4, Pi.add_apply, Pi.smul_apply, smul_eq_mul]; ring
        rw [this, show dot4 a nn = -c by rw [hcdef, neg_neg]]; ring
      rw [e1, abs_mul, hnn1]
      refine (mul_le_mul hcoef hn (abs_nonneg _) (by norm_num)).trans ?_
      norm_num; linarith
    have hwnn : dot4 w nn ≤ 1000 * u := by
      have h3 := abs_dot4_le (w - X) nn
      rw [show dot4 (w - X) nn = dot4 w nn - dot4 X nn by simp only [dot4, Pi.sub_apply]; ring, hnn1] at h3
      have h4 := (abs_le.1 (h3.trans (mul_le_mul ewX hn1 (norm4_nonneg _) (by positivity)))).2
      have h5 := (abs_le.1 hXnn).2
      have h6 := (abs_le.1 ek).1
      norm_num at h4 h5 h6 ⊢; linarith
    refine ⟨hw1, Or.inl ⟨hindex, ?_, fun t ht => ?_, fun h3 => ?_, fun h3 => ?_⟩⟩
    · have := (abs_le.1 erad0).2
      linarith
    · have htn : dot4 nn t = 0 := by
        rw [hnn]; split
        · rw [dot4_neg_left, dot4_comm, ht.1, neg_zero]
        · rw [dot4_comm, ht.1]
      have e1 : dot4 w t - q * dot4 vh t = dot4 (w - X) t + q * dot4 (a - vh) t := by
        have h4 : dot4 X t = q * dot4 a t := by
          rw [hX]
          have : dot4 (q • a + (q * c - cos2) • nn) t = q * dot4 a t + (q * c - cos2) * dot4 nn t := by
            simp only [dot4, Pi.add_apply, Pi.smul_apply, smul_eq_mul]; ring
          rw [this, htn, mul_zero, add_zero]
        rw [show dot4 (w - X) t = dot4 w t - dot4 X t by simp only [dot4, Pi.sub_apply]; ring,
          show dot4 (a - vh) t = dot4 a t - dot4 vh t by simp only [dot4, Pi.sub_apply]; ring, h4]
        ring
      have f1 := abs_dot4_le (w - X) t
      have f2 := abs_dot4_le (a - vh) t
      rw [ht.2, mul_one] at f1 f2
      have f3 : |q * dot4 (a - vh) t| ≤ 4 * (4.1 * u) := by
        rw [abs_mul]; exact mul_le_mul hq4 (f2.trans ha) (abs_nonneg _) (by norm_num)
      rw [e1]
      refine (abs_add_le _ _).trans ?_
      norm_num at f3 ⊢; linarith
    · have : nn = -n := by rw [hnn, if_pos (hside.2 h3)]
      rw [this, dot4_neg_right] at hwnn
      linarith
    · have : nn = n := by rw [hnn, if_neg (fun h4 => by linarith [hside.1 h4])]
      rw [this] at hwnn
      linarith
  · -- totally reflected
    rw [if_neg hpos] at hw hindex
    set Y : Vec4 := a + (2 * c) • nn with hY
    have hYr : Y = reflect a n := by
      rw [hY, hcdef, hnn]
      funext i
      simp only [reflect, Pi.add_apply, Pi.smul_apply, smul_eq_mul]
      split
      · rw [dot4_neg_right, Pi.neg_apply]; ring
      · ring
    have hYn : |norm4 Y ^ 2 - 1| ≤ 60 * u := by
      rw [hYr, reflect_norm4_sq, show norm4 a ^ 2 + 4 * dot4 a n ^ 2 * (norm4 n ^ 2 - 1) - 1 = (norm4 a ^ 2 - 1) + 4 * dot4 a n ^ 2 * (norm4 n ^ 2 - 1) by ring]
      have f0 : dot4 a n ^ 2 ≤ 1.001 := by
        rw [← sq_abs]; exact (pow_le_pow_left₀ (abs_nonneg _) ((abs_dot4_le _ _).trans han) 2).trans (by norm_num)
      have f1 : |4 * dot4 a n ^ 2 * (norm4 n ^ 2 - 1)| ≤ 4.1 * (10 * u) := by
        rw [abs_mul, abs_of_nonneg (by positivity)]
        exact mul_le_mul (by norm_num at f0 ⊢; linarith) hn (abs_nonneg _) (by norm_num)
      refine (abs_add_le _ _).trans ?_
      have f2 : |norm4 a ^ 2 - 1| ≤ 10 * u := ha1
      norm_num at f1 ⊢; linarith
    have hY1 := norm4_of_sq hYn
    have hY2 : norm4 Y ≤ 1.001 := by
      have := (abs_le.1 hY1).2
      norm_num at hu6 this ⊢; linarith
    have h2c : |2 * c| ≤ 2.001 := by
      rw [abs_mul, abs_of_pos (by norm_num : (0 : ℝ) < 2)]; norm_num at hc1 ⊢; linarith
    have ee : |e - 2 * c| ≤ 10.1 * u :=
      he.err hu hu6 (mul_err hu hu6 (m := 8.01) (self_err 2) ec (X := 2) (by norm_num) hc1 le_rfl (by norm_num) (by norm_num)) h2c (by norm_num) (by norm_num)
    have ef : norm4 (f - (2 * c) • nn) ≤ 12.2 * u := by
      have hqa : norm4 ((2 * c) • nn) ≤ 2.002 := by
        rw [norm4_smul, hnn1]; exact (mul_le_mul h2c hn1 (norm4_nonneg _) (by norm_num)).trans (by norm_num)
      exact vec_err hu hu6 (x := e • nn) (fun i => by simpa using hf i)
        (smul_err hu hu6 (m := 10.15) (Y := 1.00001) ee (vself_err nn) h2c (by rw [hnn1]; exact hn1) (by norm_num) le_rfl (by norm_num)) hqa (by norm_num) (by norm_num)
    have eo : norm4 (reflected - Y) ≤ 13.3 * u :=
      vec_err hu hu6 (x := a + f) (fun i => by simpa using hrefl i) (vadd_err (vself_err a) ef) hY2 (by norm_num) (by norm_num)
    have ho1 : |norm4 reflected - 1| ≤ 73.3 * u := by
      have h3 := (abs_norm4_sub_le reflected Y).trans eo
      have h4 := abs_sub_le (norm4 reflected) (norm4 Y) 1
      norm_num at h3 ⊢; linarith
    have ho2 := abs_le.1 ho1
    have hol : 1 / 2 ≤ norm4 reflected := by norm_num at hu6 ho2 ⊢; linarith [ho2.1]
    have hou : norm4 reflected ≤ 2 := by norm_num at hu6 ho2 ⊢; linarith [ho2.2]
    obtain ⟨-, hw1⟩ := C107_normalize hu hu6 hol hou hw
    have ew := hw.err hu hu6 hol hou
    have ewo : norm4 (normalize reflected - reflected) ≤ 73.3 * u := by
      rw [normalize_eq_smul, show (norm4 reflected)⁻¹ • reflected - reflected = ((norm4 reflected)⁻¹ - 1) • reflected by rw [sub_smul, one_smul], norm4_smul]
      have hp : 0 < norm4 reflected := by linarith
      rw [← abs_of_pos hp, ← abs_mul, abs_of_pos hp, sub_mul, inv_mul_cancel₀ hp.ne', one_mul, abs_sub_comm]
      exact ho1
    have eYv : norm4 (Y - reflect vh n) ≤ 13 * u := by
      have e1 : Y - reflect vh n = (a - vh) - (2 * (dot4 a n - dot4 vh n)) • n := by
        rw [hYr]; funext i; simp only [reflect, Pi.sub_apply, Pi.smul_apply, smul_eq_mul]; ring
      have f1 := norm4_add_le (a - vh) (-((2 * (dot4 a n - dot4 vh n)) • n))
      rw [← sub_eq_add_neg, ← e1, norm4_neg, norm4_smul, abs_mul, abs_of_pos (by norm_num : (0 : ℝ) < 2)] at f1
      have f2 : |dot4 a n - dot4 vh n| * norm4 n ≤ 4.11 * u * 1.00001 := mul_le_mul eav hn1 (norm4_nonneg _) (by positivity)
      norm_num at ha f2 ⊢; linarith
    refine ⟨hw1, Or.inr ⟨hindex, ?_, ?_⟩⟩
    · have := (abs_le.1 erad0).1
      push Not at hpos
      linarith
    · have h3 := norm4_sub_le w (normalize reflected) (reflect vh n)
      have h4 := norm4_sub_le (normalize reflected) reflected (reflect vh n)
      have h5 := norm4_sub_le reflected Y (reflect vh n)
      norm_num at ew ewo eo ⊢; linarith

/-! ### Without rounding -/

theorem SumsTo.exact (hu : 0 ≤ u) : ∀ {l : List (ℝ × ℝ)}, l ≠ [] → SumsTo u l (sumProd l)
  | [], h => absurd rfl h
  | [p], _ => by
    have := SumsTo.prod (Rounds.exact hu (p.1 * p.2))
    simpa [sumProd] using this
  | p :: q :: l, _ => by
    have h := SumsTo.exact hu (l := q :: l) (by simp)
    have e : sumProd (p :: q :: l) = sumProd (q :: l) + p.1 * p.2 := by simp [sumProd]; ring
    rw [e]
    exact .fma h (Rounds.exact hu _)

theorem DotR.exact (hu : 0 ≤ u) (v w : Vec4) : DotR u v w (dot4 v w) := by
  have := SumsTo.exact hu (l := [(v 0, w 0), (v 1, w 1), (v 2, w 2), (v 3, w 3)]) (by simp)
  have e : sumProd [(v 0, w 0), (v 1, w 1), (v 2, w 2), (v 3, w 3)] = dot4 v w := by simp [sumProd, dot4]; ring
  rw [e] at this
  exact this

theorem DotR.zero {v w : Vec4} {s : ℝ} (h : DotR 0 v w s) : s = dot4 v w := by
  have := SumsTo.err le_rfl h
  have e : sumProd [(v 0, w 0), (v 1, w 1), (v 2, w 2), (v 3, w 3)] = dot4 v w := by simp [sumProd, dot4]; ring
  simp only [add_zero, one_pow, sub_self, zero_mul, abs_nonpos_iff, sub_eq_zero, e] at this
  exact this

theorem NormalizeR.exact (hu : 0 ≤ u) (v : Vec4) : NormalizeR u v (normalize v) :=
  ⟨_, _, DotR.exact hu v v, Rounds.exact hu _, fun i => by rw [← norm4_eq]; exact Rounds.exact hu _⟩

theorem NormalizeR.zero {v w : Vec4} (h : NormalizeR 0 v w) : w = normalize v := by
  obtain ⟨s, m, hs, hm, hw⟩ := h
  rw [hs.zero, Rounds.zero, ← norm4_eq] at hm
  funext i
  rw [Rounds.zero.1 (hw i), hm, normalize]

/-- the exact refraction is one of the rounded ones -/
noncomputable def RefractR.exact (hu : 0 ≤ u) (v n : Vec4) (n1 n2 nGlobal : ℝ) :
    RefractR u v n n1 n2 nGlobal (refract v n n1 n2 nGlobal).2.1 (refract v n n1 n2 nGlobal).2.2 where
  dir := _
  hdir := NormalizeR.exact hu v
  cosP := _
  cosN := _
  hcosP := DotR.exact hu _ _
  hcosN := DotR.exact hu _ _
  r := _
  hr := Rounds.exact hu _
  r2 := _
  c2 := _
  s2 := _
  rs := _
  radicand := _
  hr2 := Rounds.exact hu _
  hc2 := Rounds.exact hu _
  hs2 := Rounds.exact hu _
  hrs := Rounds.exact hu _
  hrad := Rounds.exact hu _
  cos2 := _
  hcos2 := Rounds.exact hu _
  a := _
  b := _
  c := _
  d := _
  refracted := _
  ha := fun _ => Rounds.exact hu _
  hb := Rounds.exact hu _
  hc := Rounds.exact hu _
  hd := fun _ => Rounds.exact hu _
  href := fun _ => Rounds.exact hu _
  e := _
  f := _
  reflected := _
  he := Rounds.exact hu _
  hf := fun _ => Rounds.exact hu _
  hrefl := fun _ => Rounds.exact hu _
  hw := by
    simp only [refract, refractIndex]
    convert NormalizeR.exact hu _ using 2
    simp only [sq]
  hindex := by
    simp only [refract, refractIndex, sq]

/-- **C107 (6).** Without rounding, the rounded functions are the exact ones of the other models: the exact results are possible for every `u`, and for `u = 0` they are the only ones. -/
theorem C107_exact (hu : 0 ≤ u) (v n : Vec4) (n1 n2 nGlobal : ℝ) :
    ReflectR u v n (reflect v n) ∧ (∀ w, ReflectR 0 v n w → w = reflect v n) ∧
    Nonempty (RefractR u v n n1 n2 nGlobal (refract v n n1 n2 nGlobal).2.1 (refract v n n1 n2 nGlobal).2.2) ∧
    (∀ w index, Nonempty (RefractR 0 v n n1 n2 nGlobal w index) → w = (refract v n n1 n2 nGlobal).2.1 ∧ index = (refract v n n1 n2 nGlobal).2.2) := by
  refine ⟨⟨_, fun i => 2 * n i, fun i => 2 * n i * dot4 v n, DotR.exact hu v n, fun i => Rounds.exact hu _, fun i => Rounds.exact hu _, fun i => ?_⟩, fun w h => ?_,
    ⟨RefractR.exact hu v n n1 n2 nGlobal⟩, ?_⟩
  · have : reflect v n i = v i - 2 * n i * dot4 v n := by simp only [reflect]; ring
    rw [this]; exact Rounds.exact hu _
  · obtain ⟨s, p, q, hs, hp, hq, hw⟩ := h
    funext i
    rw [Rounds.zero.1 (hw i), Rounds.zero.1 (hq i), Rounds.zero.1 (hp i), hs.zero, reflect]
    ring
  · rintro w index ⟨h⟩
    obtain ⟨a, hdir, cosP, cosN, hcosP, hcosN, r, hr, r2, c2, s2, rs, radicand, hr2, hc2, hs2, hrs, hrad, cos2, hcos2, A, b, cc, d, refracted, hA, hb, hc, hd, href, e, f, reflected, he, hf,
      hrefl, hw, hindex⟩ := h
    have ea := hdir.zero
    have ep := hcosP.zero
    have en := hcosN.zero
    have er := Rounds.zero.1 hr
    have er2 := Rounds.zero.1 hr2
    have ec2 := Rounds.zero.1 hc2
    have es2 := Rounds.zero.1 hs2
    have ers := Rounds.zero.1 hrs
    have erad := Rounds.zero.1 hrad
    have ecos2 := Rounds.zero.1 hcos2
    have eb := Rounds.zero.1 hb
    have ecc := Rounds.zero.1 hc
    have ee := Rounds.zero.1 he
    have eR : refracted = fun i => r * a i + (r * (if cosP > 0 then cosP else cosN) - cos2) * (if cosP > 0 then -n else n) i := by
      funext i
      rw [Rounds.zero.1 (href i), Rounds.zero.1 (hA i), Rounds.zero.1 (hd i), ecc, eb]
    have eF : reflected = fun i => a i + 2 * (if cosP > 0 then cosP else cosN) * (if cosP > 0 then -n else n) i := by
      funext i
      rw [Rounds.zero.1 (hrefl i), Rounds.zero.1 (hf i), ee]
    have ew := hw.zero
    rw [eR, eF] at ew
    subst ea ep en er er2 ec2 es2 ers erad ecos2
    simp only [refract, refractIndex, sq]
    exact ⟨ew, hindex⟩

/-! ### Examples -/

/-- non-vacuity of `C107_doubles`: half of the smallest double underflows to zero -/
example : Spec.NearestDouble ((2 : ℝ) ^ (-1076 : ℤ)) 0 ∧ Rounds (2 ^ (-53 : ℤ)) ((2 : ℝ) ^ (-1076 : ℤ)) 0 := by
  have h : Spec.NearestDouble ((2 : ℝ) ^ (-1076 : ℤ)) 0 := by
    refine ⟨⟨0, 0, by norm_num, by norm_num, by simp⟩, ?_⟩
    rintro z ⟨m, e, -, he, rfl⟩
    have h2 : (0 : ℝ) < (2 : ℝ) ^ (-1076 : ℤ) := zpow_pos (by norm_num) _
    have h4 : (2 : ℝ) ^ (-1074 : ℤ) = 4 * (2 : ℝ) ^ (-1076 : ℤ) := by
      rw [show (-1074 : ℤ) = 2 + -1076 by norm_num, zpow_add₀ (by norm_num)]; norm_num
    have h3 : 4 * (2 : ℝ) ^ (-1076 : ℤ) ≤ (2 : ℝ) ^ e := by
      rw [← h4]; exact zpow_le_zpow_right₀ (by norm_num) he
    rw [zero_sub, abs_neg, abs_of_pos h2]
    rcases lt_trichotomy m 0 with hm | hm | hm
    · have : (m : ℝ) ≤ -1 := by exact_mod_cast (by omega : m ≤ -1)
      rw [abs_of_nonpos] <;> nlinarith
    · simp [hm]
    · have : (1 : ℝ) ≤ m := by exact_mod_cast hm
      rw [abs_of_nonneg] <;> nlinarith
  exact ⟨h, C107_doubles h⟩

/-- the length of a direction does drift: a ray between two mirrors whose length is always rounded up -/
theorem drift_example (hu : 0 ≤ u) (k : ℕ) : ReflectR u (vector ((-1) ^ k * (1 + u) ^ k) 0 0) (vector 1 0 0) (vector ((-1) ^ (k + 1) * (1 + u) ^ (k + 1)) 0 0) := by
  set x := (-1 : ℝ) ^ k * (1 + u) ^ k with hx
  have hd : dot4 (vector x 0 0) (vector 1 0 0) = x := by simp [dot4, vector]
  refine ⟨_, _, _, DotR.exact hu _ _, fun i => Rounds.exact hu _, fun i => Rounds.exact hu _, fun i => ?_⟩
  rw [hd]
  have e : (-1 : ℝ) ^ (k + 1) * (1 + u) ^ (k + 1) = -x * (1 + u) := by rw [hx]; ring
  rw [e]
  fin_cases i
  · simp only [Fin.zero_eta, vector, Matrix.cons_val_zero, mul_one, Rounds]
    rw [show -x * (1 + u) - (x - 2 * x) = -(u * x) by ring, abs_neg, abs_mul, abs_of_nonneg hu, show x - 2 * x = -x by ring, abs_neg]
    exact mul_le_mul_of_nonneg_left (le_max_left _ _) hu
  · simpa [vector] using Rounds.exact hu 0
  · simpa [vector] using Rounds.exact hu 0
  · simpa [vector] using Rounds.exact hu 0

/-- non-vacuity of `C107_reflect` -/
example : ∃ w, ReflectR 1e-6 (vector 1 0 0) (vector 1 0 0) w ∧ w ≠ reflect (vector 1 0 0) (vector 1 0 0) ∧ norm4 (w - reflect (vector 1 0 0) (vector 1 0 0)) ≤ 30 * 1e-6 := by
  have h := drift_example (u := 1e-6) (by norm_num) 0
  simp only [pow_zero, mul_one, zero_add, pow_one] at h
  refine ⟨_, h, fun e => ?_, C107_reflect (by norm_num) le_rfl (by simp [norm4, vector]) (by simp [norm4, vector]; norm_num) h⟩
  have := congrFun e 0
  simp [vector, reflect, dot4] at this
  norm_num at this

/-- non-vacuity of `C107_drift`: a thousand reflections -/
example : |norm4 (vector ((-1) ^ 1000 * (1 + 1e-6) ^ 1000) 0 0) - 1| ≤ 81 * 1000 * 1e-6 ∧ 1 + 1000 * 1e-6 ≤ norm4 (vector ((-1) ^ 1000 * (1 + 1e-6) ^ 1000) 0 0) := by
  constructor
  · have := C107_drift (u := 1e-6) (by norm_num) le_rfl (fun k => vector ((-1) ^ k * (1 + 1e-6) ^ k) 0 0) (fun _ => vector 1 0 0) (by simp [norm4, vector]) (K := 1000)
      (fun _ _ => by simp [Spec.NearUnit, norm4, vector]; norm_num) (fun k _ => drift_example (by norm_num) k) (by norm_num) 1000 le_rfl
    exact_mod_cast this
  · refine le_trans ?_ (abs_le_norm4 _ 0)
    simp only [vector, Matrix.cons_val_zero, abs_mul, abs_pow, abs_neg, abs_one, one_pow, one_mul]
    rw [abs_of_pos (by norm_num)]
    exact_mod_cast one_add_mul_le_pow (a := (1e-6 : ℝ)) (by norm_num) 1000

/-- non-vacuity of `C107_normalize` -/
example : norm4 (normalize (vector 0.6 0.8 1) - normalize (vector 0.6 0.8 1)) ≤ 5 * 1e-6 ∧ Spec.NearUnit 1e-6 (normalize (vector 0.6 0.8 1)) := by
  have e : norm4 (vector 0.6 0.8 1) = √2 := by simp [norm4, vector]; norm_num
  have h2 : (√2) ^ 2 = 2 := Real.sq_sqrt (by norm_num)
  have h0 := Real.sqrt_nonneg 2
  exact C107_normalize (by norm_num) le_rfl (by rw [e]; nlinarith) (by rw [e]; nlinarith) (NormalizeR.exact (by norm_num) _)

/-- non-vacuity of `C107_refract`: into a glass of index 3/2, and totally reflected inside of it -/
example : (∃ w index, Nonempty (RefractR 1e-6 (vector 0.6 (-0.8) 0) (vector 0 1 0) 1 1.5 1 w index) ∧ index = 1.5 ∧ |dot4 w (vector 1 0 0) - 0.4| ≤ 2000 * 1e-6) ∧
    ∃ w index, Nonempty (RefractR 1e-6 (vector 0.8 0.6 0) (vector 0 1 0) 1.5 1.5 1 w index) ∧ index = 1.5 ∧ norm4 (w - vector 0.8 (-0.6) 0) ≤ 200 * 1e-6 := by
  have hn : Spec.NearUnit 1e-6 (vector 0 1 0) := by simp [Spec.NearUnit, norm4, vector]; norm_num
  constructor
  · have hv : norm4 (vector 0.6 (-0.8) 0) = 1 := by simp [norm4, vector]; norm_num
    have hnv : normalize (vector 0.6 (-0.8) 0) = vector 0.6 (-0.8) 0 := by rw [normalize_eq_smul, hv, inv_one, one_smul]
    have hd : dot4 (vector 0.6 (-0.8) 0) (vector 0 1 0) = -0.8 := by simp [dot4, vector]
    refine ⟨_, _, ⟨RefractR.exact (by norm_num) _ _ _ _ _⟩, ?_⟩
    obtain ⟨-, ⟨h1, -, h2, -⟩ | ⟨-, h2, -⟩⟩ := C107_refract (u := 1e-6) (by norm_num) le_rfl (by rw [hv]; norm_num) (by rw [hv]; norm_num) hn (far := 1.5)
      (by rw [hnv, hd, abs_neg, abs_of_pos] <;> norm_num) (by rw [hnv, hd, if_neg (by norm_num)]) (by norm_num) (by norm_num)
      (RefractR.exact (by norm_num) (vector 0.6 (-0.8) 0) (vector 0 1 0) 1 1.5 1)
    · refine ⟨h1, ?_⟩
      have := h2 (vector 1 0 0) ⟨by simp [dot4, vector], by simp [norm4, vector]⟩
      rw [hnv, show dot4 (vector 0.6 (-0.8) 0) (vector 1 0 0) = 0.6 by simp [dot4, vector]] at this
      convert this using 3
      norm_num
    · rw [hnv, hd] at h2
      norm_num at h2
  · have hv : norm4 (vector 0.8 0.6 0) = 1 := by simp [norm4, vector]; norm_num
    have hnv : normalize (vector 0.8 0.6 0) = vector 0.8 0.6 0 := by rw [normalize_eq_smul, hv, inv_one, one_smul]
    have hd : dot4 (vector 0.8 0.6 0) (vector 0 1 0) = 0.6 := by simp [dot4, vector]
    refine ⟨_, _, ⟨RefractR.exact (by norm_num) _ _ _ _ _⟩, ?_⟩
    obtain ⟨-, ⟨-, h2, -⟩ | ⟨h1, -, h2⟩⟩ := C107_refract (u := 1e-6) (by norm_num) le_rfl (by rw [hv]; norm_num) (by rw [hv]; norm_num) hn (far := 1)
      (by rw [hnv, hd, abs_of_pos] <;> norm_num) (by rw [hnv, hd, if_pos (by norm_num)]) (by norm_num) (by norm_num)
      (RefractR.exact (by norm_num) (vector 0.8 0.6 0) (vector 0 1 0) 1.5 1.5 1)
    · rw [hnv, hd] at h2
      norm_num at h2
    · refine ⟨h1, ?_⟩
      rw [hnv, show reflect (vector 0.8 0.6 0) (vector 0 1 0) = vector 0.8 (-0.6) 0 by
        funext i; fin_cases i <;> simp [reflect, dot4, vector]; norm_num] at h2
      exact h2

end PyRayT
