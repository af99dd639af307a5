import Verif.Model.Utils
import Mathlib.Analysis.SpecialFunctions.Pow.Continuity
import Mathlib.LinearAlgebra.Matrix.Notation
import Mathlib.Topology.Order.OrderClosed
import Mathlib.Tactic.Linarith
import Mathlib.Tactic.FieldSimp
import Mathlib.Tactic.Ring
import Mathlib.Tactic.NormNum
import Mathlib.Tactic.Positivity
import Mathlib.Tactic.LinearCombination

/-!
# Properties C40 - C42: colours, lensmaker's equation, refractive indices
-/

namespace PyRayT

/-! ### C40 -/

/-- helper: the colour as a nested case distinction -/
noncomputable def rgbNested (gamma w : ℝ) : Fin 3 → ℝ :=
  if 0.645 ≤ w then ![|0.3 + 0.7 * (0.75 - min w 0.75) / (0.75 - 0.645)| ^ gamma, 0, 0]
  else if 0.58 ≤ w then ![1, |(0.645 - w) / (0.645 - 0.58)| ^ gamma, 0]
  else if 0.51 ≤ w then ![|(w - 0.51) / (0.58 - 0.51)| ^ gamma, 1, 0]
  else if 0.49 ≤ w then ![0, 1, |(0.51 - w) / (0.51 - 0.49)| ^ gamma]
  else if 0.44 ≤ w then ![0, |(w - 0.44) / (0.49 - 0.44)| ^ gamma, 1]
  else ![|-(max w 0.38 - 0.44) / (0.44 - 0.38) * (0.3 + 0.7 * (max w 0.38 - 0.38) / (0.44 - 0.38))| ^ gamma, 0,
    |1.0 * (0.3 + 0.7 * (max w 0.38 - 0.38) / (0.44 - 0.38))| ^ gamma]

theorem wavelengthToRgb_eq (gamma w : ℝ) : wavelengthToRgb gamma w = some (rgbNested gamma w) := by
  unfold wavelengthToRgb rgbNested paint
  simp only
  by_cases h6 : (0.645 : ℝ) ≤ w
  · rw [if_pos (show w ≥ 0.645 from h6), if_pos h6]
  rw [if_neg (show ¬ w ≥ 0.645 from h6), if_neg h6]
  by_cases h5 : (0.58 : ℝ) ≤ w
  · rw [if_pos (show w ≥ 0.58 ∧ w < 0.645 from ⟨h5, not_le.1 h6⟩), if_pos h5]
  rw [if_neg (show ¬ (w ≥ 0.58 ∧ w < 0.645) from fun h => h5 h.1), if_neg h5]
  by_cases h4 : (0.51 : ℝ) ≤ w
  · rw [if_pos (show w ≥ 0.51 ∧ w < 0.58 from ⟨h4, not_le.1 h5⟩), if_pos h4]
  rw [if_neg (show ¬ (w ≥ 0.51 ∧ w < 0.58) from fun h => h4 h.1), if_neg h4]
  by_cases h3 : (0.49 : ℝ) ≤ w
  · rw [if_pos (show w ≥ 0.49 ∧ w < 0.51 from ⟨h3, not_le.1 h4⟩), if_pos h3]
  rw [if_neg (show ¬ (w ≥ 0.49 ∧ w < 0.51) from fun h => h3 h.1), if_neg h3]
  by_cases h2 : (0.44 : ℝ) ≤ w
  · rw [if_pos (show w ≥ 0.44 ∧ w < 0.49 from ⟨h2, not_le.1 h3⟩), if_pos h2]
  rw [if_neg (show ¬ (w ≥ 0.44 ∧ w < 0.49) from fun h => h2 h.1), if_neg h2,
    if_pos (not_le.1 h2)]

theorem abs_rpow_mem {x gamma : ℝ} (hg : 0 < gamma) (h0 : -1 ≤ x) (h1 : x ≤ 1) :
    0 ≤ |x| ^ gamma ∧ |x| ^ gamma ≤ 1 :=
  ⟨Real.rpow_nonneg (abs_nonneg _) _, Real.rpow_le_one (abs_nonneg _) (abs_le.2 ⟨h0, h1⟩) hg.le⟩

/-- **C40 (range).** Every channel of every colour is in [0, 1]. -/
theorem C40_range (gamma w : ℝ) (hg : 0 < gamma) :
    ∃ c : Fin 3 → ℝ, wavelengthToRgb gamma w = some c ∧ ∀ i, 0 ≤ c i ∧ c i ≤ 1 := by
  refine ⟨_, wavelengthToRgb_eq gamma w, ?_⟩
  have hz : (0 : ℝ) ≤ 0 ∧ (0 : ℝ) ≤ 1 := by norm_num
  have ho : (0 : ℝ) ≤ 1 ∧ (1 : ℝ) ≤ 1 := by norm_num
  unfold rgbNested
  split_ifs with h6 h5 h4 h3 h2
  · have k : min w 0.75 ≤ 0.75 := min_le_right _ _
    have k2 : 0.645 ≤ min w 0.75 := le_min h6 (by norm_num)
    have := abs_rpow_mem (x := 0.3 + 0.7 * (0.75 - min w 0.75) / (0.75 - 0.645)) hg
      (by have : 0 ≤ 0.7 * (0.75 - min w 0.75) / (0.75 - 0.645) := div_nonneg (by linarith) (by norm_num)
          linarith)
      (by have : 0.7 * (0.75 - min w 0.75) / (0.75 - 0.645) ≤ 0.7 := by
            rw [div_le_iff₀ (by norm_num)]; linarith
          linarith)
    intro i; fin_cases i <;> simp only [Fin.reduceFinMk, Fin.zero_eta, Fin.mk_one, Matrix.cons_val] <;> first | exact this | exact hz
  · have := abs_rpow_mem (x := (0.645 - w) / (0.645 - 0.58)) hg
      (by rw [le_div_iff₀ (by norm_num)]; linarith) (by rw [div_le_iff₀ (by norm_num)]; linarith)
    intro i; fin_cases i <;> simp only [Fin.reduceFinMk, Fin.zero_eta, Fin.mk_one, Matrix.cons_val] <;> first | exact this | exact hz | exact ho
  · have := abs_rpow_mem (x := (w - 0.51) / (0.58 - 0.51)) hg
      (by rw [le_div_iff₀ (by norm_num)]; linarith) (by rw [div_le_iff₀ (by norm_num)]; linarith)
    intro i; fin_cases i <;> simp only [Fin.reduceFinMk, Fin.zero_eta, Fin.mk_one, Matrix.cons_val] <;> first | exact this | exact hz | exact ho
  · have := abs_rpow_mem (x := (0.51 - w) / (0.51 - 0.49)) hg
      (by rw [le_div_iff₀ (by norm_num)]; linarith) (by rw [div_le_iff₀ (by norm_num)]; linarith)
    intro i; fin_cases i <;> simp only [Fin.reduceFinMk, Fin.zero_eta, Fin.mk_one, Matrix.cons_val] <;> first | exact this | exact hz | exact ho
  · have := abs_rpow_mem (x := (w - 0.44) / (0.49 - 0.44)) hg
      (by rw [le_div_iff₀ (by norm_num)]; linarith) (by rw [div_le_iff₀ (by norm_num)]; linarith)
    intro i; fin_cases i <;> simp only [Fin.reduceFinMk, Fin.zero_eta, Fin.mk_one, Matrix.cons_val] <;> first | exact this | exact hz | exact ho
  · have k : 0.38 ≤ max w 0.38 := le_max_right _ _
    have k2 : max w 0.38 ≤ 0.44 := max_le (not_le.1 h2).le (by norm_num)
    have a1 : 0.3 ≤ 0.3 + 0.7 * (max w 0.38 - 0.38) / (0.44 - 0.38) := by
      have : 0 ≤ 0.7 * (max w 0.38 - 0.38) / (0.44 - 0.38) := div_nonneg (by linarith) (by norm_num)
      linarith
    have a2 : 0.3 + 0.7 * (max w 0.38 - 0.38) / (0.44 - 0.38) ≤ 1 := by
      have : 0.7 * (max w 0.38 - 0.38) / (0.44 - 0.38) ≤ 0.7 := by
        rw [div_le_iff₀ (by norm_num)]; linarith
      linarith
    have b1 : 0 ≤ -(max w 0.38 - 0.44) / (0.44 - 0.38) := div_nonneg (by linarith) (by norm_num)
    have b2 : -(max w 0.38 - 0.44) / (0.44 - 0.38) ≤ 1 := by rw [div_le_iff₀ (by norm_num)]; linarith
    have t1 := abs_rpow_mem (x := -(max w 0.38 - 0.44) / (0.44 - 0.38) *
      (0.3 + 0.7 * (max w 0.38 - 0.38) / (0.44 - 0.38))) hg
      (le_trans (by norm_num) (mul_nonneg b1 (by linarith)))
      (mul_le_one₀ b2 (by linarith) a2)
    have t2 := abs_rpow_mem (x := 1.0 * (0.3 + 0.7 * (max w 0.38 - 0.38) / (0.44 - 0.38))) hg
      (by linarith) (by linarith)
    intro i; fin_cases i <;> simp only [Fin.reduceFinMk, Fin.zero_eta, Fin.mk_one, Matrix.cons_val]
    · exact t1
    · exact hz
    · exact t2

/-- **C40 (clipping).** Wavelengths below 0.38 have the colour of 0.38, those above 0.75 the colour of 0.75. -/
theorem C40_clipped (gamma w : ℝ) :
    wavelengthToRgb gamma w = wavelengthToRgb gamma (max 0.38 (min w 0.75)) := by
  rw [wavelengthToRgb_eq, wavelengthToRgb_eq]
  congr 1
  unfold rgbNested
  rcases le_total w 0.38 with h | h
  · have e : max 0.38 (min w 0.75) = 0.38 := by
      rw [min_eq_left (by linarith), max_eq_left h]
    rw [e]
    rw [if_neg (by linarith), if_neg (by linarith), if_neg (by linarith), if_neg (by linarith),
      if_neg (by linarith), if_neg (by norm_num), if_neg (by norm_num), if_neg (by norm_num),
      if_neg (by norm_num), if_neg (by norm_num), max_eq_right h, max_self]
  · rcases le_total w 0.75 with h' | h'
    · have e : max 0.38 (min w 0.75) = w := by rw [min_eq_left h', max_eq_right h]
      rw [e]
    · rw [min_eq_right h', max_eq_right (by norm_num : (0.38 : ℝ) ≤ 0.75), if_pos (by linarith),
        if_pos (by norm_num), min_self]

theorem continuous_vec3 {f g h : ℝ → ℝ} (hf : Continuous f) (hg : Continuous g) (hh : Continuous h) :
    Continuous (fun w => (![f w, g w, h w] : Fin 3 → ℝ)) := by
  apply continuous_pi
  intro i; fin_cases i
  · exact hf
  · exact hg
  · exact hh

theorem continuous_absPow {f : ℝ → ℝ} {gamma : ℝ} (hg : 0 < gamma) (hf : Continuous f) :
    Continuous (fun w => |f w| ^ gamma) :=
  hf.abs.rpow_const (fun _ => Or.inr hg.le)

/-- **C40 (continuity).** The colour is a continuous function of the wavelength (no jump at a zone
boundary). -/
theorem C40_continuous (gamma : ℝ) (hg : 0 < gamma) :
    ∃ f : ℝ → Fin 3 → ℝ, (∀ w, wavelengthToRgb gamma w = some (f w)) ∧ Continuous f := by
  refine ⟨rgbNested gamma, wavelengthToRgb_eq gamma, ?_⟩
  have hzero : (0 : ℝ) ^ gamma = 0 := Real.zero_rpow hg.ne'
  unfold rgbNested
  refine Continuous.if_le (continuous_vec3 (continuous_absPow hg (by fun_prop)) continuous_const continuous_const)
    ?_ continuous_const continuous_id ?_
  · refine Continuous.if_le (continuous_vec3 continuous_const (continuous_absPow hg (by fun_prop)) continuous_const)
      ?_ continuous_const continuous_id ?_
    · refine Continuous.if_le (continuous_vec3 (continuous_absPow hg (by fun_prop)) continuous_const continuous_const)
        ?_ continuous_const continuous_id ?_
      · refine Continuous.if_le (continuous_vec3 continuous_const continuous_const (continuous_absPow hg (by fun_prop)))
          ?_ continuous_const continuous_id ?_
        · refine Continuous.if_le (continuous_vec3 continuous_const (continuous_absPow hg (by fun_prop)) continuous_const)
            (continuous_vec3 (continuous_absPow hg (by fun_prop)) continuous_const (continuous_absPow hg (by fun_prop)))
            continuous_const continuous_id ?_
          rintro x rfl
          rw [max_eq_left (by norm_num)]
          norm_num [hzero]
        · rintro x rfl
          rw [if_pos (by norm_num)]
          norm_num
      · rintro x rfl
        rw [if_pos (by norm_num)]
        norm_num [hzero]
    · rintro x rfl
      rw [if_pos (by norm_num)]
      norm_num
  · rintro x rfl
    rw [if_pos (by norm_num), min_eq_left (by norm_num)]
    norm_num [hzero]

/-- non-vacuity of C40: at 0.51 µm with gamma 0.8 the colour is pure green -/
example : wavelengthToRgb 0.8 0.51 = some ![0, 1, 0] := by
  rw [wavelengthToRgb_eq]; unfold rgbNested
  rw [if_neg (by norm_num), if_neg (by norm_num), if_pos (by norm_num)]
  norm_num

/-! ### C41 -/

/-- paraxial refraction at a spherical surface of radius `r` from index `n1` to `n2` (ray transfer matrix
acting on (height, angle)) -/
noncomputable def Spec.refractM (n1 n2 r : ℝ) : Matrix (Fin 2) (Fin 2) ℝ :=
  !![1, 0; (n1 - n2) / (n2 * r), n1 / n2]

/-- paraxial propagation over a distance -/
def Spec.propagateM (t : ℝ) : Matrix (Fin 2) (Fin 2) ℝ := !![1, t; 0, 1]

/-- a thick lens: surface `r1`, thickness `t` of index `n`, surface `r2` back to air -/
noncomputable def Spec.lensM (r1 r2 n t : ℝ) : Matrix (Fin 2) (Fin 2) ℝ :=
  Spec.refractM n 1 r2 * Spec.propagateM t * Spec.refractM 1 n r1

/-- **C41.** Whenever `lensmakers_equation` returns a focal length `f`: (1) a paraxial ray parallel to the axis
leaves the lens with slope `-height/f` (ray-transfer-matrix composition of the two surfaces);
(2) turning the lens around gives the same `f`; (3) mirroring signs of radii and thickness flips `f`;
(4) for `t = 0`, `1/f = (n-1)(1/r1 - 1/r2)`. -/
theorem C41_lensmaker (r1 r2 n t f : ℝ) (h : lensmakersEquation r1 r2 n t = some f) :
    (Spec.lensM r1 r2 n t) 1 0 = -1 / f ∧
    lensmakersEquation (-r2) (-r1) n t = some f ∧
    lensmakersEquation (-r1) (-r2) n (-t) = some (-f) ∧
    (t = 0 → 1 / f = (n - 1) * (1 / r1 - 1 / r2)) := by
  unfold lensmakersEquation at h
  simp only at h
  split_ifs at h with hc
  push Not at hc
  obtain ⟨h1, h2, hn, hp⟩ := hc
  have hf : f = 1 / ((n - 1) * (1 / r1 - 1 / r2 + (n - 1) * t / (n * r1 * r2))) := (Option.some.inj h).symm
  have hf1 : 1 / f = (n - 1) * (1 / r1 - 1 / r2 + (n - 1) * t / (n * r1 * r2)) := by
    rw [hf, one_div_one_div]
  refine ⟨?_, ?_, ?_, ?_⟩
  · rw [neg_div, hf1]
    simp [Spec.lensM, Spec.refractM, Spec.propagateM, Matrix.mul_apply, Fin.sum_univ_two]
    field_simp
    ring
  · have e : (n - 1) * (1 / -r2 - 1 / -r1 + (n - 1) * t / (n * -r2 * -r1)) =
        (n - 1) * (1 / r1 - 1 / r2 + (n - 1) * t / (n * r1 * r2)) := by
      field_simp; ring
    unfold lensmakersEquation
    simp only [e, neg_eq_zero]
    rw [if_neg (by push Not; exact ⟨h2, h1, hn, hp⟩), hf]
  · have e : (n - 1) * (1 / -r1 - 1 / -r2 + (n - 1) * -t / (n * -r1 * -r2)) =
        -((n - 1) * (1 / r1 - 1 / r2 + (n - 1) * t / (n * r1 * r2))) := by
      field_simp; ring
    unfold lensmakersEquation
    simp only [e, neg_eq_zero]
    rw [if_neg (by push Not; exact ⟨h1, h2, hn, hp⟩), hf]
    congr 1
    rw [div_neg]
  · rintro rfl
    rw [hf1]; simp

/-- non-vacuity of C41: an equiconvex thin lens -/
example : lensmakersEquation 10 (-10) 1.5 0 = some 10 := by
  unfold lensmakersEquation
  simp only
  rw [if_neg (by norm_num)]
  norm_num

/-! ### C42 -/

/-- one Sellmeier term -/
noncomputable def Spec.sellmeierTerm (b c w : ℝ) : ℝ := b * w ^ 2 / (w ^ 2 - c)

theorem sellmeierTerm_anti {b c w1 w2 : ℝ} (hb : 0 ≤ b) (hc : 0 ≤ c) (h1 : 0 < w1) (h12 : w1 < w2)
    (hs : c < w1 ^ 2 ∨ w2 ^ 2 < c) : Spec.sellmeierTerm b c w2 ≤ Spec.sellmeierTerm b c w1 ∧
      (0 < b → 0 < c → Spec.sellmeierTerm b c w2 < Spec.sellmeierTerm b c w1) := by
  have hsq : w1 ^ 2 < w2 ^ 2 := pow_lt_pow_left₀ h12 h1.le (by norm_num)
  have hprod : 0 < (w1 ^ 2 - c) * (w2 ^ 2 - c) := by
    rcases hs with h | h
    · exact mul_pos (by linarith) (by linarith)
    · exact mul_pos_of_neg_of_neg (by linarith) (by linarith)
  have n1 : w1 ^ 2 - c ≠ 0 := fun h => by rw [h, zero_mul] at hprod; exact lt_irrefl _ hprod
  have n2 : w2 ^ 2 - c ≠ 0 := fun h => by rw [h, mul_zero] at hprod; exact lt_irrefl _ hprod
  have e : Spec.sellmeierTerm b c w1 - Spec.sellmeierTerm b c w2 =
      b * c * (w2 ^ 2 - w1 ^ 2) / ((w1 ^ 2 - c) * (w2 ^ 2 - c)) := by
    unfold Spec.sellmeierTerm
    field_simp
    ring
  constructor
  · have : 0 ≤ b * c * (w2 ^ 2 - w1 ^ 2) / ((w1 ^ 2 - c) * (w2 ^ 2 - c)) :=
      div_nonneg (mul_nonneg (mul_nonneg hb hc) (by linarith)) hprod.le
    linarith
  · intro hb hc
    have : 0 < b * c * (w2 ^ 2 - w1 ^ 2) / ((w1 ^ 2 - c) * (w2 ^ 2 - c)) :=
      div_pos (mul_pos (mul_pos hb hc) (by linarith)) hprod
    linarith

/-- **C42 (index).** `index_at(w)² - 1` is the Sellmeier sum wherever that sum is at least -1; with nonnegative
coefficients and `w²` above all `c`s the index is at least 1. A basic refractor has its constant index. -/
theorem C42_index (b1 b2 b3 c1 c2 c3 w : ℝ) :
    (-1 ≤ Spec.sellmeierTerm b1 c1 w + Spec.sellmeierTerm b2 c2 w + Spec.sellmeierTerm b3 c3 w →
      (IndexModel.sellmeier b1 b2 b3 c1 c2 c3).indexAt w ^ 2 - 1 =
        Spec.sellmeierTerm b1 c1 w + Spec.sellmeierTerm b2 c2 w + Spec.sellmeierTerm b3 c3 w) ∧
    (0 ≤ b1 → 0 ≤ b2 → 0 ≤ b3 → c1 < w ^ 2 → c2 < w ^ 2 → c3 < w ^ 2 →
      1 ≤ (IndexModel.sellmeier b1 b2 b3 c1 c2 c3).indexAt w) ∧
    (∀ n, (IndexModel.basic n).indexAt w = n) := by
  refine ⟨?_, ?_, fun n => rfl⟩
  · intro h
    unfold Spec.sellmeierTerm at *
    simp only [IndexModel.indexAt]
    rw [Real.sq_sqrt (by linarith)]
    ring
  · intro h1 h2 h3 g1 g2 g3
    simp only [IndexModel.indexAt]
    rw [Real.one_le_sqrt]
    have t1 : 0 ≤ b1 * w ^ 2 / (w ^ 2 - c1) := div_nonneg (by positivity) (by linarith)
    have t2 : 0 ≤ b2 * w ^ 2 / (w ^ 2 - c2) := div_nonneg (by positivity) (by linarith)
    have t3 : 0 ≤ b3 * w ^ 2 / (w ^ 2 - c3) := div_nonneg (by positivity) (by linarith)
    linarith

/-- **C42 (normal dispersion).** Between two wavelengths with no resonance `√c` in between, and where the
index is real, the index strictly decreases (if at least one term is non-trivial). -/
theorem C42_dispersion (b1 b2 b3 c1 c2 c3 w1 w2 : ℝ) (hb1 : 0 ≤ b1) (hb2 : 0 ≤ b2) (hb3 : 0 ≤ b3)
    (hc1 : 0 ≤ c1) (hc2 : 0 ≤ c2) (hc3 : 0 ≤ c3) (hterm : 0 < b1 ∧ 0 < c1 ∨ 0 < b2 ∧ 0 < c2 ∨ 0 < b3 ∧ 0 < c3) (h1 : 0 < w1) (h12 : w1 < w2)
    (s1 : c1 < w1 ^ 2 ∨ w2 ^ 2 < c1) (s2 : c2 < w1 ^ 2 ∨ w2 ^ 2 < c2) (s3 : c3 < w1 ^ 2 ∨ w2 ^ 2 < c3)
    (hreal : -1 ≤ Spec.sellmeierTerm b1 c1 w2 + Spec.sellmeierTerm b2 c2 w2 + Spec.sellmeierTerm b3 c3 w2) :
    (IndexModel.sellmeier b1 b2 b3 c1 c2 c3).indexAt w2 < (IndexModel.sellmeier b1 b2 b3 c1 c2 c3).indexAt w1 := by
  obtain ⟨t1, t1'⟩ := sellmeierTerm_anti hb1 hc1 h1 h12 s1
  obtain ⟨t2, t2'⟩ := sellmeierTerm_anti hb2 hc2 h1 h12 s2
  obtain ⟨t3, t3'⟩ := sellmeierTerm_anti hb3 hc3 h1 h12 s3
  unfold Spec.sellmeierTerm at *
  simp only [IndexModel.indexAt]
  apply Real.sqrt_lt_sqrt
  · linarith
  · rcases hterm with ⟨h, h'⟩ | ⟨h, h'⟩ | ⟨h, h'⟩
    · linarith [t1' h h']
    · linarith [t2' h h']
    · linarith [t3' h h']

/-- helper: the built-in glasses in the range 0.38 - 0.78 µm -/
theorem builtin_aux (b1 b2 b3 c1 c2 c3 : ℝ) (hb1 : 1 < b1) (hb2 : 0 ≤ b2) (hb3 : 0 ≤ b3) (hb3' : b3 < 2)
    (hc1 : 0 < c1) (hc1' : c1 < 0.1) (hc2 : 0 ≤ c2) (hc2' : c2 < 0.1) (hc3 : 100 < c3) :
    let m := IndexModel.sellmeier b1 b2 b3 c1 c2 c3
    (∀ w, 0.38 ≤ w → w ≤ 0.78 → 1 < m.indexAt w) ∧
    (∀ w1 w2, 0.38 ≤ w1 → w1 < w2 → w2 ≤ 0.78 → m.indexAt w2 < m.indexAt w1) ∧ 0 < m.abbe := by
  intro m
  have lower : ∀ w : ℝ, 0.38 ≤ w → w ≤ 0.78 → 0.1 < w ^ 2 ∧ w ^ 2 < 1 ∧
      1 - 0.1 < b1 * w ^ 2 / (w ^ 2 - c1) + b2 * w ^ 2 / (w ^ 2 - c2) + b3 * w ^ 2 / (w ^ 2 - c3) := by
    intro w hw hw'
    have k1 : 0.1 < w ^ 2 := by nlinarith
    have k2 : w ^ 2 < 1 := by nlinarith
    refine ⟨k1, k2, ?_⟩
    have t1 : 1 < b1 * w ^ 2 / (w ^ 2 - c1) := by
      rw [lt_div_iff₀ (by linarith)]; nlinarith
    have t2 : 0 ≤ b2 * w ^ 2 / (w ^ 2 - c2) := div_nonneg (by positivity) (by linarith)
    have t3 : -0.1 ≤ b3 * w ^ 2 / (w ^ 2 - c3) := by
      rw [le_div_iff_of_neg (by linarith)]
      nlinarith
    linarith
  have gt1 : ∀ w, 0.38 ≤ w → w ≤ 0.78 → 1 < m.indexAt w := by
    intro w hw hw'
    obtain ⟨_, _, h⟩ := lower w hw hw'
    change 1 < √_
    rw [Real.lt_sqrt (by norm_num)]
    linarith
  have anti : ∀ w1 w2, 0.38 ≤ w1 → w1 < w2 → w2 ≤ 0.78 → m.indexAt w2 < m.indexAt w1 := by
    intro w1 w2 h1 h12 h2
    obtain ⟨k1, _, _⟩ := lower w1 h1 (by linarith)
    obtain ⟨_, k2, k3⟩ := lower w2 (by linarith) h2
    apply C42_dispersion b1 b2 b3 c1 c2 c3 w1 w2 (by linarith) hb2 hb3 hc1.le hc2 (by linarith)
      (Or.inl ⟨by linarith, hc1⟩) (by linarith) h12 (Or.inl (by linarith)) (Or.inl (by linarith)) (Or.inr (by linarith))
    unfold Spec.sellmeierTerm
    linarith
  refine ⟨gt1, anti, ?_⟩
  unfold IndexModel.abbe
  apply div_pos
  · linarith [gt1 0.5893 (by norm_num) (by norm_num)]
  · linarith [anti 0.4861 0.6563 (by norm_num) (by norm_num) (by norm_num)]

/-- **C42 (built-in glasses).** BK7, SF5 and SF2 have an index above 1, strictly decreasing with wavelength over
0.38 - 0.78 µm, and a positive Abbe number. (They do have one `c` far above the visible range.) -/
theorem C42_builtin_glasses (m : IndexModel) (hm : m = glassBK7 ∨ m = glassSF5 ∨ m = glassSF2) :
    (∀ w, 0.38 ≤ w → w ≤ 0.78 → 1 < m.indexAt w) ∧
    (∀ w1 w2, 0.38 ≤ w1 → w1 < w2 → w2 ≤ 0.78 → m.indexAt w2 < m.indexAt w1) ∧ 0 < m.abbe := by
  rcases hm with rfl | rfl | rfl
  · exact builtin_aux _ _ _ _ _ _ (by norm_num) (by norm_num) (by norm_num) (by norm_num) (by norm_num)
      (by norm_num) (by norm_num) (by norm_num) (by norm_num)
  · exact builtin_aux _ _ _ _ _ _ (by norm_num) (by norm_num) (by norm_num) (by norm_num) (by norm_num)
      (by norm_num) (by norm_num) (by norm_num) (by norm_num)
  · exact builtin_aux _ _ _ _ _ _ (by norm_num) (by norm_num) (by norm_num) (by norm_num) (by norm_num)
      (by norm_num) (by norm_num) (by norm_num) (by norm_num)

/-- **C42 (Abbe number)** for all glasses whose resonances are below the F line. -/
theorem C42_abbe_pos (b1 b2 b3 c1 c2 c3 : ℝ) (hb1 : 0 ≤ b1) (hb2 : 0 ≤ b2) (hb3 : 0 ≤ b3)
    (hc1 : 0 ≤ c1) (hc2 : 0 ≤ c2) (hc3 : 0 ≤ c3) (hterm : 0 < b1 ∧ 0 < c1 ∨ 0 < b2 ∧ 0 < c2 ∨ 0 < b3 ∧ 0 < c3) (s1 : c1 < 0.4861 ^ 2) (s2 : c2 < 0.4861 ^ 2)
    (s3 : c3 < 0.4861 ^ 2) : 0 < (IndexModel.sellmeier b1 b2 b3 c1 c2 c3).abbe := by
  have hnn : ∀ b c w : ℝ, 0 ≤ b → c < 0.4861 ^ 2 → 0.4861 ≤ w → 0 ≤ Spec.sellmeierTerm b c w := by
    intro b c w hb hc hw
    have : (0.4861 : ℝ) ^ 2 ≤ w ^ 2 := pow_le_pow_left₀ (by norm_num) hw 2
    exact div_nonneg (by positivity) (by linarith)
  have key := C42_dispersion b1 b2 b3 c1 c2 c3 0.4861 0.6563 hb1 hb2 hb3 hc1 hc2 hc3 hterm (by norm_num)
    (by norm_num) (Or.inl s1) (Or.inl s2) (Or.inl s3)
    (by linarith [hnn b1 c1 0.6563 hb1 s1 (by norm_num), hnn b2 c2 0.6563 hb2 s2 (by norm_num),
      hnn b3 c3 0.6563 hb3 s3 (by norm_num)])
  unfold IndexModel.abbe
  apply div_pos
  · have h2 := hnn b1 c1 0.5893 hb1 s1 (by norm_num)
    have h3 := hnn b2 c2 0.5893 hb2 s2 (by norm_num)
    have h4 := hnn b3 c3 0.5893 hb3 s3 (by norm_num)
    have hpos : ∀ b c : ℝ, 0 < b → c < 0.4861 ^ 2 → 0 < Spec.sellmeierTerm b c 0.5893 := fun b c hb hc =>
      div_pos (by positivity) (by norm_num at hc ⊢; linarith)
    have hsum : 0 < Spec.sellmeierTerm b1 c1 0.5893 + Spec.sellmeierTerm b2 c2 0.5893 + Spec.sellmeierTerm b3 c3 0.5893 := by
      rcases hterm with ⟨h, -⟩ | ⟨h, -⟩ | ⟨h, -⟩
      · linarith [hpos b1 c1 h s1]
      · linarith [hpos b2 c2 h s2]
      · linarith [hpos b3 c3 h s3]
    unfold Spec.sellmeierTerm at hsum
    have : 1 < (IndexModel.sellmeier b1 b2 b3 c1 c2 c3).indexAt 0.5893 := by
      change 1 < √_
      rw [Real.lt_sqrt (by norm_num)]
      linarith
    linarith
  · linarith

end PyRayT
