import Verif.Proofs.Paraxial
import Verif.Proofs.NearRay
import Verif.Props.Components

/-! Helper lemmas for C88: the path of a ray through the glass, and what the lens reports about it. -/

namespace PyRayT

open Classical Matrix Spec

namespace Lens

variable {R1 R2 t n q : ℝ}

/-- the conditions on the distance from the axis under which everything below goes well; all hold close to the axis -/
structure Good (R1 R2 t n ρ q : ℝ) : Prop where
  q0 : 0 < q
  q1 : q < R1 ^ 2
  qn : q < (n * R1) ^ 2
  ha : 1 / 2 < a1 R1 n q
  disc : 0 < β R1 R2 t n q ^ 2 - γ R1 R2 t q
  hpath : 1e-6 < path R1 R2 t n q
  far1 : 0 < R1 → Lens.path R1 R2 t n q < 2 * R1 * m1 R1 n q
  far2 : R2 < 0 → γ R1 R2 t q < 0
  hκ : 0 < κ R1 R2 t n q
  hin : 0 < cosIn R1 R2 t n q
  noTir : 0 < 1 - n ^ 2 * (1 - Lens.cosIn R1 R2 t n q ^ 2)
  wide : (1 + (Lens.path R1 R2 t n q + 1) * |b1 R1 n q|) ^ 2 * q < ρ
  hc2 : c2 R1 R2 t n q ≠ 0
  near1 : b1 R1 n q ^ 2 * q < 1e-8
  near2 : |2 * (b1 R1 n q * (1 + 1e-6 * b1 R1 n q) * q)| < 1e-8
  thick : x1 R1 t q < t / 2 + R2 - R2 * cosAt R2 q

theorem cosAt_sq {R : ℝ} (hq : q ≤ R ^ 2) (hR : R ≠ 0) : cosAt R q ^ 2 = 1 - q / R ^ 2 := by
  unfold cosAt
  rw [Real.sq_sqrt]
  have : 0 < R ^ 2 := by positivity
  rw [sub_nonneg, div_le_one this]; exact hq

theorem cosAt_mul {R : ℝ} (hR : R ≠ 0) : |R| * cosAt R q = √(R ^ 2 - q) := by
  unfold cosAt
  rw [← Real.sqrt_sq_eq_abs, ← Real.sqrt_mul (sq_nonneg R)]
  congr 1
  field_simp

theorem sag_eq {R : ℝ} (hR : R ≠ 0) : sag (some R) q = R - R * cosAt R q := by
  have h := cosAt_mul (q := q) hR
  simp only [sag]
  split
  · rename_i h0
    rw [← h, abs_of_pos h0]
  · rename_i h0
    rw [← h, abs_of_neg (lt_of_le_of_ne (not_lt.1 h0) hR)]
    ring

theorem m1_sq (hq : q < (n * R1) ^ 2) : m1 R1 n q ^ 2 = 1 - q / (n * R1) ^ 2 := by
  unfold m1
  rw [Real.sq_sqrt]
  by_cases h : (n * R1) ^ 2 = 0
  · rw [h]; simp
  · have : 0 < (n * R1) ^ 2 := lt_of_le_of_ne (sq_nonneg _) (Ne.symm h)
    rw [sub_nonneg, div_le_one this]; exact hq.le

theorem m1_pos (hn : n ≠ 0) (h1 : R1 ≠ 0) (hq : q < (n * R1) ^ 2) : 0 < m1 R1 n q := by
  unfold m1
  apply Real.sqrt_pos.2
  have : 0 < (n * R1) ^ 2 := by positivity
  rw [sub_pos, div_lt_one this]; exact hq

theorem cosAt_pos {R : ℝ} (hR : R ≠ 0) (hq : q < R ^ 2) : 0 < cosAt R q := by
  unfold cosAt
  apply Real.sqrt_pos.2
  have : 0 < R ^ 2 := by positivity
  rw [sub_pos, div_lt_one this]; exact hq

/-- the direction in the glass is a unit vector -/
theorem unit1 (hn : n ≠ 0) (h1 : R1 ≠ 0) (hq : q < R1 ^ 2) (hqn : q < (n * R1) ^ 2) : a1 R1 n q ^ 2 + b1 R1 n q ^ 2 * q = 1 := by
  have e1 := cosAt_sq hq.le h1
  have e2 := m1_sq hqn
  unfold a1 b1
  have hqe : q = R1 ^ 2 * (1 - cosAt R1 q ^ 2) := by rw [e1]; field_simp; ring
  have e3 : m1 R1 n q ^ 2 = 1 - (1 - cosAt R1 q ^ 2) / n ^ 2 := by
    rw [e2, e1]; field_simp; ring
  generalize m1 R1 n q = m at *
  generalize cosAt R1 q = C at *
  rw [hqe]
  have e4 : (m * n) ^ 2 = n ^ 2 - 1 + C ^ 2 := by
    rw [mul_pow, e3]; field_simp; ring
  field_simp
  linear_combination e4

/-- cosine at the front -/
theorem front_cos (h1 : R1 ≠ 0) (hq : q < R1 ^ 2) : a1 R1 n q * cosAt R1 q - b1 R1 n q * q / R1 = m1 R1 n q := by
  have e1 := cosAt_sq hq.le h1
  unfold a1 b1
  have hqe : q = R1 ^ 2 * (1 - cosAt R1 q ^ 2) := by rw [e1]; field_simp; ring
  generalize m1 R1 n q = m at *
  generalize cosAt R1 q = C at *
  rw [hqe]
  field_simp
  ring

/-- relative to the front sphere -/
theorem front_power (hn : n ≠ 0) (h1 : R1 ≠ 0) (hq : q < R1 ^ 2) (hqn : q < (n * R1) ^ 2) (s : ℝ) :
    (1 + s * b1 R1 n q) ^ 2 * q + (x1 R1 t q + s * a1 R1 n q - (R1 - t / 2)) ^ 2 - R1 ^ 2 = s * (s - 2 * R1 * m1 R1 n q) := by
  have e1 := cosAt_sq hq.le h1
  have e2 := unit1 hn h1 hq hqn
  have e3 := front_cos (n := n) h1 hq
  have hqe : q = R1 ^ 2 * (1 - cosAt R1 q ^ 2) := by rw [e1]; field_simp; ring
  unfold x1
  generalize m1 R1 n q = m at *
  generalize a1 R1 n q = a at *
  generalize b1 R1 n q = b at *
  generalize cosAt R1 q = C at *
  have e4 : a * C * R1 - b * q = m * R1 := by rw [← e3]; field_simp
  linear_combination s ^ 2 * e2 + hqe - 2 * s * e4

/-- relative to the back sphere -/
theorem back_power (hn : n ≠ 0) (h1 : R1 ≠ 0) (hq : q < R1 ^ 2) (hqn : q < (n * R1) ^ 2) (s : ℝ) :
    (1 + s * b1 R1 n q) ^ 2 * q + (x1 R1 t q + s * a1 R1 n q - (R2 + t / 2)) ^ 2 - R2 ^ 2 =
      s ^ 2 + 2 * β R1 R2 t n q * s + γ R1 R2 t q := by
  have e2 := unit1 hn h1 hq hqn
  unfold β γ
  linear_combination s ^ 2 * e2

theorem path_root (h2 : R2 ≠ 0) (hd : 0 < β R1 R2 t n q ^ 2 - γ R1 R2 t q) (s : ℝ) :
    s ^ 2 + 2 * β R1 R2 t n q * s + γ R1 R2 t q = (s - path R1 R2 t n q) * (s - path R1 R2 t n q - 2 * R2 * √((β R1 R2 t n q ^ 2 - γ R1 R2 t q) / R2 ^ 2)) := by
  have h : √((β R1 R2 t n q ^ 2 - γ R1 R2 t q) / R2 ^ 2) ^ 2 = (β R1 R2 t n q ^ 2 - γ R1 R2 t q) / R2 ^ 2 := Real.sq_sqrt (by positivity)
  unfold path
  generalize √((β R1 R2 t n q ^ 2 - γ R1 R2 t q) / R2 ^ 2) = w at *
  have h' : R2 ^ 2 * w ^ 2 = β R1 R2 t n q ^ 2 - γ R1 R2 t q := by rw [h]; field_simp
  linear_combination h'

variable {ρ : ℝ}

theorem Good.root_pos (g : Good R1 R2 t n ρ q) (h2 : R2 ≠ 0) : 0 < √((β R1 R2 t n q ^ 2 - γ R1 R2 t q) / R2 ^ 2) :=
  Real.sqrt_pos.2 (div_pos g.disc (by positivity))

/-- on the way through the glass the ray is on the right side of both spheres, and behind the back it is not -/
theorem Good.side1 (g : Good R1 R2 t n ρ q) (hn : n ≠ 0) (h1 : R1 ≠ 0) {s : ℝ} (hs : 0 < s) (hs2 : s ≤ path R1 R2 t n q) :
    sideIn (R1 > 0) R1 (R1 - t / 2) (x1 R1 t q + s * a1 R1 n q) ((1 + s * b1 R1 n q) ^ 2 * q) := by
  have e := front_power (t := t) hn h1 g.q1 g.qn s
  have hm := m1_pos hn h1 g.qn
  unfold sideIn
  split
  · rename_i h
    have := g.far1 h
    nlinarith
  · rename_i h
    have h' : R1 < 0 := lt_of_le_of_ne (not_lt.1 h) h1
    nlinarith [mul_pos hs (mul_pos (neg_pos.2 h') hm)]

theorem Good.side2 (g : Good R1 R2 t n ρ q) (hn : n ≠ 0) (h1 : R1 ≠ 0) (h2 : R2 ≠ 0) {s : ℝ} (hs : 0 ≤ s) (hs2 : s < path R1 R2 t n q) :
    sideIn (R2 < 0) R2 (R2 + t / 2) (x1 R1 t q + s * a1 R1 n q) ((1 + s * b1 R1 n q) ^ 2 * q) := by
  have e := back_power (R2 := R2) (t := t) hn h1 g.q1 g.qn s
  have e' := path_root h2 g.disc s
  have e0 := path_root h2 g.disc 0
  have hw := g.root_pos h2
  set w := √((β R1 R2 t n q ^ 2 - γ R1 R2 t q) / R2 ^ 2)
  have hp := g.hpath
  rw [e'] at e
  unfold sideIn
  split
  · rename_i h
    have hg := g.far2 h
    have h3 : 0 < -path R1 R2 t n q - 2 * R2 * w := by
      by_contra hc
      nlinarith
    nlinarith
  · rename_i h
    have h' : 0 < R2 := lt_of_le_of_ne (not_lt.1 h) (Ne.symm h2)
    nlinarith [mul_pos h' hw]

theorem Good.behind (g : Good R1 R2 t n ρ q) (hn : n ≠ 0) (h1 : R1 ≠ 0) (h2 : R2 ≠ 0) : ∃ η > 0, ∀ s, path R1 R2 t n q < s → s < path R1 R2 t n q + η →
    sideOut (R2 < 0) R2 (R2 + t / 2) (x1 R1 t q + s * a1 R1 n q) ((1 + s * b1 R1 n q) ^ 2 * q) := by
  have hw := g.root_pos h2
  refine ⟨2 * |R2| * √((β R1 R2 t n q ^ 2 - γ R1 R2 t q) / R2 ^ 2), by positivity, fun s hs hs2 => ?_⟩
  have e := back_power (R2 := R2) (t := t) hn h1 g.q1 g.qn s
  have e' := path_root h2 g.disc s
  set w := √((β R1 R2 t n q ^ 2 - γ R1 R2 t q) / R2 ^ 2)
  rw [e'] at e
  unfold sideOut
  split
  · rename_i h
    have := mul_pos (neg_pos.2 h) hw
    nlinarith
  · rename_i h
    have h' : 0 < R2 := lt_of_le_of_ne (not_lt.1 h) (Ne.symm h2)
    rw [abs_of_pos h'] at hs2
    nlinarith

theorem Good.only (g : Good R1 R2 t n ρ q) (hn : n ≠ 0) (h1 : R1 ≠ 0) (h2 : R2 ≠ 0) {s : ℝ} (hs : 0 ≤ s) (hs2 : s ≤ path R1 R2 t n q)
    (h : (1 + s * b1 R1 n q) ^ 2 * q + (x1 R1 t q + s * a1 R1 n q - (R2 + t / 2)) ^ 2 = R2 ^ 2) : s = path R1 R2 t n q := by
  by_contra hc
  have := g.side2 hn h1 h2 hs (lt_of_le_of_ne hs2 hc)
  unfold sideIn at this
  split at this <;> linarith

theorem Good.back_point (g : Good R1 R2 t n ρ q) (hn : n ≠ 0) (h1 : R1 ≠ 0) (h2 : R2 ≠ 0) :
    Lens.c2 R1 R2 t n q ^ 2 * q + (x2 R1 R2 t n q - (R2 + t / 2)) ^ 2 = R2 ^ 2 := by
  have e := back_power (R2 := R2) (t := t) hn h1 g.q1 g.qn (path R1 R2 t n q)
  rw [path_root h2 g.disc, sub_self, zero_mul] at e
  unfold Lens.c2 x2
  linarith

/-- the squared distance from the axis stays small -/
theorem Good.height (g : Good R1 R2 t n ρ q) {s : ℝ} (hs : 0 ≤ s) (hs2 : s ≤ path R1 R2 t n q + 1) : (1 + s * b1 R1 n q) ^ 2 * q < ρ := by
  refine lt_of_le_of_lt ?_ g.wide
  have h0 := g.q0
  have : |1 + s * b1 R1 n q| ≤ 1 + (path R1 R2 t n q + 1) * |b1 R1 n q| := by
    refine (abs_add_le _ _).trans ?_
    rw [abs_one, abs_mul, abs_of_nonneg hs]
    have := mul_le_mul_of_nonneg_right hs2 (abs_nonneg (b1 R1 n q))
    linarith
  have := mul_self_le_mul_self (abs_nonneg _) this
  rw [abs_mul_abs_self] at this
  nlinarith

theorem Good.low (g : Good R1 R2 t n ρ q) : q < ρ := by
  have := g.height (s := 0) le_rfl (by have := g.hpath; norm_num at this ⊢; linarith)
  simpa using this

/-- the back is met on its near half -/
theorem Good.back_sag (g : Good R1 R2 t n ρ q) (hn : n ≠ 0) (h1 : R1 ≠ 0) (h2 : R2 ≠ 0) :
    x2 R1 R2 t n q = t / 2 + sag (some R2) (Lens.c2 R1 R2 t n q ^ 2 * q) := by
  have e := g.back_point hn h1 h2
  have hk := g.hκ
  unfold Lens.κ at hk
  have hsq : √(R2 ^ 2 - Lens.c2 R1 R2 t n q ^ 2 * q) = |x2 R1 R2 t n q - (R2 + t / 2)| := by
    rw [← e, add_sub_cancel_left, Real.sqrt_sq_eq_abs]
  simp only [sag, hsq]
  split
  · rename_i h
    have : x2 R1 R2 t n q - (R2 + t / 2) < 0 := by
      by_contra hc
      have := div_nonpos_of_nonpos_of_nonneg (show -(x2 R1 R2 t n q - (t / 2 + R2)) ≤ 0 by linarith) h.le
      linarith
    rw [abs_of_neg this]; ring
  · rename_i h
    have h' : R2 < 0 := lt_of_le_of_ne (not_lt.1 h) h2
    have : 0 < x2 R1 R2 t n q - (R2 + t / 2) := by
      by_contra hc
      have := div_nonpos_of_nonneg_of_nonpos (show 0 ≤ -(x2 R1 R2 t n q - (t / 2 + R2)) by linarith) h'.le
      linarith
    rw [abs_of_pos this]; ring

/-- close to the axis all is well -/
theorem eventually_good {ε f : ℝ} (hε : 0 < ε) (hf : lensmakersEquation R1 R2 n t = some f) (hn : 0 < n) (ht : 1e-6 < t) (hρ : 0 < ρ)
    (h1 : 0 < R1 → t < 2 * R1) (h2 : R2 < 0 → t < -2 * R2) (hc : n * R1 ≠ (n - 1) * t) :
    ∃ δ > 0, ∀ q, 0 < q → q < δ → Good R1 R2 t n ρ q ∧ b2 R1 R2 t n q ≠ 0 ∧ |focal R1 R2 t n q - f| < ε ∧
      |cross R1 R2 t n q - (t / 2 + f * (1 - (n - 1) * t / (n * R1)))| < ε := by
  obtain ⟨hb, T1, T2⟩ := focal_tendsto hf
  have hne : R1 ≠ 0 ∧ R2 ≠ 0 := by
    unfold lensmakersEquation at hf
    simp only at hf
    split at hf
    · exact absurd hf (by simp)
    · rename_i h; push Not at h; exact ⟨h.1, h.2.1⟩
  obtain ⟨n1, n2⟩ := hne
  have ev : ∀ {F : ℝ → ℝ} {c : ℝ}, Continuous F → F 0 < c → ∀ᶠ q in nhds (0 : ℝ), F q < c := fun hF h => hF.continuousAt.eventually_lt_const h
  have ev' : ∀ {F : ℝ → ℝ} {c : ℝ}, Continuous F → c < F 0 → ∀ᶠ q in nhds (0 : ℝ), c < F q := fun hF h => hF.continuousAt.eventually_const_lt h
  have c1 := a1_continuous R1 n
  have c2' := b1_continuous R1 n
  have c3 := β_continuous R1 R2 t n
  have c4 := γ_continuous R1 R2 t
  have c5 := path_continuous R1 R2 t n
  have c6 := m1_continuous R1 n
  have c7 := κ_continuous R1 R2 t n
  have c8 := cosIn_continuous R1 R2 t n
  have c9 := c2_continuous R1 R2 t n
  have c10 := x1_continuous R1 t
  have c11 := cosAt_continuous R2
  have E1 := ev (F := fun q => q) (c := R1 ^ 2) continuous_id (by positivity)
  have E2 := ev (F := fun q => q) (c := (n * R1) ^ 2) continuous_id (by positivity)
  have E3 := ev' (c := 1 / 2) c1 (by simp; norm_num)
  have E4 := ev' (F := fun q => β R1 R2 t n q ^ 2 - γ R1 R2 t q) (c := 0) (by fun_prop)
    (by rw [β_zero, γ_zero]; have : 0 < R2 ^ 2 := by positivity
        nlinarith)
  have E5 := ev' (c := 1e-6) c5 (by rw [path_zero n2]; exact ht)
  have E6 : ∀ᶠ q in nhds (0 : ℝ), 0 < R1 → path R1 R2 t n q < 2 * R1 * m1 R1 n q := by
    by_cases h : 0 < R1
    · have := ev (F := fun q => path R1 R2 t n q - 2 * R1 * m1 R1 n q) (c := 0) (by fun_prop)
        (by rw [path_zero n2, m1_zero]; linarith [h1 h])
      exact this.mono fun q hq _ => by linarith
    · exact Filter.Eventually.of_forall fun q h' => absurd h' h
  have E7 : ∀ᶠ q in nhds (0 : ℝ), R2 < 0 → γ R1 R2 t q < 0 := by
    by_cases h : R2 < 0
    · have := ev (c := 0) c4 (by
        rw [γ_zero]
        have := h2 h
        have : 0 < t := by norm_num at ht; linarith
        nlinarith)
      exact this.mono fun q hq _ => hq
    · exact Filter.Eventually.of_forall fun q h' => absurd h' h
  have E8 := ev' (c := 0) c7 (by rw [κ_zero n2]; exact one_pos)
  have E9 := ev' (c := 0) c8 (by rw [cosIn_zero n2]; exact one_pos)
  have E10 := ev' (F := fun q => 1 - n ^ 2 * (1 - cosIn R1 R2 t n q ^ 2)) (c := 0) (by fun_prop) (by rw [cosIn_zero n2]; norm_num)
  have E11 := ev (F := fun q => (1 + (path R1 R2 t n q + 1) * |b1 R1 n q|) ^ 2 * q) (c := ρ) (by fun_prop) (by simpa using hρ)
  have E12 := (c9.continuousAt (x := 0)).eventually_ne (y := 0) (by
    rw [c2_zero n2]
    intro h0
    apply hc
    field_simp at h0
    linarith)
  have E13 := ev (F := fun q => b1 R1 n q ^ 2 * q) (c := 1e-8) (by fun_prop) (by norm_num)
  have E14 := ev (F := fun q => |2 * (b1 R1 n q * (1 + 1e-6 * b1 R1 n q) * q)|) (c := 1e-8) (by fun_prop) (by norm_num)
  have E15 := ev (F := fun q => x1 R1 t q - (t / 2 + R2 - R2 * cosAt R2 q)) (c := 0) (by fun_prop)
    (by rw [x1_zero, cosAt_zero]; norm_num at ht; linarith)
  have E16 := (b2_continuous R1 R2 t n).continuousAt.eventually_ne hb
  have E17 := (Metric.tendsto_nhds.1 T1) ε hε
  have E18 := (Metric.tendsto_nhds.1 T2) ε hε
  obtain ⟨δ, hδ, H⟩ := Metric.eventually_nhds_iff.1 (E1.and (E2.and (E3.and (E4.and (E5.and (E6.and (E7.and (E8.and (E9.and (E10.and (E11.and
    (E12.and (E13.and (E14.and (E15.and (E16.and (E17.and E18)))))))))))))))))
  refine ⟨δ, hδ, fun q q0 qd => ?_⟩
  obtain ⟨e1, e2, e3, e4, e5, e6, e7, e8, e9, e10, e11, e12, e13, e14, e15, e16, e17, e18⟩ := H (show dist q 0 < δ by
    rw [Real.dist_eq, sub_zero, abs_of_pos q0]; exact qd)
  exact ⟨⟨q0, e1, e2, e3, e4, e5, e6, e7, e8, e9, e10, e11, e12, e13, e14, by linarith⟩, e16, e17, e18⟩

end Lens

end PyRayT
