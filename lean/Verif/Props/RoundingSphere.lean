import Verif.Proofs.RoundingSphere
import Verif.Props.Rounding
import Verif.Model.Primitives

/-!
# Property C108: what rounding does to the hits of spheres, and why the tracer moves rays off surfaces
-/

namespace PyRayT

open Classical

variable {u : ℝ}

/-! ### Vectors without their last component -/

/-- the first three components -/
def cut (v : Vec4) : Vec4 := vector (v 0) (v 1) (v 2)

theorem norm4_cut_sq (v : Vec4) : norm4 (cut v) ^ 2 = dot3 v v := by
  rw [norm4, Real.sq_sqrt (by positivity)]
  simp [cut, vector, dot3]; ring

theorem cut_add (v w : Vec4) : cut (v + w) = cut v + cut w := by
  funext i; fin_cases i <;> simp [cut, vector]

theorem cut_smul (k : ℝ) (v : Vec4) : cut (k • v) = k • cut v := by
  funext i; fin_cases i <;> simp [cut, vector]

theorem rounds_cut (hu : 0 ≤ u) {x y : Vec4} (h : ∀ i, Rounds u (x i) (y i)) (i : Fin 4) : Rounds u (cut x i) (cut y i) := by
  fin_cases i
  · exact h 0
  · exact h 1
  · exact h 2
  · exact Rounds.exact hu 0

theorem norm4_cut_le {v : Vec4} {B : ℝ} (hB : 0 ≤ B) (h : dot3 v v ≤ B ^ 2) : norm4 (cut v) ≤ B :=
  (abs_le_of_sq_le_sq' (by rw [norm4_cut_sq]; exact h) hB).2

/-- one rounded step of a ray -/
theorem AdvanceR.err (hu : 0 ≤ u) (hu6 : u ≤ 1e-6) {ray : Ray} {t T B : ℝ} {p : Vec4} (h : AdvanceR u ray t p) (hT : norm4 (cut (t • ray.d)) ≤ T) (hT0 : 0 ≤ T)
    (hB : norm4 (cut (ray.o + t • ray.d)) ≤ B) (hTB : T ≤ 10) (hB2 : B ≤ 10) : norm4 (cut p - cut (ray.o + t • ray.d)) ≤ (T + B + 0.0001) * u := by
  obtain ⟨q, hq, hp⟩ := h
  have e1 : norm4 (cut q - cut (t • ray.d)) ≤ (T + 0.00001) * u :=
    vec_err hu hu6 (rounds_cut hu (x := t • ray.d) (fun i => by simpa using hq i)) (vself_err _) hT le_rfl (by norm_num)
  have e2 : norm4 (cut (ray.o + q) - cut (ray.o + t • ray.d)) ≤ (T + 0.00001) * u := by
    rw [cut_add, cut_add, add_sub_add_left_eq_sub]; exact e1
  refine vec_err hu hu6 (rounds_cut hu (x := ray.o + q) (fun i => by simpa using hp i)) e2 hB (by linarith) ?_
  norm_num; linarith

theorem sq_err {v w : Vec4} {k X m : ℝ} (hu : 0 ≤ u) (hu6 : u ≤ 1e-6) (h : norm4 (cut v - cut w) ≤ k * u) (hk : 0 ≤ k) (hw : norm4 (cut w) ≤ X) (hm : k * (2 * X + k * 1e-6) ≤ m) :
    |dot3 v v - dot3 w w| ≤ m * u := by
  rw [← norm4_cut_sq, ← norm4_cut_sq, show norm4 (cut v) ^ 2 - norm4 (cut w) ^ 2 = (norm4 (cut v) - norm4 (cut w)) * (norm4 (cut v) + norm4 (cut w)) by ring, abs_mul]
  have h1 := (abs_norm4_sub_le (cut v) (cut w)).trans h
  have h2 := norm4_nonneg (cut v)
  have h3 := norm4_nonneg (cut w)
  rw [abs_of_nonneg (a := norm4 (cut v) + norm4 (cut w)) (by linarith)]
  have h4 : norm4 (cut v) + norm4 (cut w) ≤ 2 * X + k * 1e-6 := by
    have := (abs_le.1 h1).2
    have : k * u ≤ k * 1e-6 := mul_le_mul_of_nonneg_left hu6 hk
    linarith
  refine (mul_le_mul h1 h4 (by linarith) (by positivity)).trans ?_
  nlinarith

theorem AdvanceR.scale (hu : 0 ≤ u) {o d p : Vec4} {t m : ℝ} (hm : 0 ≤ m) (hm1 : m ≤ 1) (h : AdvanceR u ⟨o, d⟩ t p) : AdvanceR u ⟨m • o, d⟩ (m * t) (m • p) := by
  obtain ⟨q, hq, hp⟩ := h
  refine ⟨m • q, fun i => ?_, fun i => ?_⟩
  · have := (hq i).scale hu hm hm1
    rwa [← mul_assoc] at this
  · have := (hp i).scale hu hm hm1
    simpa [mul_add] using this

theorem dot3_smul (m : ℝ) (v w : Vec4) : dot3 v (m • w) = m * dot3 v w := by simp [dot3]; ring

theorem dot3_smul_smul (m : ℝ) (v w : Vec4) : dot3 (m • v) (m • w) = m ^ 2 * dot3 v w := by simp [dot3]; ring

/-! ### The specification -/

/-- The square of the distance of a point from the centre, minus the square of the radius: zero on the sphere, negative inside. -/
def Spec.offSphere (R : ℝ) (p : Vec4) : ℝ := p 0 ^ 2 + p 1 ^ 2 + p 2 ^ 2 - R ^ 2

/-- The scene has the size `L`: the ray starts, and the sphere lies, within `L` of the centre; the direction has about length one. -/
structure Spec.Within (L R : ℝ) (ray : Ray) : Prop where
  one_le : 1 ≤ L
  start : ray.o 0 ^ 2 + ray.o 1 ^ 2 + ray.o 2 ^ 2 ≤ L ^ 2
  radius : |R| ≤ L
  length : |ray.d 0 ^ 2 + ray.d 1 ^ 2 + ray.d 2 ^ 2 - 1| ≤ 0.001

/-- A quarter of the discriminant of the exact problem: the sphere is met if it is not negative. -/
def Spec.reach (R : ℝ) (ray : Ray) : ℝ :=
  (ray.d 0 * ray.o 0 + ray.d 1 * ray.o 1 + ray.d 2 * ray.o 2) ^ 2 - (ray.d 0 ^ 2 + ray.d 1 ^ 2 + ray.d 2 ^ 2) * Spec.offSphere R ray.o

theorem offSphere_eq (R : ℝ) (p : Vec4) : Spec.offSphere R p = dot3 p p - R ^ 2 := by simp [Spec.offSphere, dot3]; ring

theorem Spec.Within.small {L R : ℝ} {ray : Ray} (h : Spec.Within L R ray) : SphereSmall (L⁻¹ * R) ⟨L⁻¹ • ray.o, ray.d⟩ := by
  have hL : 0 < L := by linarith [h.one_le]
  refine ⟨?_, ?_, ?_⟩
  · show dot3 (L⁻¹ • ray.o) (L⁻¹ • ray.o) ≤ 1
    rw [dot3_smul_smul, inv_pow, inv_mul_le_iff₀ (by positivity), mul_one]
    have := h.start
    simp only [dot3]; linarith
  · rw [abs_mul, abs_of_pos (inv_pos.2 hL), inv_mul_le_iff₀ hL, mul_one]; exact h.radius
  · have := h.length
    simpa only [dot3, ← sq] using this

theorem inv_le_one' {L : ℝ} (h : 1 ≤ L) : L⁻¹ ≤ 1 := inv_le_one_of_one_le₀ h

/-- **C108 (1).** Rounded hits of a sphere. A computed hit lies on the sphere up to `110 u L²`, also for rays that only touch it; hits are reported whenever the exact problem has some (its discriminant
exceeds a tolerance of the order `u L²`), and missed whenever it clearly has none. -/
theorem C108_hits (hu : 0 ≤ u) (hu6 : u ≤ 1e-6) {L R : ℝ} {ray : Ray} {hits : EReal × EReal} (hw : Spec.Within L R ray) (h : SphereR u R ray hits) :
    (hits = (⊤, ⊤) ∧ Spec.reach R ray ≤ 23 * u * L ^ 2) ∨
      ∃ t0 t1 : ℝ, hits = ((t0 : EReal), (t1 : EReal)) ∧ -(23 * u * L ^ 2) ≤ Spec.reach R ray ∧
        ∀ t, t = t0 ∨ t = t1 → |Spec.offSphere R (ray.o + t • ray.d)| ≤ 110 * u * L ^ 2 ∧ |t| ≤ 2.45 * L := by
  have hL : 0 < L := by linarith [hw.one_le]
  have hLi : 0 < L⁻¹ := inv_pos.2 hL
  set h' := h.scale hu hLi (inv_le_one' hw.one_le) with hh'
  obtain ⟨e1, e2⟩ := h'.small hu hu6 hw.small
  have hdisc : h'.disc = L⁻¹ ^ 2 * h.disc := rfl
  have ht0 : h'.t0 = L⁻¹ * h.t0 := rfl
  have ht1 : h'.t1 = L⁻¹ * h.t1 := rfl
  rw [hdisc] at e1
  simp only [hdisc, ht0, ht1] at e2
  have e3 : |h.disc - 4 * Spec.reach R ray| ≤ 90 * u * L ^ 2 := by
    have : L⁻¹ ^ 2 * |h.disc - 4 * Spec.reach R ray| ≤ 90 * u := by
      have heq : L⁻¹ ^ 2 * (h.disc - 4 * Spec.reach R ray) =
          L⁻¹ ^ 2 * h.disc - ((2 * dot3 ray.d (L⁻¹ • ray.o)) ^ 2 - 4 * dot3 ray.d ray.d * (dot3 (L⁻¹ • ray.o) (L⁻¹ • ray.o) - (L⁻¹ * R) ^ 2)) := by
        rw [dot3_smul, dot3_smul_smul, Spec.reach, offSphere_eq]
        simp only [dot3]; ring
      rw [← abs_of_pos (a := L⁻¹ ^ 2) (by positivity), ← abs_mul, heq]
      exact e1
    rw [inv_pow, inv_mul_le_iff₀ (by positivity)] at this
    linarith
  have e4 := abs_le.1 e3
  have hnn : 0 ≤ u * L ^ 2 := by positivity
  by_cases hd : 0 ≤ h.disc
  · right
    refine ⟨h.t0, h.t1, h.hhits.trans (if_pos hd), by linarith [e4.2], fun t ht => ?_⟩
    have e5 := e2 (by positivity) (L⁻¹ * t) (by rcases ht with rfl | rfl <;> simp)
    constructor
    · have : L⁻¹ ^ 2 * |Spec.offSphere R (ray.o + t • ray.d)| ≤ 110 * u := by
        have heq : L⁻¹ ^ 2 * Spec.offSphere R (ray.o + t • ray.d) =
            dot3 ray.d ray.d * (L⁻¹ * t) ^ 2 + 2 * dot3 ray.d (L⁻¹ • ray.o) * (L⁻¹ * t) + (dot3 (L⁻¹ • ray.o) (L⁻¹ • ray.o) - (L⁻¹ * R) ^ 2) := by
          rw [dot3_smul, dot3_smul_smul, Spec.offSphere]
          simp only [dot3, Pi.add_apply, Pi.smul_apply, smul_eq_mul]; ring
        rw [← abs_of_pos (a := L⁻¹ ^ 2) (by positivity), ← abs_mul, heq]
        exact e5.1
      rw [inv_pow, inv_mul_le_iff₀ (by positivity)] at this
      linarith
    · have := e5.2
      rw [abs_mul, abs_of_pos hLi, inv_mul_le_iff₀ hL, mul_comm] at this
      exact this
  · left
    refine ⟨h.hhits.trans (if_neg hd), ?_⟩
    push Not at hd
    linarith [e4.1]

/-- **C108 (2).** From a start clearly inside the sphere, exactly one of the two hits lies ahead. -/
theorem C108_inside (hu : 0 ≤ u) (hu6 : u ≤ 1e-6) {L R : ℝ} {ray : Ray} {hits : EReal × EReal} (hw : Spec.Within L R ray) (h : SphereR u R ray hits)
    (hin : Spec.offSphere R ray.o < -(20 * u * L ^ 2)) : ∃ t0 t1 : ℝ, hits = ((t0 : EReal), (t1 : EReal)) ∧ 0 < t0 ∧ t1 < 0 := by
  have hL : 0 < L := by linarith [hw.one_le]
  have hLi : 0 < L⁻¹ := inv_pos.2 hL
  obtain ⟨h1, h2, h3⟩ := (h.scale hu hLi (inv_le_one' hw.one_le)).inside hu hu6 hw.small (by
    show dot3 (L⁻¹ • ray.o) (L⁻¹ • ray.o) - (L⁻¹ * R) ^ 2 < -(20 * u)
    rw [offSphere_eq] at hin
    rw [dot3_smul_smul, mul_pow, ← mul_sub, inv_pow, inv_mul_lt_iff₀ (by positivity)]
    linarith)
  replace h1 : 0 ≤ L⁻¹ ^ 2 * h.disc := h1
  replace h2 : 0 < L⁻¹ * h.t0 := h2
  replace h3 : L⁻¹ * h.t1 < 0 := h3
  refine ⟨h.t0, h.t1, h.hhits.trans (if_pos (nonneg_of_mul_nonneg_right h1 (by positivity))), (mul_pos_iff_of_pos_left hLi).1 h2, ?_⟩
  by_contra hn
  push Not at hn
  linarith [mul_nonneg hLi.le hn]

/-- **C108 (3).** From a start clearly outside the sphere, moving away from it, no hit lies ahead. -/
theorem C108_away (hu : 0 ≤ u) (hu6 : u ≤ 1e-6) {L R : ℝ} {ray : Ray} {hits : EReal × EReal} (hw : Spec.Within L R ray) (h : SphereR u R ray hits)
    (hout : 20 * u * L ^ 2 < Spec.offSphere R ray.o) (haway : 0 ≤ ray.d 0 * ray.o 0 + ray.d 1 * ray.o 1 + ray.d 2 * ray.o 2) :
    hits = (⊤, ⊤) ∨ ∃ t0 t1 : ℝ, hits = ((t0 : EReal), (t1 : EReal)) ∧ t0 < 0 ∧ t1 < 0 := by
  have hL : 0 < L := by linarith [hw.one_le]
  have hLi : 0 < L⁻¹ := inv_pos.2 hL
  by_cases hd : 0 ≤ h.disc
  · right
    obtain ⟨h2, h3⟩ := (h.scale hu hLi (inv_le_one' hw.one_le)).away hu hu6 hw.small (by
      show 20 * u < dot3 (L⁻¹ • ray.o) (L⁻¹ • ray.o) - (L⁻¹ * R) ^ 2
      rw [offSphere_eq] at hout
      rw [dot3_smul_smul, mul_pow, ← mul_sub, inv_pow, lt_inv_mul_iff₀ (by positivity)]
      linarith) (by
      show 0 ≤ dot3 ray.d (L⁻¹ • ray.o)
      rw [dot3_smul]
      exact mul_nonneg hLi.le haway) (by
      show 0 ≤ L⁻¹ ^ 2 * h.disc
      positivity)
    replace h2 : L⁻¹ * h.t0 < 0 := h2
    replace h3 : L⁻¹ * h.t1 < 0 := h3
    refine ⟨h.t0, h.t1, h.hhits.trans (if_pos hd), ?_, ?_⟩ <;>
    · by_contra hn
      push Not at hn
      linarith [mul_nonneg hLi.le hn]
  · left
    exact h.hhits.trans (if_neg hd)

/-- **C108 (4).** The point to which the tracer advances a ray lies on the sphere up to `120 u L²`. -/
theorem C108_advance (hu : 0 ≤ u) (hu6 : u ≤ 1e-6) {L R t : ℝ} {ray : Ray} {hits : EReal × EReal} {p : Vec4} (hw : Spec.Within L R ray) (h : SphereR u R ray hits)
    (ht : hits.1 = (t : EReal) ∨ hits.2 = (t : EReal)) (hp : AdvanceR u ray t p) : |Spec.offSphere R p| ≤ 120 * u * L ^ 2 := by
  have hL : 0 < L := by linarith [hw.one_le]
  have hLi : 0 < L⁻¹ := inv_pos.2 hL
  obtain ⟨hh, -⟩ | ⟨t0, t1, hh, -, hr⟩ := C108_hits hu hu6 hw h
  · rw [hh] at ht; rcases ht with ht | ht <;> exact absurd ht (EReal.coe_ne_top t).symm
  obtain ⟨hr1, hr2⟩ := hr t (by
    rw [hh] at ht
    rcases ht with ht | ht
    · exact Or.inl (EReal.coe_eq_coe_iff.1 ht).symm
    · exact Or.inr (EReal.coe_eq_coe_iff.1 ht).symm)
  have hs := hw.small
  have hp' := AdvanceR.scale hu hLi.le (inv_le_one' hw.one_le) (o := ray.o) (d := ray.d) hp
  have hd2 : dot3 ray.d ray.d ≤ 1.001 := by linarith [(abs_le.1 hs.hd).2, show dot3 (⟨L⁻¹ • ray.o, ray.d⟩ : Ray).d (⟨L⁻¹ • ray.o, ray.d⟩ : Ray).d = dot3 ray.d ray.d from rfl]
  have hd3 : norm4 (cut ray.d) ≤ 1.001 := norm4_cut_le (by norm_num) (by norm_num at hd2 ⊢; linarith)
  have htl : |L⁻¹ * t| ≤ 2.45 := by
    rw [abs_mul, abs_of_pos hLi, inv_mul_le_iff₀ hL]; linarith
  have hT : norm4 (cut ((L⁻¹ * t) • ray.d)) ≤ 2.453 := by
    rw [cut_smul, norm4_smul]
    exact (mul_le_mul htl hd3 (norm4_nonneg _) (by norm_num)).trans (by norm_num)
  have hP : L⁻¹ • ray.o + (L⁻¹ * t) • ray.d = L⁻¹ • (ray.o + t • ray.d) := by rw [smul_add, smul_smul]
  have hR2 : R ^ 2 ≤ L ^ 2 := by rw [← sq_abs]; exact pow_le_pow_left₀ (abs_nonneg _) hw.radius 2
  have hB : norm4 (cut (L⁻¹ • ray.o + (L⁻¹ * t) • ray.d)) ≤ 1.001 := by
    refine norm4_cut_le (by norm_num) ?_
    rw [hP, dot3_smul_smul, inv_pow, inv_mul_le_iff₀ (by positivity)]
    have h1 := (abs_le.1 hr1).2
    rw [offSphere_eq] at h1
    have h2 : 110 * u * L ^ 2 ≤ 0.00011 * L ^ 2 := mul_le_mul_of_nonneg_right (by norm_num at hu6 ⊢; linarith) (by positivity)
    have h3 : 0 < L ^ 2 := by positivity
    norm_num at h2 ⊢
    linarith
  have e1 := hp'.err hu hu6 hT (by norm_num) hB (by norm_num) (by norm_num)
  have e2 := sq_err (m := 7) hu hu6 e1 (by norm_num) hB (by norm_num)
  show |Spec.offSphere R p| ≤ _
  replace e2 : |dot3 (L⁻¹ • p) (L⁻¹ • p) - dot3 (L⁻¹ • ray.o + (L⁻¹ * t) • ray.d) (L⁻¹ • ray.o + (L⁻¹ * t) • ray.d)| ≤ 7 * u := e2
  rw [hP, dot3_smul_smul, dot3_smul_smul, ← mul_sub, abs_mul, abs_of_pos (a := L⁻¹ ^ 2) (by positivity), inv_pow, inv_mul_le_iff₀ (by positivity)] at e2
  have e3 := abs_add_le (dot3 p p - dot3 (ray.o + t • ray.d) (ray.o + t • ray.d)) (Spec.offSphere R (ray.o + t • ray.d))
  rw [offSphere_eq, sub_add_sub_cancel, ← offSphere_eq, ← offSphere_eq] at e3
  have : 0 ≤ u * L ^ 2 := by positivity
  linarith

set_option maxHeartbeats 1000000 in
/-- **C108 (5).** Why the tracer moves rays off the surfaces they hit. A ray that has been advanced to a sphere, takes the new direction `w` there and is moved off by `η`: if `w` points inwards,
`2 η (p·w) < -(1.01 η² + 150 u L²)`, then of the two hits computed from there exactly one lies ahead (so it does not meet the surface at the same place again, and does not escape); if it points
outwards, `2 η (p·w) > 150 u L²`, none lies ahead. -/
theorem C108_offset (hu : 0 ≤ u) (hu6 : u ≤ 1e-6) {L R η : ℝ} {p w p' : Vec4} {hits : EReal × EReal} (hL1 : 1 ≤ L) (hR : |R| ≤ 0.99 * L)
    (hw : |w 0 ^ 2 + w 1 ^ 2 + w 2 ^ 2 - 1| ≤ 0.001) (hp : |Spec.offSphere R p| ≤ 120 * u * L ^ 2) (hη : 0 ≤ η) (hη2 : η ≤ 0.001)
    (hp' : AdvanceR u ⟨p, w⟩ η p') (h : SphereR u R ⟨p', w⟩ hits) :
    (2 * η * (p 0 * w 0 + p 1 * w 1 + p 2 * w 2) < -(1.01 * η ^ 2 + 150 * u * L ^ 2) → ∃ t0 t1 : ℝ, hits = ((t0 : EReal), (t1 : EReal)) ∧ 0 < t0 ∧ t1 < 0) ∧
    (150 * u * L ^ 2 < 2 * η * (p 0 * w 0 + p 1 * w 1 + p 2 * w 2) → hits = (⊤, ⊤) ∨ ∃ t0 t1 : ℝ, hits = ((t0 : EReal), (t1 : EReal)) ∧ t0 < 0 ∧ t1 < 0) := by
  have hL : 0 < L := by linarith
  have hLi : 0 < L⁻¹ := inv_pos.2 hL
  have hL2 : 0 ≤ u * L ^ 2 := by positivity
  have hw2 : |dot3 w w - 1| ≤ 0.001 := by simpa only [dot3, ← sq] using hw
  have hw3 := abs_le.1 hw2
  have hpw : p 0 * w 0 + p 1 * w 1 + p 2 * w 2 = dot3 p w := rfl
  rw [hpw]
  have hP1 := abs_le.1 hp
  rw [offSphere_eq] at hP1
  have hR2 : R ^ 2 ≤ 0.9801 * L ^ 2 := by
    rw [← sq_abs]
    exact (pow_le_pow_left₀ (abs_nonneg _) hR 2).trans (by rw [mul_pow]; norm_num)
  have hu' : u * L ^ 2 ≤ 1e-6 * L ^ 2 := mul_le_mul_of_nonneg_right hu6 (by positivity)
  norm_num at hu'
  have hp2 : dot3 (L⁻¹ • p) (L⁻¹ • p) ≤ 0.9803 := by
    rw [dot3_smul_smul, inv_pow, inv_mul_le_iff₀ (by positivity)]
    linarith
  have hpn : norm4 (cut (L⁻¹ • p)) ≤ 0.991 := norm4_cut_le (by norm_num) (by norm_num at hp2 ⊢; linarith)
  have hwn : norm4 (cut w) ≤ 1.001 := norm4_cut_le (by norm_num) (by norm_num at hw3 ⊢; linarith)
  have hη3 : |L⁻¹ * η| ≤ 0.001 := by
    rw [abs_mul, abs_of_pos hLi, abs_of_nonneg hη, inv_mul_le_iff₀ hL]; nlinarith
  have hT : norm4 (cut ((L⁻¹ * η) • w)) ≤ 0.0011 := by
    rw [cut_smul, norm4_smul]
    exact (mul_le_mul hη3 hwn (norm4_nonneg _) (by norm_num)).trans (by norm_num)
  have hB : norm4 (cut (L⁻¹ • p + (L⁻¹ * η) • w)) ≤ 0.9921 := by
    rw [cut_add]
    exact (norm4_add_le _ _).trans (by linarith)
  have hp'' := AdvanceR.scale hu hLi.le (inv_le_one' hL1) hp'
  have e1 := hp''.err hu hu6 hT (by norm_num) hB (by norm_num) (by norm_num)
  have e2 := sq_err (m := 2) hu hu6 e1 (by norm_num) hB (by norm_num)
  have hP : L⁻¹ • p + (L⁻¹ * η) • w = L⁻¹ • (p + η • w) := by rw [smul_add, smul_smul]
  replace e2 : |dot3 (L⁻¹ • p') (L⁻¹ • p') - dot3 (L⁻¹ • p + (L⁻¹ * η) • w) (L⁻¹ • p + (L⁻¹ * η) • w)| ≤ 2 * u := e2
  rw [hP, dot3_smul_smul, dot3_smul_smul, ← mul_sub, abs_mul, abs_of_pos (a := L⁻¹ ^ 2) (by positivity), inv_pow, inv_mul_le_iff₀ (by positivity)] at e2
  have e3 : dot3 (p + η • w) (p + η • w) = dot3 p p + 2 * η * dot3 p w + η ^ 2 * dot3 w w := by
    simp only [dot3, Pi.add_apply, Pi.smul_apply, smul_eq_mul]; ring
  rw [e3] at e2
  have e4 := abs_le.1 e2
  have hww : 0 ≤ dot3 w w := by linarith
  have hwη : η ^ 2 * dot3 w w ≤ 1.001 * η ^ 2 := by nlinarith [sq_nonneg η]
  have hwη0 : 0 ≤ η ^ 2 * dot3 w w := by positivity
  have hstart : dot3 p' p' ≤ L ^ 2 := by
    have h1 : norm4 (cut (L⁻¹ • p')) ≤ 1 := by
      have h2 : norm4 (cut (L⁻¹ • p') - cut (L⁻¹ • p + (L⁻¹ * η) • w)) ≤ _ := e1
      have h3 := (abs_le.1 (abs_norm4_sub_le (cut (L⁻¹ • p')) (cut (L⁻¹ • p + (L⁻¹ * η) • w)))).2
      norm_num at hu6
      linarith
    have h2 := pow_le_pow_left₀ (norm4_nonneg _) h1 2
    rwa [norm4_cut_sq, dot3_smul_smul, inv_pow, one_pow, inv_mul_le_iff₀ (by positivity), mul_one] at h2
  have hin : Spec.Within L R ⟨p', w⟩ := by
    refine ⟨hL1, ?_, by linarith, hw⟩
    simp only [dot3] at hstart
    simp only; linarith
  constructor
  · intro hneg
    refine C108_inside hu hu6 hin h ?_
    rw [offSphere_eq]
    nlinarith [sq_nonneg η]
  · intro hpos
    refine C108_away hu hu6 hin h ?_ ?_
    · rw [offSphere_eq]
      linarith
    · show 0 ≤ dot3 w p'
      have hη0 : 0 < η := by
        rcases hη.eq_or_lt with h0 | h0
        · rw [← h0] at hpos; linarith
        · exact h0
      -- the scaled step
      have h1 : norm4 (cut (L⁻¹ • p') - cut (L⁻¹ • (p + η • w))) ≤ 1 * u := by
        rw [← hP]
        have h2 : norm4 (cut (L⁻¹ • p') - cut (L⁻¹ • p + (L⁻¹ * η) • w)) ≤ _ := e1
        linarith
      have h2 : |dot3 w (L⁻¹ • p') - dot3 w (L⁻¹ • (p + η • w))| ≤ 1.001 * u := by
        have h3 := abs_dot4_le (cut w) (cut (L⁻¹ • p') - cut (L⁻¹ • (p + η • w)))
        have h4 : dot4 (cut w) (cut (L⁻¹ • p') - cut (L⁻¹ • (p + η • w))) = dot3 w (L⁻¹ • p') - dot3 w (L⁻¹ • (p + η • w)) := by
          simp [dot4, dot3, cut, vector]; ring
        rw [h4] at h3
        exact h3.trans ((mul_le_mul hwn h1 (norm4_nonneg _) (by norm_num)).trans (by linarith))
      rw [dot3_smul, dot3_smul, ← mul_sub, abs_mul, abs_of_pos hLi, inv_mul_le_iff₀ hL] at h2
      have h5 : dot3 w (p + η • w) = dot3 p w + η * dot3 w w := by
        simp only [dot3, Pi.add_apply, Pi.smul_apply, smul_eq_mul]; ring
      rw [h5] at h2
      have h6 := (abs_le.1 h2).1
      have h7 : 150 * u * L ^ 2 ≤ 0.002 * dot3 p w := by
        have h10 : 0 < 2 * η * dot3 p w := by linarith
        have h11 : 0 < dot3 p w := (mul_pos_iff_of_pos_left (by linarith)).1 h10
        have h12 : η * dot3 p w ≤ 0.001 * dot3 p w := mul_le_mul_of_nonneg_right hη2 h11.le
        linarith
      have h8 : u * L ≤ u * L ^ 2 := by nlinarith [mul_nonneg hu hL.le]
      have h9 : 0 ≤ η * dot3 w w := by positivity
      linarith

/-- **C108 (6).** In terms of the distance from the surface: the tracer puts the ray within `120 u L² / R` of it. -/
theorem C108_distance (hu : 0 ≤ u) (hu6 : u ≤ 1e-6) {L R t : ℝ} {ray : Ray} {hits : EReal × EReal} {p : Vec4} (hw : Spec.Within L R ray) (hR : 0 < R) (h : SphereR u R ray hits)
    (ht : hits.1 = (t : EReal) ∨ hits.2 = (t : EReal)) (hp : AdvanceR u ray t p) : |√(p 0 ^ 2 + p 1 ^ 2 + p 2 ^ 2) - R| ≤ 120 * u * L ^ 2 / R := by
  have h1 := C108_advance hu hu6 hw h ht hp
  set s := √(p 0 ^ 2 + p 1 ^ 2 + p 2 ^ 2) with hs
  have hs0 : 0 ≤ s := Real.sqrt_nonneg _
  have hs2 : s ^ 2 = p 0 ^ 2 + p 1 ^ 2 + p 2 ^ 2 := Real.sq_sqrt (by positivity)
  rw [Spec.offSphere, ← hs2, show s ^ 2 - R ^ 2 = (s - R) * (s + R) by ring, abs_mul, abs_of_pos (a := s + R) (by linarith)] at h1
  rw [le_div_iff₀ hR]
  exact (mul_le_mul_of_nonneg_left (by linarith) (abs_nonneg _)).trans h1

/-- **C108 (7).** With doubles, the offset `1e-6` of the tracer and scenes of at most ten units: a ray that leaves the point where it hit the sphere so that `p·w < -2e-6` (inwards) meets the sphere
exactly once more, and one with `p·w > 1e-6` (outwards) does not meet it again. -/
theorem C108_doubles {R : ℝ} {p w p' : Vec4} {hits : EReal × EReal} (hR : |R| ≤ 9.9) (hw : |w 0 ^ 2 + w 1 ^ 2 + w 2 ^ 2 - 1| ≤ 0.001)
    (hp : |Spec.offSphere R p| ≤ 12000 * 2 ^ (-53 : ℤ)) (hp' : AdvanceR (2 ^ (-53 : ℤ)) ⟨p, w⟩ 1e-6 p') (h : SphereR (2 ^ (-53 : ℤ)) R ⟨p', w⟩ hits) :
    (p 0 * w 0 + p 1 * w 1 + p 2 * w 2 < -2e-6 → ∃ t0 t1 : ℝ, hits = ((t0 : EReal), (t1 : EReal)) ∧ 0 < t0 ∧ t1 < 0) ∧
    (1e-6 < p 0 * w 0 + p 1 * w 1 + p 2 * w 2 → hits = (⊤, ⊤) ∨ ∃ t0 t1 : ℝ, hits = ((t0 : EReal), (t1 : EReal)) ∧ t0 < 0 ∧ t1 < 0) := by
  obtain ⟨h1, h2⟩ := C108_offset (u := 2 ^ (-53 : ℤ)) (by positivity) (by norm_num) (L := 10) (η := 1e-6) (by norm_num) (by norm_num at hR ⊢; exact hR) hw (by norm_num at hp ⊢; exact hp)
    (by norm_num) (by norm_num) hp' h
  refine ⟨fun h3 => h1 ?_, fun h3 => h2 ?_⟩
  · norm_num at h3 ⊢; linarith
  · norm_num at h3 ⊢; linarith

/-! ### The relation and the exact model -/

theorem sums3_exact (hu : 0 ≤ u) (v w : Vec4) : SumsTo u [(v 0, w 0), (v 1, w 1), (v 2, w 2)] (v 0 * w 0 + v 1 * w 1 + v 2 * w 2) := by
  have := SumsTo.exact hu (l := [(v 0, w 0), (v 1, w 1), (v 2, w 2)]) (by simp)
  have e : sumProd [(v 0, w 0), (v 1, w 1), (v 2, w 2)] = v 0 * w 0 + v 1 * w 1 + v 2 * w 2 := by simp [sumProd]; ring
  rwa [e] at this

theorem sums3_zero {v w : Vec4} {s : ℝ} (h : SumsTo 0 [(v 0, w 0), (v 1, w 1), (v 2, w 2)] s) : s = v 0 * w 0 + v 1 * w 1 + v 2 * w 2 := by
  have := SumsTo.err le_rfl h
  have e : sumProd [(v 0, w 0), (v 1, w 1), (v 2, w 2)] = v 0 * w 0 + v 1 * w 1 + v 2 * w 2 := by simp [sumProd]; ring
  simp only [add_zero, one_pow, sub_self, zero_mul, abs_nonpos_iff, sub_eq_zero, e] at this
  exact this

/-- the exact computation is one of the rounded ones -/
noncomputable def SphereR.exact (hu : 0 ≤ u) (R : ℝ) (ray : Ray) (hd : ray.d 0 * ray.d 0 + ray.d 1 * ray.d 1 + ray.d 2 * ray.d 2 ≠ 0) : SphereR u R ray (sphereIntersect R ray) where
  a := _
  ha := sums3_exact hu ray.d ray.d
  bd := _
  b := _
  hbd := sums3_exact hu ray.d ray.o
  hb := Rounds.exact hu _
  oo := _
  r2 := _
  c := _
  hoo := sums3_exact hu ray.o ray.o
  hr2 := Rounds.exact hu _
  hc := Rounds.exact hu _
  bb := _
  a4 := _
  ac := _
  disc := _
  hbb := Rounds.exact hu _
  ha4 := Rounds.exact hu _
  hac := Rounds.exact hu _
  hdisc := Rounds.exact hu _
  root := _
  hroot := Rounds.exact hu _
  num0 := _
  num1 := _
  den := _
  t0 := _
  t1 := _
  hnum0 := Rounds.exact hu _
  hnum1 := Rounds.exact hu _
  hden := Rounds.exact hu _
  ht0 := Rounds.exact hu _
  ht1 := Rounds.exact hu _
  hhits := by
    rw [sphereIntersect, if_neg hd, polyRoots]
    simp only [sq]

/-- **C108 (8).** Without rounding the relation is the function of the exact model. -/
theorem C108_exact (R : ℝ) (ray : Ray) (hd : ray.d 0 * ray.d 0 + ray.d 1 * ray.d 1 + ray.d 2 * ray.d 2 ≠ 0) (hits : EReal × EReal) :
    Nonempty (SphereR 0 R ray hits) ↔ hits = sphereIntersect R ray := by
  constructor
  · rintro ⟨h⟩
    obtain ⟨a, ha, bd, b, hbd, hb, oo, r2, c, hoo, hr2, hc, bb, a4, ac, disc, hbb, ha4, hac, hdisc, root, hroot, num0, num1, den, t0, t1, hnum0, hnum1, hden, ht0, ht1, hh⟩ := h
    rw [Rounds.zero] at hb hr2 hc hbb ha4 hac hdisc hroot hnum0 hnum1 hden ht0 ht1
    have ha := sums3_zero ha
    have hbd := sums3_zero hbd
    have hoo := sums3_zero hoo
    rw [hh, sphereIntersect, if_neg hd, polyRoots]
    subst ht0 ht1 hnum0 hnum1 hden hroot hdisc hac ha4 hbb hc hr2 hb ha hbd hoo
    simp only [sq]
  · rintro rfl
    exact ⟨SphereR.exact le_rfl R ray hd⟩

/-- **C108 (9).** The offset is needed: without it (`η = 0`), for every size of the roundoff, a ray from the centre of a spherical mirror may end up just outside of it, and then meets the mirror at
the very place it has just left, at the distance `u`. -/
theorem C108_without_offset (hu : 0 < u) : ∃ p, Nonempty (SphereR u 1 ⟨point 0 0 0, vector 1 0 0⟩ ((1 : ℝ), (-1 : ℝ))) ∧ AdvanceR u ⟨point 0 0 0, vector 1 0 0⟩ 1 p ∧
    AdvanceR u ⟨p, vector (-1) 0 0⟩ 0 p ∧ Nonempty (SphereR u 1 ⟨p, vector (-1) 0 0⟩ ((2 + u : ℝ), (u : ℝ))) := by
  refine ⟨point (1 + u) 0 0, ⟨?_⟩, ⟨vector 1 0 0, fun i => ?_, fun i => ?_⟩, ⟨vector 0 0 0, fun i => ?_, fun i => ?_⟩, ⟨?_⟩⟩
  · have h := SphereR.exact hu.le 1 ⟨point 0 0 0, vector 1 0 0⟩ (by simp [vector])
    have e : sphereIntersect 1 ⟨point 0 0 0, vector 1 0 0⟩ = (((1 : ℝ) : EReal), ((-1 : ℝ) : EReal)) := by
      have h4 : √(4 : ℝ) = 2 := by rw [show (4 : ℝ) = 2 ^ 2 by norm_num, Real.sqrt_sq (by norm_num)]
      simp [sphereIntersect, polyRoots, vector, point, h4]
    rwa [e] at h
  · have e : (1 : ℝ) * vector 1 0 0 i = vector 1 0 0 i := one_mul _
    show Rounds u (1 * vector 1 0 0 i) _
    rw [e]; exact Rounds.exact hu.le _
  · have hm : 0 ≤ u * max 1 u := by positivity
    fin_cases i
    · simp [Rounds, point, vector, abs_of_pos hu, hu]
    all_goals simp [Rounds, point, vector]; try positivity
  · show Rounds u (0 * _) _
    rw [zero_mul]
    fin_cases i <;> simpa [vector] using Rounds.exact hu.le 0
  · have e : vector 0 0 0 i = 0 := by fin_cases i <;> simp [vector]
    rw [e, add_zero]; exact Rounds.exact hu.le _
  · have h := SphereR.exact hu.le 1 ⟨point (1 + u) 0 0, vector (-1) 0 0⟩ (by simp [vector])
    have e : sphereIntersect 1 ⟨point (1 + u) 0 0, vector (-1) 0 0⟩ = (((2 + u : ℝ) : EReal), ((u : ℝ) : EReal)) := by
      have e1 : (2 * (-1 * (1 + u) + 0 * 0 + 0 * 0)) ^ 2 - 4 * (-1 * -1 + 0 * 0 + 0 * 0) * ((1 + u) * (1 + u) + 0 * 0 + 0 * 0 - (1 : ℝ) ^ 2) = 2 ^ 2 := by ring
      have e2 : √(max 0 ((2 : ℝ) ^ 2)) = 2 := by rw [max_eq_right (by norm_num), Real.sqrt_sq (by norm_num)]
      rw [sphereIntersect, if_neg (by simp [vector]), polyRoots, if_pos]
      · simp only [vector, point, Matrix.cons_val_zero, Matrix.cons_val_one, Matrix.cons_val]
        rw [e1, e2]
        congr 2 <;> ring
      · simp only [vector, point, Matrix.cons_val_zero, Matrix.cons_val_one, Matrix.cons_val]
        rw [e1]
        norm_num
    rwa [e] at h

/-! ### Examples -/

/-- a ray that meets a sphere of radius five off its axis, in a scene of size ten -/
theorem within_example : Spec.Within 10 5 ⟨point 3 0 (-8), vector 0 0 1⟩ := by
  refine ⟨by norm_num, ?_, by norm_num, ?_⟩ <;> simp [point, vector] <;> norm_num

theorem exact_example : sphereIntersect 5 ⟨point 3 0 (-8), vector 0 0 1⟩ = (((12 : ℝ) : EReal), ((4 : ℝ) : EReal)) := by
  have e2 : √(64 : ℝ) = 8 := by rw [show (64 : ℝ) = 8 ^ 2 by norm_num, Real.sqrt_sq (by norm_num)]
  simp only [sphereIntersect, polyRoots, vector, point, Matrix.cons_val_zero, Matrix.cons_val_one, Matrix.cons_val]
  norm_num [e2]

/-- a computation in which the last divisions were rounded up and down -/
noncomputable def roundedExample (hu : 0 ≤ u) : SphereR u 5 ⟨point 3 0 (-8), vector 0 0 1⟩ ((12 + 12 * u : ℝ), (4 - 4 * u : ℝ)) :=
  have e2 : √(64 : ℝ) = 8 := by rw [show (64 : ℝ) = 8 ^ 2 by norm_num, Real.sqrt_sq (by norm_num)]
  { SphereR.exact hu 5 ⟨point 3 0 (-8), vector 0 0 1⟩ (by simp [vector]) with
    t0 := 12 + 12 * u
    t1 := 4 - 4 * u
    ht0 := by
      have : (SphereR.exact hu 5 ⟨point 3 0 (-8), vector 0 0 1⟩ (by simp [vector])).num0 / (SphereR.exact hu 5 ⟨point 3 0 (-8), vector 0 0 1⟩ (by simp [vector])).den = 12 := by
        simp only [SphereR.exact, vector, point, Matrix.cons_val_zero, Matrix.cons_val_one, Matrix.cons_val]
        norm_num [e2]
      rw [this, Rounds, add_sub_cancel_left, abs_of_nonneg (by positivity), mul_comm]
      exact mul_le_mul_of_nonneg_left (le_max_of_le_left (by norm_num)) hu
    ht1 := by
      have : (SphereR.exact hu 5 ⟨point 3 0 (-8), vector 0 0 1⟩ (by simp [vector])).num1 / (SphereR.exact hu 5 ⟨point 3 0 (-8), vector 0 0 1⟩ (by simp [vector])).den = 4 := by
        simp only [SphereR.exact, vector, point, Matrix.cons_val_zero, Matrix.cons_val_one, Matrix.cons_val]
        norm_num [e2]
      rw [this, Rounds, show (4 : ℝ) - 4 * u - 4 = -(4 * u) by ring, abs_neg, abs_of_nonneg (by positivity), mul_comm]
      exact mul_le_mul_of_nonneg_left (le_max_of_le_left (by norm_num)) hu
    hhits := by
      rw [if_pos]
      simp only [SphereR.exact, vector, point, Matrix.cons_val_zero, Matrix.cons_val_one, Matrix.cons_val]
      norm_num }

example : |Spec.offSphere 5 (point 3 0 (-8) + (12 + 12 * 2 ^ (-53 : ℤ) : ℝ) • vector 0 0 1)| ≤ 110 * 2 ^ (-53 : ℤ) * 10 ^ 2 := by
  rcases C108_hits (by positivity) (by norm_num) within_example (roundedExample (u := 2 ^ (-53 : ℤ)) (by positivity)) with ⟨h, -⟩ | ⟨t0, t1, h, -, hr⟩
  · exact absurd (congrArg Prod.fst h) (EReal.coe_ne_top _)
  · refine (hr _ (Or.inl ?_)).1
    exact EReal.coe_eq_coe_iff.1 (congrArg Prod.fst h)

/-- a mirror ball hit from inside: the ray comes back along (-0.6, -0.8, 0) from the point (1, 0, 0) -/
example : ∃ t0 t1 : ℝ, sphereIntersect 1 ⟨point (1 - 0.6e-6) (-0.8e-6) 0, vector (-0.6) (-0.8) 0⟩ = ((t0 : EReal), (t1 : EReal)) ∧ 0 < t0 ∧ t1 < 0 := by
  refine (C108_doubles (R := 1) (p := point 1 0 0) (w := vector (-0.6) (-0.8) 0) (p' := point (1 - 0.6e-6) (-0.8e-6) 0) (by norm_num) (by simp [vector]; norm_num)
    (by simp [Spec.offSphere, point]) ⟨vector (-0.6e-6) (-0.8e-6) 0, fun i => ?_, fun i => ?_⟩ (SphereR.exact (by positivity) _ _ (by simp [vector]; norm_num))).1
    (by simp [point, vector]; norm_num)
  · have e : (1e-6 : ℝ) * vector (-0.6) (-0.8) 0 i = vector (-0.6e-6) (-0.8e-6) 0 i := by fin_cases i <;> simp [vector] <;> norm_num
    show Rounds _ (1e-6 * vector (-0.6) (-0.8) 0 i) _
    rw [e]; exact Rounds.exact (by positivity) _
  · have e : point 1 0 0 i + vector (-0.6e-6) (-0.8e-6) 0 i = point (1 - 0.6e-6) (-0.8e-6) 0 i := by fin_cases i <;> simp [vector, point] <;> norm_num
    show Rounds _ (point 1 0 0 i + vector (-0.6e-6) (-0.8e-6) 0 i) _
    rw [e]; exact Rounds.exact (by positivity) _

/-- a ball passed on the way out -/
example : sphereIntersect 1 ⟨point 0 2 0, vector 0.6 0.8 0⟩ = (⊤, ⊤) ∨
    ∃ t0 t1 : ℝ, sphereIntersect 1 ⟨point 0 2 0, vector 0.6 0.8 0⟩ = ((t0 : EReal), (t1 : EReal)) ∧ t0 < 0 ∧ t1 < 0 :=
  C108_away (u := 2 ^ (-53 : ℤ)) (L := 10) (by positivity) (by norm_num) ⟨by norm_num, by simp [point]; norm_num, by norm_num, by simp [vector]; norm_num⟩
    (SphereR.exact (by positivity) _ _ (by simp [vector]; norm_num)) (by simp [Spec.offSphere, point]; norm_num) (by simp [point, vector]; norm_num)

/-- where the tracer puts the ray -/
example : |√((point 3 0 (4 + 12 * 2 ^ (-53 : ℤ))) 0 ^ 2 + (point 3 0 (4 + 12 * 2 ^ (-53 : ℤ))) 1 ^ 2 + (point 3 0 (4 + 12 * 2 ^ (-53 : ℤ))) 2 ^ 2) - 5| ≤ 120 * 2 ^ (-53 : ℤ) * 10 ^ 2 / 5 := by
  refine C108_distance (u := 2 ^ (-53 : ℤ)) (by positivity) (by norm_num) within_example (by norm_num) (roundedExample (by positivity)) (Or.inl rfl)
    ⟨vector 0 0 (12 + 12 * 2 ^ (-53 : ℤ)), fun i => ?_, fun i => ?_⟩
  · have e : (12 + 12 * 2 ^ (-53 : ℤ) : ℝ) * vector 0 0 1 i = vector 0 0 (12 + 12 * 2 ^ (-53 : ℤ)) i := by fin_cases i <;> simp [vector]
    show Rounds _ ((12 + 12 * 2 ^ (-53 : ℤ) : ℝ) * vector 0 0 1 i) _
    rw [e]; exact Rounds.exact (by positivity) _
  · have e : point 3 0 (-8) i + vector 0 0 (12 + 12 * 2 ^ (-53 : ℤ)) i = point 3 0 (4 + 12 * 2 ^ (-53 : ℤ)) i := by fin_cases i <;> simp [vector, point]; ring
    show Rounds _ (point 3 0 (-8) i + vector 0 0 (12 + 12 * 2 ^ (-53 : ℤ)) i) _
    rw [e]; exact Rounds.exact (by positivity) _

end PyRayT
