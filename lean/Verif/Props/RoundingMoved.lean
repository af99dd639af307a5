import Verif.Props.RoundingPlane
import Verif.Proofs.Moved
import Verif.Proofs.Placed

/-!
# Property C112, continued: spheres that have been moved; the relations without rounding; examples
-/

namespace PyRayT

open Classical

variable {u : ℝ}

/-- the computed ray is within the scene of the sphere -/
theorem LocalR.within (hu : 0 ≤ u) (hu6 : u ≤ 1e-6) {L R : ℝ} {M : Mat4} {o d : Vec4} {loc : Ray} (hL : 1 ≤ L) (hM : Spec.Placed L M) (hl : LocalR u M ⟨o, d⟩ loc) (ho : norm4 (cut o) ≤ 1.002 * L)
    (ho3 : o 3 = 1) (hd : |d 0 ^ 2 + d 1 ^ 2 + d 2 ^ 2 - 1| ≤ 0.0001) (hd3 : d 3 = 0) (hR : |R| ≤ L) :
    norm4 (cut loc.o - Spec.seen M o) ≤ 16.1 * u * L ∧ norm4 (cut loc.d - Spec.facing M d) ≤ 8.02 * u ∧ Spec.Within (2.01 * L) R loc := by
  have hL0 : 0 < L := by linarith
  have h1 := norm4_cut_sub_le (by positivity) (hl.1.point_err hu hu6 hM hL (ho.trans (by norm_num; linarith)) ho3)
  have h2 := norm4_cut_sub_le (by positivity) (hl.2.dir_err hu hu6 hM hL0.le ((unit_le hd).trans (by norm_num)) hd3)
  have hd' := hl.2.unit hu hu6 hM hL0.le hd hd3
  rw [cut_seen] at h1
  rw [cut_facing] at h2
  replace h1 : norm4 (cut loc.o - Spec.seen M o) ≤ 16.1 * u * L := h1.trans (le_of_eq (by ring))
  replace h2 : norm4 (cut loc.d - Spec.facing M d) ≤ 8.02 * u := h2.trans (le_of_eq (by ring))
  refine ⟨h1, h2, by linarith, ?_, hR.trans (by linarith), ?_⟩
  · have h3 := hM.seen_le hL0.le ho
    have h4 := norm4_add_le (cut loc.o - Spec.seen M o) (Spec.seen M o)
    rw [sub_add_cancel] at h4
    have h6 : u * L ≤ 1e-6 * L := mul_le_mul_of_nonneg_right hu6 hL0.le
    have h5 : norm4 (cut loc.o) ≤ 2.01 * L := by norm_num at h1 h3 h6 ⊢; linarith
    have h7 := pow_le_pow_left₀ (norm4_nonneg _) h5 2
    rw [norm4_cut_sq, dot3] at h7
    linarith
  · simpa only [dot3, ← sq] using hd'

theorem dot3_seen (M : Mat4) (p : Vec4) : dot3 (Spec.seen M p) (Spec.seen M p) = norm4 (Spec.seen M p) ^ 2 := by
  rw [← norm4_cut_sq, cut_seen]

set_option maxHeartbeats 1000000 in
/-- **C112 (5).** Hits of a sphere that has been moved and turned: the place to which the tracer advances the ray lies on it up to `600 u L²` (in the square of the distance from the centre). -/
theorem C112_sphere (hu : 0 ≤ u) (hu6 : u ≤ 1e-6) {L R t : ℝ} {M : Mat4} {ray loc : Ray} {hits : EReal × EReal} {p : Vec4} (hs : Spec.Scene L ray) (hM : Spec.Placed L M) (hR : |R| ≤ L)
    (hl : LocalR u M ray loc) (h : SphereR u R loc hits) (ht : hits.1 = (t : EReal) ∨ hits.2 = (t : EReal)) (hp : AdvanceR u ray t p) :
    |Spec.offSphere R (Spec.seen M p)| ≤ 600 * u * L ^ 2 ∧ |t| ≤ 4.93 * L := by
  have hL := hs.one_le
  have hL0 : 0 < L := by linarith
  obtain ⟨a1, a2, hw⟩ := LocalR.within hu hu6 hL hM (o := ray.o) (d := ray.d) hl (hs.start'.trans (by linarith)) hs.isPoint hs.length hs.isVector hR
  obtain ⟨hh, -⟩ | ⟨t0, t1, hh, -, hr⟩ := C108_hits hu hu6 hw h
  · rw [hh] at ht; rcases ht with ht | ht <;> exact absurd ht (EReal.coe_ne_top t).symm
  obtain ⟨hr1, hr2⟩ := hr t (by
    rw [hh] at ht
    rcases ht with ht | ht
    · exact Or.inl (EReal.coe_eq_coe_iff.1 ht).symm
    · exact Or.inr (EReal.coe_eq_coe_iff.1 ht).symm)
  have ht2 : |t| ≤ 4.93 * L := hr2.trans (by norm_num; linarith)
  have hd := unit_le hs.length
  have hT : norm4 (cut (t • ray.d)) ≤ 4.931 * L := by
    rw [cut_smul, norm4_smul]
    have := mul_le_mul ht2 hd (norm4_nonneg _) (by positivity)
    norm_num at this ⊢
    linarith
  have hB : norm4 (cut (ray.o + t • ray.d)) ≤ 5.931 * L := by
    rw [cut_add]
    have := norm4_add_le (cut ray.o) (cut (t • ray.d))
    have := hs.start'
    linarith
  have e1 := hp.err_scene hu hu6 hL hT (by norm_num) hB (by norm_num) (by norm_num)
  have e2 := hM.facing_le (p - (ray.o + t • ray.d))
  rw [cut_vsub] at e2
  have e3 : Spec.facing M (p - (ray.o + t • ray.d)) = Spec.seen M p - (Spec.seen M ray.o + t • Spec.facing M ray.d) := by
    rw [← Spec.seen_step, Spec.seen_sub, ← cut_vsub, Spec.facing_cut]
  rw [e3] at e2
  -- the computed place in the coordinates of the sphere
  set x := loc.o + t • loc.d with hx
  have e4 : norm4 (cut x - (Spec.seen M ray.o + t • Spec.facing M ray.d)) ≤ 55.7 * u * L := by
    have c1 : cut x - (Spec.seen M ray.o + t • Spec.facing M ray.d) = (cut loc.o - Spec.seen M ray.o) + t • (cut loc.d - Spec.facing M ray.d) := by
      rw [hx, cut_add, cut_smul, smul_sub]; abel
    rw [c1]
    have c2 := norm4_add_le (cut loc.o - Spec.seen M ray.o) (t • (cut loc.d - Spec.facing M ray.d))
    rw [norm4_smul] at c2
    have c3 : |t| * norm4 (cut loc.d - Spec.facing M ray.d) ≤ 4.93 * L * (8.02 * u) := mul_le_mul ht2 a2 (norm4_nonneg _) (by positivity)
    have : 0 ≤ u * L := by positivity
    norm_num at a1 c3 ⊢
    linarith
  have e5 : norm4 (Spec.seen M p - cut x) ≤ 66.6 * u * L := by
    have c1 := norm4_sub_le (Spec.seen M p) (Spec.seen M ray.o + t • Spec.facing M ray.d) (cut x)
    rw [norm4_sub_comm (Spec.seen M ray.o + t • Spec.facing M ray.d) (cut x)] at c1
    have : 0 ≤ u * L := by positivity
    norm_num at e1 e2 e4 ⊢
    linarith
  have hx2 : dot3 x x ≤ (1.001 * L) ^ 2 := by
    have c1 := (abs_le.1 hr1).2
    rw [offSphere_eq] at c1
    have c2 : R ^ 2 ≤ L ^ 2 := by rw [← sq_abs]; exact pow_le_pow_left₀ (abs_nonneg _) hR 2
    have c3 : u * L ^ 2 ≤ 1e-6 * L ^ 2 := mul_le_mul_of_nonneg_right hu6 (by positivity)
    have c4 : 0 ≤ L ^ 2 := by positivity
    norm_num at c1 c3 ⊢
    nlinarith
  have hxn : norm4 (cut x) ≤ 1.001 * L := norm4_cut_le (by positivity) hx2
  refine ⟨?_, ht2⟩
  have e6 : |dot3 (Spec.seen M p) (Spec.seen M p) - dot3 x x| ≤ 135 * u * L ^ 2 := by
    rw [dot3_seen, ← norm4_cut_sq, show norm4 (Spec.seen M p) ^ 2 - norm4 (cut x) ^ 2 = (norm4 (Spec.seen M p) - norm4 (cut x)) * (norm4 (Spec.seen M p) + norm4 (cut x)) by ring, abs_mul]
    have c1 := (abs_norm4_sub_le (Spec.seen M p) (cut x)).trans e5
    have c2 := norm4_nonneg (cut x)
    have c3 := norm4_nonneg (Spec.seen M p)
    rw [abs_of_nonneg (a := norm4 (Spec.seen M p) + norm4 (cut x)) (by linarith)]
    have c4 : norm4 (Spec.seen M p) + norm4 (cut x) ≤ 2.0021 * L := by
      have := (abs_le.1 c1).2
      have : u * L ≤ 1e-6 * L := mul_le_mul_of_nonneg_right hu6 hL0.le
      norm_num at *
      linarith
    refine (mul_le_mul c1 c4 (by linarith) (by positivity)).trans ?_
    have : 0 ≤ u * L ^ 2 := by positivity
    norm_num
    nlinarith
  have e7 := abs_add_le (dot3 (Spec.seen M p) (Spec.seen M p) - dot3 x x) (Spec.offSphere R x)
  rw [offSphere_eq R x, sub_add_sub_cancel, ← offSphere_eq, ← offSphere_eq] at e7
  have : 0 ≤ u * L ^ 2 := by positivity
  refine e7.trans ?_
  have hr1' : |Spec.offSphere R x| ≤ 444.411 * u * L ^ 2 := hr1.trans (by norm_num; nlinarith)
  norm_num at e6 hr1' ⊢
  linarith

set_option maxHeartbeats 1000000 in
/-- **C112 (6).** The offset works for spheres that have been moved and turned as well. With `q` and `m` the place of the hit and the new direction in the coordinates of the sphere: if
`2 η (q·m) < -(1.01 η² + 730 u L²)` then exactly one of the two computed hits lies ahead, if `2 η (q·m) > 730 u L²` none. -/
theorem C112_sphere_offset (hu : 0 ≤ u) (hu6 : u ≤ 1e-6) {L R η : ℝ} {M : Mat4} {loc : Ray} {hits : EReal × EReal} {p w p' : Vec4} (hs : Spec.Scene L ⟨p, w⟩) (hM : Spec.Placed L M) (hR : |R| ≤ L)
    (hp : |Spec.offSphere R (Spec.seen M p)| ≤ 600 * u * L ^ 2) (hη : 0 ≤ η) (hη2 : η ≤ 0.001) (hp' : AdvanceR u ⟨p, w⟩ η p') (hp3 : p' 3 = 1)
    (hl : LocalR u M ⟨p', w⟩ loc) (h : SphereR u R loc hits) :
    (2 * η * (Spec.seen M p 0 * Spec.facing M w 0 + Spec.seen M p 1 * Spec.facing M w 1 + Spec.seen M p 2 * Spec.facing M w 2) < -(1.01 * η ^ 2 + 730 * u * L ^ 2) →
      ∃ t0 t1 : ℝ, hits = ((t0 : EReal), (t1 : EReal)) ∧ 0 < t0 ∧ t1 < 0) ∧
    (730 * u * L ^ 2 < 2 * η * (Spec.seen M p 0 * Spec.facing M w 0 + Spec.seen M p 1 * Spec.facing M w 1 + Spec.seen M p 2 * Spec.facing M w 2) →
      hits = (⊤, ⊤) ∨ ∃ t0 t1 : ℝ, hits = ((t0 : EReal), (t1 : EReal)) ∧ t0 < 0 ∧ t1 < 0) := by
  have hL := hs.one_le
  have hL0 : 0 < L := by linarith
  have huL : 0 ≤ u * L := by positivity
  have huL2 : 0 ≤ u * L ^ 2 := by positivity
  have huL6 : u * L ≤ 1e-6 * L := mul_le_mul_of_nonneg_right hu6 hL0.le
  have hd := unit_le hs.length
  have hT : norm4 (cut (η • (⟨p, w⟩ : Ray).d)) ≤ 0.0011 * L := by
    show norm4 (cut (η • w)) ≤ _
    rw [cut_smul, norm4_smul, abs_of_nonneg hη]
    have := mul_le_mul hη2 hd (norm4_nonneg _) (by norm_num)
    norm_num at this ⊢
    linarith
  have hB : norm4 (cut ((⟨p, w⟩ : Ray).o + η • (⟨p, w⟩ : Ray).d)) ≤ 1.0011 * L := by
    rw [cut_add]
    have := norm4_add_le (cut (⟨p, w⟩ : Ray).o) (cut (η • (⟨p, w⟩ : Ray).d))
    have := hs.start'
    norm_num at hT ⊢
    linarith
  have e1 := hp'.err_scene hu hu6 hL hT (by norm_num) hB (by norm_num) (by norm_num)
  replace e1 : norm4 (cut p' - cut (p + η • w)) ≤ (0.0011 + 1.0011 + 0.0001) * u * L := e1
  replace hB : norm4 (cut (p + η • w)) ≤ 1.0011 * L := hB
  have hA : norm4 (cut p') ≤ 1.002 * L := by
    have := norm4_add_le (cut p' - cut (p + η • w)) (cut (p + η • w))
    rw [sub_add_cancel] at this
    norm_num at e1 hB huL6 ⊢
    linarith
  obtain ⟨a1, a2, hin⟩ := LocalR.within hu hu6 hL hM (o := p') (d := w) hl hA hp3 hs.length hs.isVector hR
  have e2 := hM.facing_le (p' - (p + η • w))
  rw [cut_vsub] at e2
  have e3 : Spec.facing M (p' - (p + η • w)) = Spec.seen M p' - (Spec.seen M p + η • Spec.facing M w) := by
    rw [← Spec.seen_step, Spec.seen_sub, ← cut_vsub, Spec.facing_cut]
  rw [e3] at e2
  have hpw : Spec.seen M p 0 * Spec.facing M w 0 + Spec.seen M p 1 * Spec.facing M w 1 + Spec.seen M p 2 * Spec.facing M w 2 = dot3 (Spec.seen M p) (Spec.facing M w) := rfl
  rw [hpw]
  set q := Spec.seen M p with hq
  set m := Spec.facing M w with hm
  have cq : cut q = q := cut_seen M p
  have cm : cut m = m := cut_facing M w
  have e4 : norm4 (cut loc.o - (q + η • m)) ≤ 17.2 * u * L := by
    have c1 := norm4_sub_le (cut loc.o) (Spec.seen M p') (q + η • m)
    norm_num at a1 e1 e2 ⊢
    linarith
  have hqq : norm4 q ^ 2 = dot3 q q := by rw [← norm4_cut_sq, cq]
  have hmm : norm4 m ^ 2 = dot3 m m := by rw [← norm4_cut_sq, cm]
  have hR2 : R ^ 2 ≤ L ^ 2 := by rw [← sq_abs]; exact pow_le_pow_left₀ (abs_nonneg _) hR 2
  have hP := abs_le.1 hp
  rw [offSphere_eq] at hP
  have huL26 : u * L ^ 2 ≤ 1e-6 * L ^ 2 := mul_le_mul_of_nonneg_right hu6 (by positivity)
  have hqn : norm4 q ≤ 1.0005 * L := by
    refine (abs_le_of_sq_le_sq' ?_ (by positivity)).2
    rw [hqq, mul_pow]
    have : 0 ≤ L ^ 2 := by positivity
    norm_num at huL26 ⊢
    linarith
  have hmn : norm4 m ≤ 1.001 := by
    have := hM.facing_le w
    norm_num at this hd ⊢
    linarith
  have hmn2 : dot3 m m ≤ 1.0021 := by
    rw [← hmm]
    exact (pow_le_pow_left₀ (norm4_nonneg _) hmn 2).trans (by norm_num)
  have hm0 : 0 ≤ dot3 m m := by rw [← hmm]; positivity
  have hsum : norm4 (q + η • m) ≤ 1.0017 * L := by
    have c1 := norm4_add_le q (η • m)
    rw [norm4_smul, abs_of_nonneg hη] at c1
    have c2 := mul_le_mul hη2 hmn (norm4_nonneg _) (by norm_num)
    norm_num at c2 hqn ⊢
    linarith
  have e5 : |dot3 loc.o loc.o - dot3 (q + η • m) (q + η • m)| ≤ 35 * u * L ^ 2 := by
    have c0 : dot3 (q + η • m) (q + η • m) = norm4 (q + η • m) ^ 2 := by rw [← norm4_cut_sq, cut_add, cut_smul, cq, cm]
    rw [c0, ← norm4_cut_sq, show norm4 (cut loc.o) ^ 2 - norm4 (q + η • m) ^ 2 = (norm4 (cut loc.o) - norm4 (q + η • m)) * (norm4 (cut loc.o) + norm4 (q + η • m)) by ring, abs_mul]
    have c1 := (abs_norm4_sub_le (cut loc.o) (q + η • m)).trans e4
    have c2 := norm4_nonneg (q + η • m)
    have c3 := norm4_nonneg (cut loc.o)
    rw [abs_of_nonneg (a := norm4 (cut loc.o) + norm4 (q + η • m)) (by linarith)]
    have c4 : norm4 (cut loc.o) + norm4 (q + η • m) ≤ 2.0035 * L := by
      have := (abs_le.1 c1).2
      norm_num at this hsum huL6 ⊢
      linarith
    refine (mul_le_mul c1 c4 (by linarith) (by positivity)).trans ?_
    norm_num
    nlinarith
  have e6 : dot3 (q + η • m) (q + η • m) = dot3 q q + 2 * η * dot3 q m + η ^ 2 * dot3 m m := by
    simp only [dot3, Pi.add_apply, Pi.smul_apply, smul_eq_mul]; ring
  rw [e6] at e5
  have e7 := abs_le.1 e5
  have hη3 : η ^ 2 * dot3 m m ≤ 1.0021 * η ^ 2 := by nlinarith [sq_nonneg η]
  have hη4 : 0 ≤ η ^ 2 * dot3 m m := by positivity
  constructor
  · intro hneg
    refine C108_inside hu hu6 hin h ?_
    rw [offSphere_eq]
    have := sq_nonneg η
    norm_num at hneg hη3 ⊢
    rw [mul_pow]
    norm_num
    linarith
  · intro hpos
    have hη0 : 0 < η := by
      rcases hη.eq_or_lt with h0 | h0
      · rw [← h0] at hpos; linarith
      · exact h0
    refine C108_away hu hu6 hin h ?_ ?_
    · rw [offSphere_eq, mul_pow]
      norm_num
      linarith
    · show 0 ≤ dot3 loc.d loc.o
      have c1 := abs_dot4_le (cut loc.d - m) (cut loc.o)
      have c2 := abs_dot4_le m (cut loc.o - (q + η • m))
      have c3 : dot3 loc.d loc.o = dot4 (cut loc.d - m) (cut loc.o) + dot4 m (cut loc.o - (q + η • m)) + (dot3 q m + η * dot3 m m) := by
        have m3 : m 3 = 0 := by rw [← cm]; simp [cut, vector]
        simp only [dot3, dot4, cut, vector, Pi.sub_apply, Pi.add_apply, Pi.smul_apply, smul_eq_mul, Matrix.cons_val_zero, Matrix.cons_val_one, Matrix.cons_val]
        rw [m3]
        ring
      have c4 : norm4 (cut loc.o) ≤ 2.01 * L := by
        refine norm4_cut_le (by positivity) ?_
        have := hin.start
        simp only [dot3]
        linarith
      have c5 : |dot4 (cut loc.d - m) (cut loc.o)| ≤ 8.02 * u * (2.01 * L) := c1.trans (mul_le_mul a2 c4 (norm4_nonneg _) (by positivity))
      have c6 : |dot4 m (cut loc.o - (q + η • m))| ≤ 1.001 * (17.2 * u * L) := c2.trans (mul_le_mul hmn e4 (norm4_nonneg _) (by norm_num))
      have c7 : 730 * u * L ^ 2 ≤ 0.002 * dot3 q m := by
        have h10 : 0 < 2 * η * dot3 q m := by linarith
        have h11 : 0 < dot3 q m := (mul_pos_iff_of_pos_left (by linarith)).1 h10
        have h12 : η * dot3 q m ≤ 0.001 * dot3 q m := mul_le_mul_of_nonneg_right hη2 h11.le
        linarith
      have c8 : u * L ≤ u * L ^ 2 := by nlinarith
      have c9 : 0 ≤ η * dot3 m m := by positivity
      rw [c3]
      have d5 := (abs_le.1 c5).1
      have d6 := (abs_le.1 c6).1
      norm_num at d5 d6 c7
      linarith

/-- **C112 (7).** With doubles, the offset `1e-6` and scenes of at most ten units. -/
theorem C112_sphere_doubles {R : ℝ} {M : Mat4} {loc : Ray} {hits : EReal × EReal} {p w p' : Vec4} (hs : Spec.Scene 10 ⟨p, w⟩) (hM : Spec.Placed 10 M) (hR : |R| ≤ 10)
    (hp : |Spec.offSphere R (Spec.seen M p)| ≤ 60000 * 2 ^ (-53 : ℤ)) (hp' : AdvanceR (2 ^ (-53 : ℤ)) ⟨p, w⟩ 1e-6 p') (hp3 : p' 3 = 1)
    (hl : LocalR (2 ^ (-53 : ℤ)) M ⟨p', w⟩ loc) (h : SphereR (2 ^ (-53 : ℤ)) R loc hits) :
    (Spec.seen M p 0 * Spec.facing M w 0 + Spec.seen M p 1 * Spec.facing M w 1 + Spec.seen M p 2 * Spec.facing M w 2 < -5e-6 →
      ∃ t0 t1 : ℝ, hits = ((t0 : EReal), (t1 : EReal)) ∧ 0 < t0 ∧ t1 < 0) ∧
    (5e-6 < Spec.seen M p 0 * Spec.facing M w 0 + Spec.seen M p 1 * Spec.facing M w 1 + Spec.seen M p 2 * Spec.facing M w 2 →
      hits = (⊤, ⊤) ∨ ∃ t0 t1 : ℝ, hits = ((t0 : EReal), (t1 : EReal)) ∧ t0 < 0 ∧ t1 < 0) := by
  obtain ⟨h1, h2⟩ := C112_sphere_offset (u := 2 ^ (-53 : ℤ)) (by positivity) (by norm_num) (η := 1e-6) hs hM hR (by norm_num at hp ⊢; exact hp) (by norm_num) (by norm_num) hp' hp3 hl h
  refine ⟨fun h3 => h1 ?_, fun h3 => h2 ?_⟩
  · norm_num at h3 ⊢; linarith
  · norm_num at h3 ⊢; linarith

/-! ### The relations and the exact model -/

/-- the exact computation is one of the rounded ones -/
noncomputable def PlaneBoundR.exact (hu : 0 ≤ u) (dim o d : ℝ) : PlaneBoundR u dim o d (planeBound dim o d) where
  half := _
  hhalf := Rounds.exact hu _
  num1 := _
  num2 := _
  q1 := _
  q2 := _
  hnum1 := Rounds.exact hu _
  hnum2 := Rounds.exact hu _
  hq1 := Rounds.exact hu _
  hq2 := Rounds.exact hu _
  hbounds := rfl

/-- the exact computation is one of the rounded ones -/
noncomputable def PlaneR.exact (hu : 0 ≤ u) (width length : ℝ) (ray : Ray) : PlaneR u width length ray (planeIntersect width length ray) where
  bx := _
  hbx := PlaneBoundR.exact hu _ _ _
  byy := _
  hbyy := PlaneBoundR.exact hu _ _ _
  t := _
  ht := Rounds.exact hu _
  hhits := by
    simp only [planeIntersect]
    split_ifs <;> rfl

theorem PlaneBoundR.of_zero {dim o d : ℝ} {b : EReal × EReal} (h : PlaneBoundR 0 dim o d b) : b = planeBound dim o d := by
  obtain ⟨half, hhalf, num1, num2, q1, q2, hnum1, hnum2, hq1, hq2, hb⟩ := h
  rw [Rounds.zero] at hhalf hnum1 hnum2 hq1 hq2
  rw [hb]
  subst hq1 hq2 hnum1 hnum2 hhalf
  rfl

/-- **C112 (8).** Without rounding the relation is the function of the exact model. -/
theorem C112_plane_exact (width length : ℝ) (ray : Ray) (hits : EReal × EReal) : Nonempty (PlaneR 0 width length ray hits) ↔ hits = planeIntersect width length ray := by
  constructor
  · rintro ⟨h⟩
    obtain ⟨bx, hbx, byy, hbyy, t, ht, hh⟩ := h
    rw [Rounds.zero] at ht
    have e1 := hbx.of_zero
    have e2 := hbyy.of_zero
    rw [hh, e1, e2, ht]
    simp only [planeIntersect]
    split_ifs <;> rfl
  · rintro rfl
    exact ⟨PlaneR.exact le_rfl _ _ _⟩

theorem sums4_exact (hu : 0 ≤ u) (a b c d x y z w : ℝ) : SumsTo u [(a, x), (b, y), (c, z), (d, w)] (a * x + b * y + c * z + d * w) := by
  have := SumsTo.exact hu (l := [(a, x), (b, y), (c, z), (d, w)]) (by simp)
  have e : sumProd [(a, x), (b, y), (c, z), (d, w)] = a * x + b * y + c * z + d * w := by simp [sumProd]; ring
  rwa [e] at this

/-- **C112 (9).** Without rounding the change of coordinates is the product with the matrix. -/
theorem C112_local_exact (M : Mat4) (ray loc : Ray) : LocalR 0 M ray loc ↔ loc = ⟨M.mulVec ray.o, M.mulVec ray.d⟩ := by
  have key : ∀ v w : Vec4, TransformR 0 M v w ↔ w = M.mulVec v := by
    intro v w
    have e : ∀ i, M.mulVec v i = M i 0 * v 0 + M i 1 * v 1 + M i 2 * v 2 + M i 3 * v 3 := fun i => by
      simp [Matrix.mulVec, dotProduct, Fin.sum_univ_four]
    constructor
    · intro h
      funext i
      have h1 := SumsTo.err le_rfl (h i)
      have e1 : sumProd [(M i 0, v 0), (M i 1, v 1), (M i 2, v 2), (M i 3, v 3)] = M.mulVec v i := by rw [e]; simp [sumProd]; ring
      simp only [add_zero, one_pow, sub_self, zero_mul, abs_nonpos_iff, sub_eq_zero, e1] at h1
      exact h1
    · rintro rfl i
      rw [e]
      exact sums4_exact le_rfl _ _ _ _ _ _ _ _
  rw [LocalR, key, key]
  constructor
  · rintro ⟨h1, h2⟩
    cases loc
    simp only at h1 h2
    rw [h1, h2]
  · rintro rfl
    exact ⟨rfl, rfl⟩

/-- **C112 (10).** The offset is needed for planes, too: without it, for every size of the roundoff, a ray that hits a mirror at the distance one may end up just behind it, and then meets the mirror at
the place it has just left. -/
theorem C112_without_offset (hu : 0 < u) : ∃ p, Nonempty (PlaneR u 2 2 ⟨point 0 0 (-1), vector 0 0 1⟩ ((1 + u : ℝ), (1 + u : ℝ))) ∧ AdvanceR u ⟨point 0 0 (-1), vector 0 0 1⟩ (1 + u) p ∧
    AdvanceR u ⟨p, vector 0 0 (-1)⟩ 0 p ∧ Nonempty (PlaneR u 2 2 ⟨p, vector 0 0 (-1)⟩ ((u : ℝ), (u : ℝ))) := by
  have z0 : isclose0 0 := by simp only [isclose0]; norm_num
  have z1 : ¬ isclose0 1 := by simp only [isclose0]; norm_num
  have z2 : ¬ isclose0 (-1) := by simp only [isclose0]; norm_num
  have hb : planeBound 2 0 0 = (⊥, ⊤) := by simp [planeBound, z0]
  refine ⟨point 0 0 u, ⟨?_⟩, ⟨vector 0 0 (1 + u), fun i => ?_, fun i => ?_⟩, ⟨vector 0 0 0, fun i => ?_, fun i => ?_⟩, ⟨?_⟩⟩
  · refine ⟨_, PlaneBoundR.exact hu.le _ _ _, _, PlaneBoundR.exact hu.le _ _ _, 1 + u, ?_, ?_⟩
    · simp [Rounds, point, vector, addMask, z1, abs_of_pos hu, hu]
    · simp [point, vector, z1, hb, sort2]
  · have e : (1 + u) * vector 0 0 1 i = vector 0 0 (1 + u) i := by fin_cases i <;> simp [vector]
    show Rounds u ((1 + u) * vector 0 0 1 i) _
    rw [e]; exact Rounds.exact hu.le _
  · have e : point 0 0 (-1) i + vector 0 0 (1 + u) i = point 0 0 u i := by fin_cases i <;> simp [vector, point]
    show Rounds u (point 0 0 (-1) i + _) _
    rw [e]; exact Rounds.exact hu.le _
  · show Rounds u (0 * _) _
    rw [zero_mul]
    fin_cases i <;> simpa [vector] using Rounds.exact hu.le 0
  · have e : vector 0 0 0 i = 0 := by fin_cases i <;> simp [vector]
    rw [e, add_zero]; exact Rounds.exact hu.le _
  · refine ⟨_, PlaneBoundR.exact hu.le _ _ _, _, PlaneBoundR.exact hu.le _ _ _, u, ?_, ?_⟩
    · have e : -(point 0 0 u 2) / addMask (vector 0 0 (-1) 2) (isclose0 (vector 0 0 (-1) 2)) = u := by
        simp [point, vector, addMask, z2]
      show Rounds u (-(point 0 0 u 2) / addMask (vector 0 0 (-1) 2) (isclose0 (vector 0 0 (-1) 2))) u
      rw [e]; exact Rounds.exact hu.le _
    · simp [point, vector, z2, hb, sort2]

/-! ### Objects that have been moved and turned -/

theorem norm4_sum_sq {v w : Vec4} (h : norm4 v = norm4 w) : v 0 ^ 2 + v 1 ^ 2 + v 2 ^ 2 + v 3 ^ 2 = w 0 ^ 2 + w 1 ^ 2 + w 2 ^ 2 + w 3 ^ 2 :=
  (Real.sqrt_inj (by positivity) (by positivity)).1 h

theorem placed_inv {L : ℝ} {m : Mat4} (hm : Spec.Isometry m) (hL : m 0 3 ^ 2 + m 1 3 ^ 2 + m 2 3 ^ 2 ≤ L ^ 2) : Spec.Placed L m⁻¹ := by
  have three : ∀ v : Vec4, (m⁻¹.mulVec v) 3 = v 3 := fun v => by
    have := hm.three (m⁻¹.mulVec v)
    rw [hm.mulVec_inv] at this
    exact this.symm
  have len : ∀ v : Vec4, v 3 = 0 → norm4 (m⁻¹.mulVec v) = norm4 v := fun v hv => by
    have := hm.2 (m⁻¹.mulVec v) ((three v).trans hv)
    rw [hm.mulVec_inv] at this
    exact this.symm
  refine ⟨fun x y z => ?_, ?_⟩
  · have h1 := len (vector x y z) (by simp [vector])
    have h2 := norm4_sum_sq h1
    rw [three] at h2
    simp only [mulVec4] at h2
    simp only [vector, Matrix.cons_val_zero, Matrix.cons_val_one, Matrix.cons_val, mul_zero, add_zero] at h2
    have h3 : (0 : ℝ) ^ 2 = 0 := by norm_num
    rw [h3, add_zero, add_zero] at h2
    rw [h2, sub_self, abs_zero]
    positivity
  · -- where the origin goes
    set e : Vec4 := point 0 0 0 with he
    set x : Vec4 := m⁻¹.mulVec e - e with hx
    have hx3 : x 3 = 0 := by rw [hx, Pi.sub_apply, three, sub_self]
    have hmx : m.mulVec x = e - m.mulVec e := by rw [hx, Matrix.mulVec_sub, hm.mulVec_inv]
    have h1 := hm.2 x hx3
    rw [hmx] at h1
    have h2 := norm4_sum_sq h1
    rw [hx3] at h2
    have hme : ∀ i, m.mulVec e i = m i 3 := fun i => by rw [mulVec4]; simp [he, point]
    have hie : ∀ i, m⁻¹.mulVec e i = m⁻¹ i 3 := fun i => by rw [mulVec4]; simp [he, point]
    have hm33 : m 3 3 = 1 := (congrFun hm.1 3).trans (by simp)
    simp only [Pi.sub_apply, hme, hx, hie, hm33] at h2
    simp only [he, point, Matrix.cons_val_zero, Matrix.cons_val_one, Matrix.cons_val] at h2
    nlinarith

/-- **C112 (11).** The premise on the matrix holds in every scene: after any history of moves and rotations, the matrix by which an object's surface takes rays into its own coordinates satisfies it, if the
object is within `L` of the origin. -/
theorem C112_placed {argsort : List EReal → List ℕ} {fuel : ℕ} {h : Heap} (hr : ReachesBy argsort Movement.IsRigid fuel Heap.empty h) (a : ℕ) {L : ℝ}
    (hL : (h.obj a).world 0 3 ^ 2 + (h.obj a).world 1 3 ^ 2 + (h.obj a).world 2 3 ^ 2 ≤ L ^ 2) : Spec.Placed L (h.obj a).world⁻¹ :=
  placed_inv (isometry_of_rigid (reachesBy_rigid hr a)) hL

/-! ### Examples -/

/-- a surface turned about the y axis (by the angle of the triangle with sides three, four, five) and moved to (1, 2, 10) -/
noncomputable def turnedMatrix : Mat4 := !![4 / 5, 0, -3 / 5, 26 / 5; 0, 1, 0, -2; 3 / 5, 0, 4 / 5, -43 / 5; 0, 0, 0, 1]

theorem turnedMatrix_placed : Spec.Placed 11 turnedMatrix := by
  refine ⟨fun x y z => ?_, ?_⟩
  · have : ((turnedMatrix 0 0 * x + turnedMatrix 0 1 * y + turnedMatrix 0 2 * z) ^ 2 + (turnedMatrix 1 0 * x + turnedMatrix 1 1 * y + turnedMatrix 1 2 * z) ^ 2 +
        (turnedMatrix 2 0 * x + turnedMatrix 2 1 * y + turnedMatrix 2 2 * z) ^ 2) - (x ^ 2 + y ^ 2 + z ^ 2) = 0 := by
      simp [turnedMatrix]; ring
    rw [this, abs_zero]
    positivity
  · simp [turnedMatrix]; norm_num

/-- a ray from the origin that meets it off the centre -/
theorem facing_scene : Spec.Scene 11 ⟨point 0 2 0, vector 0 0 1⟩ := by
  refine ⟨by norm_num, ?_, ?_, by simp [point], by simp [vector]⟩ <;> simp [point, vector] <;> norm_num

theorem facing_local (hu : 0 ≤ u) : LocalR u turnedMatrix ⟨point 0 2 0, vector 0 0 1⟩ ⟨![26 / 5, 0, -43 / 5, 1], ![-3 / 5, 0, 4 / 5, 0]⟩ := by
  constructor <;> intro i
  · have := sums4_exact hu (turnedMatrix i 0) (turnedMatrix i 1) (turnedMatrix i 2) (turnedMatrix i 3) 0 2 0 1
    have e : turnedMatrix i 0 * 0 + turnedMatrix i 1 * 2 + turnedMatrix i 2 * 0 + turnedMatrix i 3 * 1 = (![26 / 5, 0, -43 / 5, 1] : Vec4) i := by
      fin_cases i <;> simp [turnedMatrix]
    rw [e] at this
    exact this
  · have := sums4_exact hu (turnedMatrix i 0) (turnedMatrix i 1) (turnedMatrix i 2) (turnedMatrix i 3) 0 0 1 0
    have e : turnedMatrix i 0 * 0 + turnedMatrix i 1 * 0 + turnedMatrix i 2 * 1 + turnedMatrix i 3 * 0 = (![-3 / 5, 0, 4 / 5, 0] : Vec4) i := by
      fin_cases i <;> simp [turnedMatrix]
    rw [e] at this
    exact this

/-- the mirror is found: the exact ray meets it at the distance 10.75 -/
example : ∃ t : ℝ, planeIntersect 4 4 ⟨![26 / 5, 0, -43 / 5, 1], ![-3 / 5, 0, 4 / 5, 0]⟩ = ((t : EReal), (t : EReal)) ∧ |t - 43 / 4| ≤ 25 * 2 ^ (-53 : ℤ) * 11 / |Spec.facing turnedMatrix (vector 0 0 1) 2| := by
  have e : Spec.facing turnedMatrix (vector 0 0 1) 2 = 4 / 5 := by simp [Spec.facing, turnedMatrix, vector]
  refine C112_plane_found (u := 2 ^ (-53 : ℤ)) (by positivity) (by norm_num) facing_scene turnedMatrix_placed (by norm_num) (by norm_num) (facing_local (by positivity))
    (PlaneR.exact (by positivity) _ _ _) ?_ ?_ ?_ ?_
  · show 0.001 ≤ |Spec.facing turnedMatrix (vector 0 0 1) 2|
    rw [e]; norm_num
  · simp [Spec.seen, turnedMatrix, vector, point]; norm_num
  · have e2 : Spec.seen turnedMatrix (point 0 2 0 + (43 / 4 : ℝ) • vector 0 0 1) 0 = -5 / 4 := by simp [Spec.seen, turnedMatrix, vector, point]; norm_num
    show |Spec.seen turnedMatrix (point 0 2 0 + (43 / 4 : ℝ) • vector 0 0 1) 0| ≤ 4 / 2 - (_ / |Spec.facing turnedMatrix (vector 0 0 1) 2| + _)
    rw [e, e2]
    norm_num
  · have e2 : Spec.seen turnedMatrix (point 0 2 0 + (43 / 4 : ℝ) • vector 0 0 1) 1 = 0 := by simp [Spec.seen, turnedMatrix, vector, point]
    show |Spec.seen turnedMatrix (point 0 2 0 + (43 / 4 : ℝ) • vector 0 0 1) 1| ≤ 4 / 2 - (_ / |Spec.facing turnedMatrix (vector 0 0 1) 2| + _)
    rw [e, e2]
    norm_num

/-- the point to which the ray is advanced lies in the mirror -/
example {t : ℝ} {hits : EReal × EReal} {p : Vec4} (h : PlaneR (2 ^ (-53 : ℤ)) 4 4 ⟨![26 / 5, 0, -43 / 5, 1], ![-3 / 5, 0, 4 / 5, 0]⟩ hits) (ht : hits.1 = (t : EReal))
    (hp : AdvanceR (2 ^ (-53 : ℤ)) ⟨point 0 2 0, vector 0 0 1⟩ t p) : |Spec.seen turnedMatrix p 2| ≤ 1e-13 := by
  refine (C112_plane (by positivity) (by norm_num) facing_scene turnedMatrix_placed (by norm_num) (by norm_num) (facing_local (by positivity)) h (Or.inl ht) hp).1.trans ?_
  norm_num

/-- and, reflected into the direction (-0.96, 0, -0.28) and moved off, the ray does not meet it again -/
example {loc : Ray} {hits : EReal × EReal} (hl : LocalR (2 ^ (-53 : ℤ)) turnedMatrix ⟨point (-0.96e-6) 2 (43 / 4 - 0.28e-6), vector (-0.96) 0 (-0.28)⟩ loc)
    (h : PlaneR (2 ^ (-53 : ℤ)) 4 4 loc hits) : hits = (⊤, ⊤) ∨ ∃ t : ℝ, hits = ((t : EReal), (t : EReal)) ∧ t < 0 := by
  refine C112_plane_offset (u := 2 ^ (-53 : ℤ)) (L := 11) (η := 1e-6) (p := point 0 2 (43 / 4)) (by positivity) (by norm_num) ⟨by norm_num, ?_, ?_, by simp [point], by simp [vector]⟩ turnedMatrix_placed (by norm_num) (by norm_num)
    ?_ (by norm_num) (by norm_num) ⟨vector (-0.96e-6) 0 (-0.28e-6), fun i => ?_, fun i => ?_⟩ (by simp [point]) hl h ?_
  · simp [point]; norm_num
  · simp [vector]; norm_num
  · have e : Spec.seen turnedMatrix (point 0 2 (43 / 4)) 2 = 0 := by simp [Spec.seen, turnedMatrix, point]; norm_num
    rw [e, abs_zero]; positivity
  · have e : (1e-6 : ℝ) * vector (-0.96) 0 (-0.28) i = vector (-0.96e-6) 0 (-0.28e-6) i := by fin_cases i <;> simp [vector] <;> norm_num
    show Rounds _ (1e-6 * vector (-0.96) 0 (-0.28) i) _
    rw [e]; exact Rounds.exact (by positivity) _
  · have e : point 0 2 (43 / 4) i + vector (-0.96e-6) 0 (-0.28e-6) i = point (-0.96e-6) 2 (43 / 4 - 0.28e-6) i := by fin_cases i <;> simp [vector, point] <;> norm_num
    show Rounds _ (point 0 2 (43 / 4) i + vector (-0.96e-6) 0 (-0.28e-6) i) _
    rw [e]; exact Rounds.exact (by positivity) _
  · have e : Spec.facing turnedMatrix (vector (-0.96) 0 (-0.28)) 2 = -0.8 := by simp [Spec.facing, turnedMatrix, vector]; norm_num
    rw [e]; norm_num

/-- a ball in the same place -/
example {t : ℝ} {hits : EReal × EReal} {p : Vec4} (h : SphereR (2 ^ (-53 : ℤ)) 3 ⟨![26 / 5, 0, -43 / 5, 1], ![-3 / 5, 0, 4 / 5, 0]⟩ hits) (ht : hits.2 = (t : EReal))
    (hp : AdvanceR (2 ^ (-53 : ℤ)) ⟨point 0 2 0, vector 0 0 1⟩ t p) : |Spec.offSphere 3 (Spec.seen turnedMatrix p)| ≤ 1e-11 := by
  refine (C112_sphere (by positivity) (by norm_num) facing_scene turnedMatrix_placed (by norm_num) (facing_local (by positivity)) h (Or.inr ht) hp).1.trans ?_
  norm_num

end PyRayT
