import Verif.Proofs.Primitives

/-! Helper lemmas on cylinder, paraboloid and plane. -/

namespace PyRayT

open Classical

theorem sort2_capHits (lo hi oz dz : ℝ) :
    sort2 (capHits lo hi oz dz) = slab ((lo : EReal), (hi : EReal)) oz dz := by
  unfold capHits slab
  by_cases h : isclose0 dz
  · have e : (oz ≥ lo ∧ oz ≤ hi) ↔ ((oz : EReal) ≤ (hi : EReal) ∧ (oz : EReal) ≥ (lo : EReal)) := by
      simp only [ge_iff_le, EReal.coe_le_coe_iff, and_comm]
    simp only [h, true_and, not_true_eq_false, if_false, if_true, e]
  · simp only [h, false_and, not_false_eq_true, if_false, if_true, addMask_False, ← EReal.coe_sub,
      ← EReal.coe_mul, div_eq_mul_inv]

theorem caps_btw {lo hi oz dz : ℝ} (h : lo ≤ hi) (hd : Clear dz) (t : ℝ) :
    Btw (sort2 (capHits lo hi oz dz)) t ↔ lo ≤ oz + t * dz ∧ oz + t * dz ≤ hi := by
  rw [sort2_capHits, slab_btw (by simpa using h) hd]
  simp only [EReal.coe_le_coe_iff]

theorem caps_sbtw {lo hi oz dz : ℝ} (hd : Clear dz) (t : ℝ) (h1 : lo < oz + t * dz)
    (h2 : oz + t * dz < hi) : SBtw (sort2 (capHits lo hi oz dz)) t := by
  rw [sort2_capHits]
  exact slab_sbtw hd t (by simpa only [EReal.coe_lt_coe_iff] using h1)
    (by simpa only [EReal.coe_lt_coe_iff] using h2)

theorem clip_btw (side caps : EReal × EReal) (t : ℝ) :
    Btw (clipHits side caps) t ↔ Btw (sort2 side) t ∧ Btw (sort2 caps) t := by
  unfold clipHits
  simp only
  split
  · simp only [Btw, max_le_iff, le_min_iff]; tauto
  · rename_i h
    simp only [Btw, top_le_iff, EReal.coe_ne_top, le_top, and_true, false_iff]
    rintro ⟨h1, h2⟩
    exact h (le_trans (max_le h1.1 h2.1) (le_min h1.2 h2.2))

theorem clip_sbtw (side caps : EReal × EReal) (t : ℝ) :
    SBtw (clipHits side caps) t ↔ SBtw (sort2 side) t ∧ SBtw (sort2 caps) t := by
  unfold clipHits
  simp only
  split
  · simp only [SBtw, max_lt_iff, lt_min_iff]; tauto
  · rename_i h
    simp only [SBtw, not_top_lt, false_and, false_iff]
    rintro ⟨h1, h2⟩
    exact h (le_trans (max_lt h1.1 h2.1).le (lt_min h1.2 h2.2).le)

theorem clip_le (side caps : EReal × EReal) : (clipHits side caps).1 ≤ (clipHits side caps).2 := by
  unfold clipHits
  simp only
  split
  · rename_i h; exact h
  · exact le_rfl

/-! ### binomial_root -/

theorem binomialRoot_quad {a b c : ℝ} (ha : 1e-8 < |a|) :
    binomialRoot a b c = polyRoots b (b ^ 2 - 4 * a * c) (2 * a) := by
  have h := not_isclose0 ha
  simp [binomialRoot, h]

theorem binomialRoot_const {c : ℝ} :
    binomialRoot 0 0 c = (if c ≤ 0 then ⊥ else ⊤, ⊤) := by
  simp [binomialRoot, isclose0_zero]

theorem binomialRoot_linear {b c : ℝ} (hb : 1e-8 < |b|) :
    binomialRoot 0 b c = (((-c / b : ℝ) : EReal), ((-c / b : ℝ) : EReal)) := by
  have h := not_isclose0 hb
  have hne : b ≠ 0 := by rintro rfl; norm_num at hb
  simp [binomialRoot, isclose0_zero, h, hne]

/-! ### cylinder -/

/-- squared length of the direction projected on the XY plane -/
def dirSq2 (r : Ray) : ℝ := r.d 0 * r.d 0 + r.d 1 * r.d 1

theorem dirSq2_nonneg (r : Ray) : 0 ≤ dirSq2 r := by
  unfold dirSq2; nlinarith [mul_self_nonneg (r.d 0), mul_self_nonneg (r.d 1)]

theorem dirSq2_eq_zero {r : Ray} (h : dirSq2 r = 0) : r.d 0 = 0 ∧ r.d 1 = 0 := by
  unfold dirSq2 at h
  have h0 := mul_self_nonneg (r.d 0)
  have h1 := mul_self_nonneg (r.d 1)
  exact ⟨mul_self_eq_zero.1 (by linarith), mul_self_eq_zero.1 (by linarith)⟩

/-- the transverse part of the direction is zero or above the tolerance on its square -/
def ClearAxial (r : Ray) : Prop := Clear (dirSq2 r)

theorem clear_pos {x : ℝ} (hx : 0 ≤ x) (h : Clear x) : x = 0 ∨ (0 < x ∧ 1e-8 < |x|) := by
  rcases h with h | h
  · exact Or.inl h
  · right
    refine ⟨?_, h⟩
    rcases hx.lt_or_eq with h' | h'
    · exact h'
    · rw [← h'] at h; norm_num at h

theorem cyl_eval (radius : ℝ) (r : Ray) (t : ℝ) :
    dirSq2 r * t ^ 2 + (2 * (r.d 0 * r.o 0 + r.d 1 * r.o 1)) * t +
      ((r.o 0 * r.o 0 + r.o 1 * r.o 1) - radius ^ 2) =
    (r.at t 0) ^ 2 + (r.at t 1) ^ 2 - radius ^ 2 := by
  unfold dirSq2 Ray.at; ring

theorem cylSide_btw (radius : ℝ) {r : Ray} (h : ClearAxial r) (t : ℝ) :
    Btw (sort2 (binomialRoot (dirSq2 r) (2 * (r.d 0 * r.o 0 + r.d 1 * r.o 1))
      ((r.o 0 * r.o 0 + r.o 1 * r.o 1) - radius ^ 2))) t ↔
      (r.at t 0) ^ 2 + (r.at t 1) ^ 2 ≤ radius ^ 2 := by
  rw [← sub_nonpos, ← cyl_eval]
  rcases clear_pos (dirSq2_nonneg r) h with h | ⟨h, h'⟩
  · obtain ⟨h0, h1⟩ := dirSq2_eq_zero h
    rw [h, h0, h1]
    simp only [zero_mul, add_zero, mul_zero, zero_add, binomialRoot_const]
    by_cases hc : r.o 0 * r.o 0 + r.o 1 * r.o 1 - radius ^ 2 ≤ 0
    · simp [Btw, sort2, hc]
    · simp [Btw, sort2, hc]
  · rw [binomialRoot_quad h', polyRoots_btw h]

theorem cylSide_sbtw (radius : ℝ) {r : Ray} (h : ClearAxial r) (t : ℝ)
    (hi : (r.at t 0) ^ 2 + (r.at t 1) ^ 2 < radius ^ 2) :
    SBtw (sort2 (binomialRoot (dirSq2 r) (2 * (r.d 0 * r.o 0 + r.d 1 * r.o 1))
      ((r.o 0 * r.o 0 + r.o 1 * r.o 1) - radius ^ 2))) t := by
  rw [← sub_neg, ← cyl_eval] at hi
  rcases clear_pos (dirSq2_nonneg r) h with h | ⟨h, h'⟩
  · obtain ⟨h0, h1⟩ := dirSq2_eq_zero h
    rw [h, h0, h1] at hi ⊢
    simp only [zero_mul, add_zero, mul_zero, zero_add, binomialRoot_const] at hi ⊢
    simp [SBtw, sort2, hi.le, EReal.bot_lt_coe, EReal.coe_lt_top]
  · rw [binomialRoot_quad h', polyRoots_sbtw h]
    exact hi

theorem cyl_btw {radius a b : ℝ} (hab : a ≤ b) {r : Ray} (h : ClearAxial r) (hz : Clear (r.d 2)) (t : ℝ) :
    Btw (cylinderIntersect radius a b r) t ↔ Spec.Closed (.cylinder radius a b) (r.at t) := by
  unfold cylinderIntersect
  simp only
  rw [clip_btw, sort2_sort2, caps_btw hab hz]
  have := cylSide_btw radius h t
  unfold dirSq2 at this
  rw [this]
  simp only [Spec.Closed, min_eq_left hab, max_eq_right hab]
  rfl

theorem cyl_sbtw {radius a b : ℝ} (hab : a ≤ b) {r : Ray} (h : ClearAxial r) (hz : Clear (r.d 2)) (t : ℝ)
    (hi : Spec.Interior (.cylinder radius a b) (r.at t)) :
    SBtw (cylinderIntersect radius a b r) t := by
  unfold cylinderIntersect
  simp only [Spec.Interior, min_eq_left hab, max_eq_right hab] at hi ⊢
  rw [clip_sbtw, sort2_sort2]
  exact ⟨cylSide_sbtw radius h t hi.1, caps_sbtw hz t hi.2.1 hi.2.2⟩

/-! ### paraboloid -/

theorem par_eval (f : ℝ) (r : Ray) (t : ℝ) :
    dirSq2 r * t ^ 2 + (2 * (r.o 0 * r.d 0 + r.o 1 * r.d 1) - 4 * f * r.d 2) * t +
      ((r.o 0 * r.o 0 + r.o 1 * r.o 1) - 4 * f * r.o 2) =
    (r.at t 0) ^ 2 + (r.at t 1) ^ 2 - 4 * f * (r.at t 2) := by
  unfold dirSq2 Ray.at; ring

/-- the side hits of `Paraboloid.intersect` before clipping -/
noncomputable def parSide (f : ℝ) (r : Ray) : EReal × EReal :=
  let a := r.d 0 * r.d 0 + r.d 1 * r.d 1
  let b := 2 * (r.o 0 * r.d 0 + r.o 1 * r.d 1) - 4 * f * r.d 2
  let c := (r.o 0 * r.o 0 + r.o 1 * r.o 1) - 4 * f * r.o 2
  if isclose0 a then
    (((-c / addMask b (isclose0 b) : ℝ) : EReal), if r.d 2 ≥ 0 then ⊤ else ⊥)
  else polyRoots b (b ^ 2 - 4 * a * c) (addMask (2 * a) (isclose0 a))

theorem paraboloidIntersect_eq (f h : ℝ) (r : Ray) :
    paraboloidIntersect f h r = clipHits (sort2 (parSide f r)) (capHits 0 h (r.o 2) (r.d 2)) := rfl

/-- conditions on a ray under which the paraboloid intersection is not affected by the tolerances -/
def ClearParabolic (f : ℝ) (r : Ray) : Prop :=
  1e-8 < dirSq2 r ∨ (dirSq2 r = 0 ∧ 1e-8 < |4 * f * r.d 2|)

theorem parSide_btw {f : ℝ} (hf : 0 < f) {r : Ray} (h : ClearParabolic f r) (t : ℝ) :
    (Btw (sort2 (parSide f r)) t ↔ (r.at t 0) ^ 2 + (r.at t 1) ^ 2 ≤ 4 * f * (r.at t 2)) ∧
    (SBtw (sort2 (parSide f r)) t ↔ (r.at t 0) ^ 2 + (r.at t 1) ^ 2 < 4 * f * (r.at t 2)) := by
  rw [← sub_nonpos, ← par_eval, ← sub_neg, ← par_eval]
  unfold parSide
  rcases h with h | ⟨h, hb⟩
  · have hpos : 0 < dirSq2 r := lt_trans (by norm_num) h
    have hc : ¬ isclose0 (dirSq2 r) := not_isclose0 (by rwa [abs_of_pos hpos])
    unfold dirSq2 at hc hpos
    simp only [hc, if_false, addMask_False]
    rw [polyRoots_btw hpos, polyRoots_sbtw hpos]
    exact ⟨Iff.rfl, Iff.rfl⟩
  · obtain ⟨h0, h1⟩ := dirSq2_eq_zero h
    have hb' : 1e-8 < |-(4 * f * r.d 2)| := by rwa [abs_neg]
    have hb2 := not_isclose0 hb'
    rw [h]
    have hz : r.d 2 ≠ 0 := by intro hz; rw [hz] at hb; norm_num at hb
    simp only [h0, h1, mul_zero, add_zero, isclose0_zero, if_true, zero_sub, hb2, addMask_False,
      zero_mul, zero_add]
    rcases lt_or_gt_of_ne hz with hz | hz
    · have hpos : 0 < -(4 * f * r.d 2) := by nlinarith
      have hn : ¬ r.d 2 ≥ 0 := not_le.2 hz
      rw [if_neg hn, sort2_of_ge (by simp)]
      simp only [Btw, SBtw, bot_le, true_and, EReal.coe_le_coe_iff, EReal.coe_lt_coe_iff, EReal.bot_lt_coe]
      rw [le_div_iff₀ hpos, lt_div_iff₀ hpos]
      constructor <;> constructor <;> intro h <;> nlinarith
    · have hneg : -(4 * f * r.d 2) < 0 := by nlinarith [mul_pos hf hz]
      rw [if_pos (show r.d 2 ≥ 0 from hz.le), sort2_of_le (by simp)]
      simp only [Btw, SBtw, le_top, and_true, EReal.coe_le_coe_iff, EReal.coe_lt_coe_iff, EReal.coe_lt_top]
      rw [div_le_iff_of_neg hneg, div_lt_iff_of_neg hneg]
      constructor <;> constructor <;> intro h <;> nlinarith

theorem par_btw {f h : ℝ} (hf : 0 < f) (hh : 0 < h) {r : Ray} (hr : ClearParabolic f r)
    (hz : Clear (r.d 2)) (t : ℝ) :
    Btw (paraboloidIntersect f h r) t ↔ Spec.Closed (.paraboloid f h) (r.at t) := by
  rw [paraboloidIntersect_eq, clip_btw, sort2_sort2, (parSide_btw hf hr t).1, caps_btw hh.le hz]
  simp only [Spec.Closed]
  constructor
  · rintro ⟨h1, h2, h3⟩; exact ⟨h1, h3⟩
  · rintro ⟨h1, h3⟩
    refine ⟨h1, ?_, h3⟩
    have : 0 ≤ 4 * f * r.at t 2 := le_trans (by positivity) h1
    by_contra hc
    push Not at hc
    have : 4 * f * (r.o 2 + t * r.d 2) < 0 := mul_neg_of_pos_of_neg (by linarith) hc
    unfold Ray.at at *
    linarith

theorem par_sbtw {f h : ℝ} (hf : 0 < f) {r : Ray} (hr : ClearParabolic f r)
    (hz : Clear (r.d 2)) (t : ℝ) (hi : Spec.Interior (.paraboloid f h) (r.at t)) :
    SBtw (paraboloidIntersect f h r) t := by
  simp only [Spec.Interior] at hi
  rw [paraboloidIntersect_eq, clip_sbtw, sort2_sort2, (parSide_btw hf hr t).2]
  refine ⟨hi.1, caps_sbtw hz t ?_ hi.2⟩
  have : 0 < 4 * f * r.at t 2 := lt_of_le_of_lt (by positivity) hi.1
  by_contra hc
  push Not at hc
  have : 4 * f * (r.o 2 + t * r.d 2) ≤ 0 := mul_nonpos_of_nonneg_of_nonpos (by linarith) hc
  unfold Ray.at at *
  linarith

/-! ### plane -/

theorem sort2_planeBound {dim o d : ℝ} :
    sort2 (planeBound dim o d) = slab (((-(dim / 2) : ℝ) : EReal), ((dim / 2 : ℝ) : EReal)) o d := by
  unfold planeBound slab
  by_cases h : isclose0 d
  · have e : |o| ≤ dim / 2 ↔ ((o : EReal) ≤ ((dim / 2 : ℝ) : EReal) ∧ (o : EReal) ≥ ((-(dim / 2) : ℝ) : EReal)) := by
      simp only [ge_iff_le, EReal.coe_le_coe_iff, abs_le, and_comm]
    simp only [h, if_true, not_true_eq_false, if_false, e]
  · simp only [h, not_false_eq_true, if_false, if_true, addMask_False, ← EReal.coe_sub, ← EReal.coe_mul]
    rw [show -(o - dim / 2) / d = (dim / 2 - o) * d⁻¹ by ring,
      show -(o + dim / 2) / d = (-(dim / 2) - o) * d⁻¹ by ring]
    simp only [sort2, min_comm, max_comm]

theorem planeBound_btw {dim o d : ℝ} (hdim : 0 ≤ dim) (hd : Clear d) (t : ℝ) :
    Btw (sort2 (planeBound dim o d)) t ↔ |o + t * d| ≤ dim / 2 := by
  rw [sort2_planeBound, slab_btw _ hd]
  · simp only [EReal.coe_le_coe_iff, abs_le]
  · simp only [EReal.coe_le_coe_iff]; linarith

theorem plane_eq (w l : ℝ) (hw : 0 ≤ w) (hl : 0 ≤ l) (r : Ray) (hr : ClearDir r) :
    planeIntersect w l r =
      if r.d 2 ≠ 0 ∧ Spec.Closed (.plane w l) (r.at (-(r.o 2) / r.d 2)) then
        (((-(r.o 2) / r.d 2 : ℝ) : EReal), ((-(r.o 2) / r.d 2 : ℝ) : EReal)) else (⊤, ⊤) := by
  unfold planeIntersect
  rcases hr.2.2 with hz | hz
  · simp only [hz, isclose0_zero, if_true, ne_eq, not_true_eq_false, false_and, if_false, ite_self]
  · have hc := not_isclose0 hz
    have hne : r.d 2 ≠ 0 := by intro h; rw [h] at hz; norm_num at hz
    simp only [hc, if_false, addMask_False, ne_eq, hne, not_false_eq_true, true_and]
    have h0 := planeBound_btw hw (o := r.o 0) hr.1 (-(r.o 2) / r.d 2)
    have h1 := planeBound_btw hl (o := r.o 1) hr.2.1 (-(r.o 2) / r.d 2)
    have e : (((-(r.o 2) / r.d 2 : ℝ) : EReal) ≥ max (sort2 (planeBound w (r.o 0) (r.d 0))).1
        (sort2 (planeBound l (r.o 1) (r.d 1))).1 ∧ ((-(r.o 2) / r.d 2 : ℝ) : EReal) ≤
        min (sort2 (planeBound w (r.o 0) (r.d 0))).2 (sort2 (planeBound l (r.o 1) (r.d 1))).2) ↔
        Spec.Closed (.plane w l) (r.at (-(r.o 2) / r.d 2)) := by
      simp only [Spec.Closed, Ray.at]
      rw [← h0, ← h1]
      simp only [Btw, ge_iff_le, max_le_iff, le_min_iff]
      have : r.o 2 + -r.o 2 / r.d 2 * r.d 2 = 0 := by field_simp; ring
      simp only [this, true_and]
      tauto
    by_cases hcl : Spec.Closed (.plane w l) (r.at (-(r.o 2) / r.d 2))
    · simp only [e.2 hcl, and_self, if_true, hcl]
    · simp only [mt e.1 hcl, if_false, hcl]

end PyRayT
