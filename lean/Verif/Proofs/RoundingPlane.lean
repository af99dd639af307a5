import Verif.Model.RoundingPlane
import Verif.Props.RoundingSphere

/-!
# Rounded hits of planes, in the coordinates of the plane
-/

namespace PyRayT

open Classical

variable {u : ℝ}

theorem addMask_skew {d : ℝ} (h : ¬ isclose0 d) : addMask d (isclose0 d) = d := by simp [addMask, h]

theorem coe_min' (x y : ℝ) : min (x : EReal) (y : EReal) = ((min x y : ℝ) : EReal) := (EReal.coe_strictMono.monotone.map_min).symm

theorem coe_max' (x y : ℝ) : max (x : EReal) (y : EReal) = ((max x y : ℝ) : EReal) := (EReal.coe_strictMono.monotone.map_max).symm

theorem not_isclose0_ne {d : ℝ} (h : ¬ isclose0 d) : d ≠ 0 := by
  rintro rfl
  exact h (by simp only [isclose0]; norm_num)

/-- a rounded quotient times its denominator -/
theorem Rounds.quot (hu : 0 ≤ u) {x d q : ℝ} (hd : d ≠ 0) (h : Rounds u (x / d) q) : |d * q - x| ≤ u * (|x| + u * |d|) := by
  have h1 := mul_le_mul_of_nonneg_left (h.le hu) (abs_nonneg d)
  rw [← abs_mul, mul_sub, mul_div_cancel₀ _ hd] at h1
  refine h1.trans (le_of_eq ?_)
  have : |d| * |x / d| = |x| := by rw [← abs_mul, mul_div_cancel₀ _ hd]
  linear_combination u * this

/-- the two bounds of an axis -/
theorem PlaneBoundR.err (hu : 0 ≤ u) (hu6 : u ≤ 1e-6) {L dim o d : ℝ} {bounds : EReal × EReal} (h : PlaneBoundR u dim o d bounds) (hL : 1 ≤ L) (ho : |o| ≤ L) (hd : |d| ≤ 2)
    (hdim : |dim| ≤ 2 * L) :
    |h.half - dim / 2| ≤ 1.001 * u * L ∧
    (¬ isclose0 d → |o + d * h.q1 - dim / 2| ≤ 5.1 * u * L ∧ |o + d * h.q2 - -(dim / 2)| ≤ 5.1 * u * L) := by
  replace hu6 : u ≤ 0.000001 := hu6.trans (by norm_num)
  have huL : u ≤ u * L := by nlinarith
  have huu : u * u ≤ 0.000001 * (u * L) := by
    have := mul_le_mul_of_nonneg_left hu6 hu
    nlinarith
  have hdim2 : |dim / 2| ≤ L := by rw [abs_div, abs_two]; linarith
  have e1 : |h.half - dim / 2| ≤ 1.001 * u * L := by
    have := h.hhalf.le hu
    have h2 : u * |dim / 2| ≤ u * L := mul_le_mul_of_nonneg_left hdim2 hu
    linarith
  refine ⟨e1, fun hz => ?_⟩
  have hd0 := not_isclose0_ne hz
  have hh : |h.half| ≤ 1.001 * L := by
    have := abs_add_le (h.half - dim / 2) (dim / 2)
    rw [sub_add_cancel] at this
    have h2 : u * L ≤ 0.000001 * L := mul_le_mul_of_nonneg_right hu6 (by linarith)
    linarith
  have key : ∀ {x num q : ℝ}, |x| ≤ 2.001 * L → Rounds u x num → Rounds u (-num / addMask d (isclose0 d)) q → |d * q + x| ≤ 4.01 * u * L := by
    intro x num q hx hn hq
    rw [addMask_skew hz] at hq
    have h1 := hq.quot hu hd0
    rw [abs_neg, sub_neg_eq_add] at h1
    have h2 := hn.le hu
    have h3 : u * |x| ≤ u * (2.001 * L) := mul_le_mul_of_nonneg_left hx hu
    have h4 : |num| ≤ 2.0011 * L := by
      have := abs_add_le (num - x) x
      rw [sub_add_cancel] at this
      have h5 : u * L ≤ 0.000001 * L := mul_le_mul_of_nonneg_right hu6 (by linarith)
      linarith
    have h5 : u * |num| ≤ u * (2.0011 * L) := mul_le_mul_of_nonneg_left h4 hu
    have h6 : u * (u * |d|) ≤ u * (u * 2) := mul_le_mul_of_nonneg_left (mul_le_mul_of_nonneg_left hd hu) hu
    have h7 := abs_sub (d * q + num) (num - x)
    rw [show d * q + num - (num - x) = d * q + x by ring] at h7
    linarith
  have ho' := abs_le.1 ho
  have hh' := abs_le.1 hh
  have k1 := key (abs_le.2 ⟨by linarith, by linarith⟩) h.hnum1 h.hq1
  have k2 := key (abs_le.2 ⟨by linarith, by linarith⟩) h.hnum2 h.hq2
  have e1' := abs_le.1 e1
  have k1' := abs_le.1 k1
  have k2' := abs_le.1 k2
  have : 0 ≤ u * L := by nlinarith
  exact ⟨abs_le.2 ⟨by linarith, by linarith⟩, abs_le.2 ⟨by linarith, by linarith⟩⟩

/-- where the position of a hit is, if it is between the bounds of the axis -/
theorem PlaneBoundR.sound (hu : 0 ≤ u) (hu6 : u ≤ 1e-6) {L dim o d t : ℝ} {bounds : EReal × EReal} (h : PlaneBoundR u dim o d bounds) (hL : 1 ≤ L) (ho : |o| ≤ L) (hd : |d| ≤ 2)
    (hdim : |dim| ≤ 2 * L) (h1 : (sort2 bounds).1 ≤ (t : EReal)) (h2 : (t : EReal) ≤ (sort2 bounds).2) :
    (isclose0 d → |o| ≤ |dim| / 2 + 1.001 * u * L) ∧ (¬ isclose0 d → |o + d * t| ≤ |dim| / 2 + 5.1 * u * L) := by
  obtain ⟨e1, e2⟩ := h.err hu hu6 hL ho hd hdim
  have hb := h.hbounds
  have hdim' : |dim / 2| = |dim| / 2 := by rw [abs_div, abs_two]
  have hdim'' := abs_le.1 hdim'.le
  refine ⟨fun hz => ?_, fun hz => ?_⟩
  · rw [if_pos hz, if_pos hz] at hb
    by_cases hc : |o| ≤ h.half
    · have := (abs_le.1 e1).2
      linarith
    · rw [if_neg hc] at hb
      rw [hb] at h1
      simp [sort2] at h1
  · rw [if_neg hz, if_neg hz] at hb
    obtain ⟨k1, k2⟩ := e2 hz
    have k1' := abs_le.1 k1
    have k2' := abs_le.1 k2
    rw [hb] at h1 h2
    simp only [sort2] at h1 h2
    rw [coe_min', EReal.coe_le_coe_iff] at h1
    rw [coe_max', EReal.coe_le_coe_iff] at h2
    have hmid : (d * t ≤ d * h.q1 ∨ d * t ≤ d * h.q2) ∧ (d * h.q1 ≤ d * t ∨ d * h.q2 ≤ d * t) := by
      rcases le_or_gt 0 d with h0 | h0
      · refine ⟨?_, ?_⟩
        · rcases le_max_iff.1 h2 with h | h
          · exact .inl (mul_le_mul_of_nonneg_left h h0)
          · exact .inr (mul_le_mul_of_nonneg_left h h0)
        · rcases min_le_iff.1 h1 with h | h
          · exact .inl (mul_le_mul_of_nonneg_left h h0)
          · exact .inr (mul_le_mul_of_nonneg_left h h0)
      · refine ⟨?_, ?_⟩
        · rcases min_le_iff.1 h1 with h | h
          · exact .inl (mul_le_mul_of_nonpos_left h h0.le)
          · exact .inr (mul_le_mul_of_nonpos_left h h0.le)
        · rcases le_max_iff.1 h2 with h | h
          · exact .inl (mul_le_mul_of_nonpos_left h h0.le)
          · exact .inr (mul_le_mul_of_nonpos_left h h0.le)
    obtain ⟨m1, m2⟩ := hmid
    rw [abs_le]
    constructor
    · rcases m2 with m | m <;> linarith
    · rcases m1 with m | m <;> linarith

/-- a hit well between the bounds of the axis passes the test -/
theorem PlaneBoundR.complete (hu : 0 ≤ u) (hu6 : u ≤ 1e-6) {L dim o d t : ℝ} {bounds : EReal × EReal} (h : PlaneBoundR u dim o d bounds) (hL : 1 ≤ L) (ho : |o| ≤ L) (hd : |d| ≤ 2)
    (hdim : |dim| ≤ 2 * L) (h1 : isclose0 d → |o| ≤ dim / 2 - 1.001 * u * L) (h2 : ¬ isclose0 d → |o + d * t| ≤ dim / 2 - 5.1 * u * L) :
    (sort2 bounds).1 ≤ (t : EReal) ∧ (t : EReal) ≤ (sort2 bounds).2 := by
  obtain ⟨e1, e2⟩ := h.err hu hu6 hL ho hd hdim
  have hb := h.hbounds
  by_cases hz : isclose0 d
  · have hc : |o| ≤ h.half := by
      have := (abs_le.1 e1).1
      have := h1 hz
      linarith
    rw [if_pos hz, if_pos hz, if_pos hc] at hb
    rw [hb]
    simp [sort2]
  · rw [if_neg hz, if_neg hz] at hb
    obtain ⟨k1, k2⟩ := e2 hz
    have k1' := abs_le.1 k1
    have k2' := abs_le.1 k2
    have k3 := abs_le.1 (h2 hz)
    have m1 : d * t ≤ d * h.q1 := by linarith
    have m2 : d * h.q2 ≤ d * t := by linarith
    rw [hb]
    simp only [sort2]
    rw [coe_min', EReal.coe_le_coe_iff, coe_max', EReal.coe_le_coe_iff]
    rcases lt_or_gt_of_ne (not_isclose0_ne hz) with h0 | h0
    · exact ⟨min_le_of_left_le ((mul_le_mul_left_of_neg h0).1 m1), le_max_of_le_right ((mul_le_mul_left_of_neg h0).1 m2)⟩
    · exact ⟨min_le_of_right_le (le_of_mul_le_mul_left m2 h0), le_max_of_le_left (le_of_mul_le_mul_left m1 h0)⟩

/-- The ray and the plane lie within `L` (in the coordinates of the plane), and the direction has about length one. -/
structure PlaneNear (L width length : ℝ) (ray : Ray) : Prop where
  one_le : 1 ≤ L
  start : ∀ i : Fin 3, |ray.o i.castSucc| ≤ L
  len : |dot3 ray.d ray.d - 1| ≤ 0.01
  width : |width| ≤ 2 * L
  length : |length| ≤ 2 * L

theorem PlaneNear.comp {L width length : ℝ} {ray : Ray} (h : PlaneNear L width length ray) : |ray.d 0| ≤ 2 ∧ |ray.d 1| ≤ 2 ∧ |ray.d 2| ≤ 2 := by
  have h1 := (abs_le.1 h.len).2
  simp only [dot3] at h1
  norm_num at h1
  have : ∀ x : ℝ, x * x ≤ 4 → |x| ≤ 2 := fun x hx => abs_le_of_sq_le_sq (by nlinarith) (by norm_num)
  refine ⟨this _ ?_, this _ ?_, this _ ?_⟩ <;> nlinarith [mul_self_nonneg (ray.d 0), mul_self_nonneg (ray.d 1), mul_self_nonneg (ray.d 2)]

/-- Rounded hits of a plane, in its own coordinates. -/
theorem PlaneR.sound (hu : 0 ≤ u) (hu6 : u ≤ 1e-6) {L width length t : ℝ} {ray : Ray} {hits : EReal × EReal} (hn : PlaneNear L width length ray) (h : PlaneR u width length ray hits)
    (ht : hits.1 = (t : EReal) ∨ hits.2 = (t : EReal)) :
    ¬ isclose0 (ray.d 2) ∧ t = h.t ∧ hits = ((t : EReal), (t : EReal)) ∧ |ray.o 2 + ray.d 2 * t| ≤ 1.001 * u * L ∧ |t| ≤ 4 * L ∧
    (isclose0 (ray.d 0) → |ray.o 0| ≤ |width| / 2 + 1.001 * u * L) ∧ (¬ isclose0 (ray.d 0) → |ray.o 0 + ray.d 0 * t| ≤ |width| / 2 + 5.1 * u * L) ∧
    (isclose0 (ray.d 1) → |ray.o 1| ≤ |length| / 2 + 1.001 * u * L) ∧ (¬ isclose0 (ray.d 1) → |ray.o 1 + ray.d 1 * t| ≤ |length| / 2 + 5.1 * u * L) := by
  obtain ⟨c0, c1, c2⟩ := hn.comp
  have o0 : |ray.o 0| ≤ L := hn.start 0
  have o1 : |ray.o 1| ≤ L := hn.start 1
  have o2 : |ray.o 2| ≤ L := hn.start 2
  have hL := hn.one_le
  have hh := h.hhits
  by_cases hz : isclose0 (ray.d 2)
  · simp only [if_pos hz, ite_self] at hh
    rw [hh] at ht
    rcases ht with ht | ht <;> exact absurd ht (EReal.coe_ne_top t).symm
  simp only [if_neg hz] at hh
  by_cases hin : (h.t : EReal) ≥ max (sort2 h.bx).1 (sort2 h.byy).1 ∧ (h.t : EReal) ≤ min (sort2 h.bx).2 (sort2 h.byy).2
  swap
  · rw [if_neg hin] at hh
    rw [hh] at ht
    rcases ht with ht | ht <;> exact absurd ht (EReal.coe_ne_top t).symm
  rw [if_pos hin] at hh
  have et : t = h.t := by
    rw [hh] at ht
    rcases ht with ht | ht <;> exact (EReal.coe_eq_coe_iff.1 ht).symm
  obtain ⟨i1, i2⟩ := hin
  rw [← et] at i1 i2 hh
  obtain ⟨x1, x2⟩ := h.hbx.sound hu hu6 hL o0 c0 hn.width ((le_max_left _ _).trans i1) (i2.trans (min_le_left _ _))
  obtain ⟨y1, y2⟩ := h.hbyy.sound hu hu6 hL o1 c1 hn.length ((le_max_right _ _).trans i1) (i2.trans (min_le_right _ _))
  have hq := h.ht
  rw [addMask_skew hz, ← et] at hq
  have hr := hq.quot hu (not_isclose0_ne hz)
  rw [abs_neg, sub_neg_eq_add] at hr
  replace hu6 : u ≤ 0.000001 := hu6.trans (by norm_num)
  have huL : u ≤ u * L := by nlinarith
  have hpl : |ray.o 2 + ray.d 2 * t| ≤ 1.001 * u * L := by
    rw [add_comm]
    have h1 : u * |ray.o 2| ≤ u * L := mul_le_mul_of_nonneg_left o2 hu
    have h2 : u * (u * |ray.d 2|) ≤ u * (0.000001 * 2) := mul_le_mul_of_nonneg_left (mul_le_mul hu6 c2 (abs_nonneg _) (by norm_num)) hu
    norm_num at hr ⊢
    linarith
  refine ⟨hz, et, hh, hpl, ?_, x1, x2, y1, y2⟩
  -- the length
  have hlen := (abs_le.1 hn.len).1
  norm_num at hlen
  have huL' : u * L ≤ 0.000001 * L := mul_le_mul_of_nonneg_right hu6 (by linarith)
  have big : ∀ {o d : ℝ}, 0.33 ≤ d * d → |o| ≤ L → |o + d * t| ≤ 1.001 * L → |t| ≤ 4 * L := by
    intro o d hd ho h
    have h1 := abs_sub (o + d * t) o
    rw [add_sub_cancel_left, abs_mul] at h1
    have h2 : 0.57 ≤ |d| := by
      apply abs_le_of_sq_le_sq' _ (abs_nonneg _) |>.2
      rw [sq_abs]; norm_num; nlinarith
    have h3 : 0.57 * |t| ≤ |d| * |t| := mul_le_mul_of_nonneg_right h2 (abs_nonneg _)
    norm_num at h h3
    linarith
  have w2 : |width| / 2 ≤ L := by linarith [hn.width]
  have l2 : |length| / 2 ≤ L := by linarith [hn.length]
  have sk : ∀ {d : ℝ}, isclose0 d → d * d < 0.001 := by
    intro d hd
    have : |d| ≤ 1e-8 := by
      simp only [isclose0, isclose] at hd
      norm_num at hd ⊢
      simpa using hd
    have := abs_le.1 this
    norm_num at this
    nlinarith
  by_cases b0 : 0.33 ≤ ray.d 0 * ray.d 0
  · have hs : ¬ isclose0 (ray.d 0) := fun hs => by have := sk hs; norm_num at b0 this; linarith
    exact big b0 o0 ((x2 hs).trans (by linarith))
  by_cases b1 : 0.33 ≤ ray.d 1 * ray.d 1
  · have hs : ¬ isclose0 (ray.d 1) := fun hs => by have := sk hs; norm_num at b1 this; linarith
    exact big b1 o1 ((y2 hs).trans (by linarith))
  · refine big (o := ray.o 2) (d := ray.d 2) ?_ o2 (hpl.trans (by linarith))
    simp only [dot3] at hlen
    push Not at b0 b1
    norm_num at b0 b1 ⊢
    linarith

/-- What passes the tests is reported. -/
theorem PlaneR.complete (hu : 0 ≤ u) (hu6 : u ≤ 1e-6) {L width length : ℝ} {ray : Ray} {hits : EReal × EReal} (hn : PlaneNear L width length ray) (h : PlaneR u width length ray hits)
    (hz : ¬ isclose0 (ray.d 2)) (x1 : isclose0 (ray.d 0) → |ray.o 0| ≤ width / 2 - 1.001 * u * L) (x2 : ¬ isclose0 (ray.d 0) → |ray.o 0 + ray.d 0 * h.t| ≤ width / 2 - 5.1 * u * L)
    (y1 : isclose0 (ray.d 1) → |ray.o 1| ≤ length / 2 - 1.001 * u * L) (y2 : ¬ isclose0 (ray.d 1) → |ray.o 1 + ray.d 1 * h.t| ≤ length / 2 - 5.1 * u * L) :
    hits = ((h.t : EReal), (h.t : EReal)) := by
  obtain ⟨c0, c1, c2⟩ := hn.comp
  obtain ⟨a1, a2⟩ := h.hbx.complete hu hu6 hn.one_le (hn.start 0) c0 hn.width x1 x2
  obtain ⟨b1, b2⟩ := h.hbyy.complete hu hu6 hn.one_le (hn.start 1) c1 hn.length y1 y2
  have hh := h.hhits
  simp only [if_neg hz] at hh
  rwa [if_pos ⟨max_le a1 b1, le_min a2 b2⟩] at hh

end PyRayT
