import Verif.Model.RoundingCube
import Verif.Props.RoundingMoved

/-!
# Property C119: what rounding does to the hits of cuboids
-/

namespace PyRayT

open Classical

variable {u : ℝ}

/-- the faces of an axis, as computed -/
theorem SlabR.err (hu : 0 ≤ u) (hu6 : u ≤ 1e-6) {L o d : ℝ} {s b : _} (h : SlabR u s o d b) (hL : 1 ≤ L) (ho : |o| ≤ L) (hd : |d| ≤ 2) (h1 : |s.1| ≤ L) (h2 : |s.2| ≤ L)
    (hz : ¬ isclose0 d) : |o + d * h.q1 - s.1| ≤ 4.01 * u * L ∧ |o + d * h.q2 - s.2| ≤ 4.01 * u * L := by
  replace hu6 : u ≤ 0.000001 := hu6.trans (by norm_num)
  have hd0 := not_isclose0_ne hz
  have huL : u ≤ u * L := by nlinarith
  have huu : u * u ≤ 0.000001 * (u * L) := by
    have := mul_le_mul_of_nonneg_left hu6 hu
    nlinarith
  have key : ∀ {x num q : ℝ}, |x| ≤ 2 * L → Rounds u x num → Rounds u (-num / addMask d (isclose0 d)) q → |d * q + x| ≤ 4.01 * u * L := by
    intro x num q hx hn hq
    rw [addMask_skew hz] at hq
    have h1 := hq.quot hu hd0
    rw [abs_neg, sub_neg_eq_add] at h1
    have h2 := hn.le hu
    have h3 : u * |x| ≤ u * (2 * L) := mul_le_mul_of_nonneg_left hx hu
    have h4 : |num| ≤ 2.0011 * L := by
      have := abs_add_le (num - x) x
      rw [sub_add_cancel] at this
      have h5 : u * L ≤ 0.000001 * L := mul_le_mul_of_nonneg_right hu6 (by linarith)
      linarith
    have h5 : u * |num| ≤ u * (2.0011 * L) := mul_le_mul_of_nonneg_left h4 hu
    have h6 : u * (u * |d|) ≤ u * (u * 2) := mul_le_mul_of_nonneg_left (mul_le_mul_of_nonneg_left hd hu) hu
    have h7 := abs_sub (d * q + num) (num - x)
    rw [show d * q + num - (num - x) = d * q + x by ring] at h7
    linarith
  have ho' := abs_le.1 ho
  have h1' := abs_le.1 h1
  have h2' := abs_le.1 h2
  have k1 := key (abs_le.2 ⟨by linarith, by linarith⟩) h.hnum1 h.hq1
  have k2 := key (abs_le.2 ⟨by linarith, by linarith⟩) h.hnum2 h.hq2
  exact ⟨by rwa [show o + d * h.q1 - s.1 = d * h.q1 + (o - s.1) by ring], by rwa [show o + d * h.q2 - s.2 = d * h.q2 + (o - s.2) by ring]⟩

theorem SlabR.bounds_eq {o d : ℝ} {s b : _} (h : SlabR u s o d b) (hz : ¬ isclose0 d) : b = (((min h.q1 h.q2 : ℝ) : EReal), ((max h.q1 h.q2 : ℝ) : EReal)) := by
  have hb := h.hbounds
  rw [if_pos hz, if_pos hz] at hb
  refine hb.trans ?_
  simp only [sort2]
  rw [coe_min', coe_max']

theorem SlabR.bounds_skew {o d : ℝ} {s b : _} (h : SlabR u s o d b) (hz : isclose0 d) : b = (if o ≤ s.2 ∧ o ≥ s.1 then ⊥ else ⊤, ⊤) := by
  have hb := h.hbounds
  rw [if_neg (not_not.2 hz), if_neg (not_not.2 hz)] at hb
  rw [hb]
  simp [sort2]

/-- where a hit between the bounds of the axis lies -/
theorem SlabR.sound (hu : 0 ≤ u) (hu6 : u ≤ 1e-6) {L o d t : ℝ} {s b : _} (h : SlabR u s o d b) (hL : 1 ≤ L) (ho : |o| ≤ L) (hd : |d| ≤ 2) (h1 : |s.1| ≤ L) (h2 : |s.2| ≤ L)
    (hs : s.1 ≤ s.2) (ht1 : b.1 ≤ (t : EReal)) (ht2 : (t : EReal) ≤ b.2) :
    (isclose0 d → s.1 ≤ o ∧ o ≤ s.2) ∧ (¬ isclose0 d → s.1 - 4.01 * u * L ≤ o + d * t ∧ o + d * t ≤ s.2 + 4.01 * u * L) := by
  refine ⟨fun hz => ?_, fun hz => ?_⟩
  · rw [h.bounds_skew hz] at ht1
    by_cases hc : o ≤ s.2 ∧ o ≥ s.1
    · exact ⟨hc.2, hc.1⟩
    · simp [if_neg hc] at ht1
  · obtain ⟨k1, k2⟩ := h.err hu hu6 hL ho hd h1 h2 hz
    have k1' := abs_le.1 k1
    have k2' := abs_le.1 k2
    rw [h.bounds_eq hz] at ht1 ht2
    rw [EReal.coe_le_coe_iff] at ht1 ht2
    have hmid : (d * t ≤ d * h.q1 ∨ d * t ≤ d * h.q2) ∧ (d * h.q1 ≤ d * t ∨ d * h.q2 ≤ d * t) := by
      rcases le_or_gt 0 d with h0 | h0
      · exact ⟨(le_max_iff.1 ht2).imp (mul_le_mul_of_nonneg_left · h0) (mul_le_mul_of_nonneg_left · h0),
          (min_le_iff.1 ht1).imp (mul_le_mul_of_nonneg_left · h0) (mul_le_mul_of_nonneg_left · h0)⟩
      · exact ⟨(min_le_iff.1 ht1).imp (mul_le_mul_of_nonpos_left · h0.le) (mul_le_mul_of_nonpos_left · h0.le),
          (le_max_iff.1 ht2).imp (mul_le_mul_of_nonpos_left · h0.le) (mul_le_mul_of_nonpos_left · h0.le)⟩
    obtain ⟨m1, m2⟩ := hmid
    constructor
    · rcases m2 with m | m <;> linarith
    · rcases m1 with m | m <;> linarith

/-- a hit at a bound of the axis lies on a face -/
theorem SlabR.face (hu : 0 ≤ u) (hu6 : u ≤ 1e-6) {L o d t : ℝ} {s b : _} (h : SlabR u s o d b) (hL : 1 ≤ L) (ho : |o| ≤ L) (hd : |d| ≤ 2) (h1 : |s.1| ≤ L) (h2 : |s.2| ≤ L)
    (ht : b.1 = (t : EReal) ∨ b.2 = (t : EReal)) : |o + d * t - s.1| ≤ 4.01 * u * L ∨ |o + d * t - s.2| ≤ 4.01 * u * L := by
  by_cases hz : isclose0 d
  · rw [h.bounds_skew hz] at ht
    exfalso
    rcases ht with ht | ht
    · simp only at ht
      split_ifs at ht
      · exact EReal.bot_ne_coe _ ht
      · exact EReal.top_ne_coe _ ht
    · exact EReal.top_ne_coe _ ht
  · obtain ⟨k1, k2⟩ := h.err hu hu6 hL ho hd h1 h2 hz
    rw [h.bounds_eq hz] at ht
    rw [EReal.coe_eq_coe_iff, EReal.coe_eq_coe_iff] at ht
    have : t = h.q1 ∨ t = h.q2 := by
      rcases ht with ht | ht
      · rcases min_choice h.q1 h.q2 with h | h <;> rw [h] at ht <;> simp [ht]
      · rcases max_choice h.q1 h.q2 with h | h <;> rw [h] at ht <;> simp [ht]
    rcases this with rfl | rfl
    · exact .inl k1
    · exact .inr k2

/-- a distance well between the faces is between the bounds -/
theorem SlabR.complete (hu : 0 ≤ u) (hu6 : u ≤ 1e-6) {L o d t : ℝ} {s b : _} (h : SlabR u s o d b) (hL : 1 ≤ L) (ho : |o| ≤ L) (hd : |d| ≤ 2) (h1 : |s.1| ≤ L) (h2 : |s.2| ≤ L)
    (hc1 : isclose0 d → s.1 ≤ o ∧ o ≤ s.2) (hc2 : ¬ isclose0 d → s.1 + 4.01 * u * L < o + d * t ∧ o + d * t < s.2 - 4.01 * u * L) : b.1 < (t : EReal) ∧ (t : EReal) < b.2 := by
  by_cases hz : isclose0 d
  · rw [h.bounds_skew hz, if_pos ⟨(hc1 hz).2, (hc1 hz).1⟩]
    exact ⟨EReal.bot_lt_coe t, EReal.coe_lt_top t⟩
  · obtain ⟨k1, k2⟩ := h.err hu hu6 hL ho hd h1 h2 hz
    have k1' := abs_le.1 k1
    have k2' := abs_le.1 k2
    obtain ⟨c1, c2⟩ := hc2 hz
    have m1 : d * h.q1 < d * t := by linarith
    have m2 : d * t < d * h.q2 := by linarith
    rw [h.bounds_eq hz]
    simp only [EReal.coe_lt_coe_iff]
    rcases lt_or_gt_of_ne (not_isclose0_ne hz) with h0 | h0
    · exact ⟨min_lt_of_right_lt ((mul_lt_mul_left_of_neg h0).1 m2), lt_max_of_lt_left ((mul_lt_mul_left_of_neg h0).1 m1)⟩
    · exact ⟨min_lt_of_left_lt (lt_of_mul_lt_mul_left m1 h0.le), lt_max_of_lt_right (lt_of_mul_lt_mul_left m2 h0.le)⟩

/-- beyond a face and going away from it -/
theorem SlabR.away (hu : 0 ≤ u) (hu6 : u ≤ 1e-6) {L o d : ℝ} {s b : _} (h : SlabR u s o d b) (hL : 1 ≤ L) (ho : |o| ≤ L) (hd : |d| ≤ 2) (h1 : |s.1| ≤ L) (h2 : |s.2| ≤ L)
    (hs : s.1 ≤ s.2) (hc : 0 < d ∧ s.2 + 4.01 * u * L < o ∨ d < 0 ∧ o < s.1 - 4.01 * u * L) : b.1 = ⊤ ∨ b.2 < 0 := by
  have huL : 0 ≤ u * L := mul_nonneg hu (by linarith)
  by_cases hz : isclose0 d
  · left
    rw [h.bounds_skew hz, if_neg]
    rintro ⟨c1, c2⟩
    rcases hc with ⟨-, hc⟩ | ⟨-, hc⟩ <;> linarith
  · right
    obtain ⟨k1, k2⟩ := h.err hu hu6 hL ho hd h1 h2 hz
    have k1' := abs_le.1 k1
    have k2' := abs_le.1 k2
    rw [h.bounds_eq hz]
    show ((max h.q1 h.q2 : ℝ) : EReal) < ((0 : ℝ) : EReal)
    rw [EReal.coe_lt_coe_iff, max_lt_iff]
    rcases hc with ⟨h0, hc⟩ | ⟨h0, hc⟩
    · exact ⟨lt_of_mul_lt_mul_left (a := d) (by linarith) h0.le, lt_of_mul_lt_mul_left (a := d) (by linarith) h0.le⟩
    · exact ⟨(mul_lt_mul_left_of_neg h0).1 (by linarith), (mul_lt_mul_left_of_neg h0).1 (by linarith)⟩

/-- The ray and the cuboid lie within `L` (in the coordinates of the cuboid), and the direction has about length one. -/
structure CubeNear (L : ℝ) (c1 c2 : Fin 3 → ℝ) (ray : Ray) : Prop where
  one_le : 1 ≤ L
  start : ∀ i : Fin 3, |ray.o i.castSucc| ≤ L
  len : |dot3 ray.d ray.d - 1| ≤ 0.01
  corner1 : ∀ i, |c1 i| ≤ L
  corner2 : ∀ i, |c2 i| ≤ L

namespace CubeNear

variable {L : ℝ} {c1 c2 : Fin 3 → ℝ} {ray : Ray}

theorem comp (h : CubeNear L c1 c2 ray) (i : Fin 3) : |ray.d i.castSucc| ≤ 2 := by
  have h1 := (abs_le.1 h.len).2
  simp only [dot3] at h1
  norm_num at h1
  have : ∀ x : ℝ, x * x ≤ 4 → |x| ≤ 2 := fun x hx => abs_le_of_sq_le_sq (by nlinarith) (by norm_num)
  apply this
  have a0 := mul_self_nonneg (ray.d 0)
  have a1 := mul_self_nonneg (ray.d 1)
  have a2 := mul_self_nonneg (ray.d 2)
  fin_cases i
  · show ray.d 0 * ray.d 0 ≤ 4; linarith
  · show ray.d 1 * ray.d 1 ≤ 4; linarith
  · show ray.d 2 * ray.d 2 ≤ 4; linarith

/-- one component of the direction is large -/
theorem main (h : CubeNear L c1 c2 ray) : ∃ i : Fin 3, 0.57 ≤ |ray.d i.castSucc| := by
  by_contra hn
  push Not at hn
  have h1 := (abs_le.1 h.len).1
  simp only [dot3] at h1
  have sq : ∀ x : ℝ, |x| < 0.57 → x * x ≤ 0.3249 := fun x hx => by
    rw [← abs_mul_abs_self]
    have := mul_le_mul hx.le hx.le (abs_nonneg _) (by norm_num)
    norm_num at this ⊢; linarith
  have a0 := sq _ (hn 0)
  have a1 := sq _ (hn 1)
  have a2 := sq _ (hn 2)
  replace a0 : ray.d 0 * ray.d 0 ≤ 0.3249 := a0
  replace a1 : ray.d 1 * ray.d 1 ≤ 0.3249 := a1
  replace a2 : ray.d 2 * ray.d 2 ≤ 0.3249 := a2
  norm_num at h1 a0 a1 a2
  linarith

theorem low (h : CubeNear L c1 c2 ray) (i : Fin 3) : |(cubeSpans c1 c2 i).1| ≤ L := by
  simp only [cubeSpans]
  rcases min_choice (c1 i) (c2 i) with e | e <;> rw [e]
  exacts [h.corner1 i, h.corner2 i]

theorem high (h : CubeNear L c1 c2 ray) (i : Fin 3) : |(cubeSpans c1 c2 i).2| ≤ L := by
  simp only [cubeSpans]
  rcases max_choice (c1 i) (c2 i) with e | e <;> rw [e]
  exacts [h.corner1 i, h.corner2 i]

end CubeNear

theorem cubeSpans_le (c1 c2 : Fin 3 → ℝ) (i : Fin 3) : (cubeSpans c1 c2 i).1 ≤ (cubeSpans c1 c2 i).2 := min_le_max

theorem isclose0_lt {d : ℝ} (h : 0.57 ≤ |d|) : ¬ isclose0 d := by
  intro hz
  have hz' : |d| ≤ 1e-8 := hz
  norm_num at h hz'
  linarith

/-- a hit is between the bounds of all axes and at a bound of one of them -/
theorem CubeR.axes {c1 c2 : Fin 3 → ℝ} {ray : Ray} {hits : EReal × EReal} {t : ℝ} (h : CubeR u c1 c2 ray hits) (ht : hits.1 = (t : EReal) ∨ hits.2 = (t : EReal)) :
    (∀ i, (h.b i).1 ≤ (t : EReal) ∧ (t : EReal) ≤ (h.b i).2) ∧ ∃ i, (h.b i).1 = (t : EReal) ∨ (h.b i).2 = (t : EReal) := by
  have hh := h.hhits
  by_cases hc : max (max (h.b 0).1 (h.b 1).1) (h.b 2).1 < min (min (h.b 0).2 (h.b 1).2) (h.b 2).2
  swap
  · rw [if_neg hc] at hh
    rw [hh] at ht
    simp at ht
  rw [if_pos hc] at hh
  rw [hh] at ht
  have l : ∀ i, (h.b i).1 ≤ max (max (h.b 0).1 (h.b 1).1) (h.b 2).1 := by
    intro i; fin_cases i <;> simp
  have r : ∀ i, min (min (h.b 0).2 (h.b 1).2) (h.b 2).2 ≤ (h.b i).2 := by
    intro i; fin_cases i <;> simp
  rcases ht with ht | ht
  · simp only at ht
    refine ⟨fun i => ⟨(l i).trans ht.le, (ht.symm.le.trans hc.le).trans (r i)⟩, ?_⟩
    rcases max_choice (max (h.b 0).1 (h.b 1).1) (h.b 2).1 with e | e
    · rcases max_choice (h.b 0).1 (h.b 1).1 with e' | e'
      · exact ⟨0, .inl (by rw [← ht, e, e'])⟩
      · exact ⟨1, .inl (by rw [← ht, e, e'])⟩
    · exact ⟨2, .inl (by rw [← ht, e])⟩
  · simp only at ht
    refine ⟨fun i => ⟨(l i).trans (hc.le.trans ht.le), ht.symm.le.trans (r i)⟩, ?_⟩
    rcases min_choice (min (h.b 0).2 (h.b 1).2) (h.b 2).2 with e | e
    · rcases min_choice (h.b 0).2 (h.b 1).2 with e' | e'
      · exact ⟨0, .inr (by rw [← ht, e, e'])⟩
      · exact ⟨1, .inr (by rw [← ht, e, e'])⟩
    · exact ⟨2, .inr (by rw [← ht, e])⟩

/-- where the hits lie, in the coordinates of the cuboid -/
theorem CubeR.sound (hu : 0 ≤ u) (hu6 : u ≤ 1e-6) {L t : ℝ} {c1 c2 : Fin 3 → ℝ} {ray : Ray} {hits : EReal × EReal} (hn : CubeNear L c1 c2 ray) (h : CubeR u c1 c2 ray hits)
    (ht : hits.1 = (t : EReal) ∨ hits.2 = (t : EReal)) :
    |t| ≤ 4 * L ∧
    (∀ i : Fin 3, min (c1 i) (c2 i) - (4.01 * u * L + 1e-8 * |t|) ≤ ray.o i.castSucc + ray.d i.castSucc * t ∧
      ray.o i.castSucc + ray.d i.castSucc * t ≤ max (c1 i) (c2 i) + (4.01 * u * L + 1e-8 * |t|)) ∧
    ∃ i : Fin 3, |ray.o i.castSucc + ray.d i.castSucc * t - min (c1 i) (c2 i)| ≤ 4.01 * u * L ∨ |ray.o i.castSucc + ray.d i.castSucc * t - max (c1 i) (c2 i)| ≤ 4.01 * u * L := by
  have huL : 0 ≤ u * L := mul_nonneg hu (by linarith [hn.one_le])
  have huL6 : u * L ≤ 0.000001 * L := mul_le_mul_of_nonneg_right (hu6.trans (by norm_num)) (by linarith [hn.one_le])
  obtain ⟨a1, i, a2⟩ := h.axes ht
  have s := fun i => (h.hb i).sound hu hu6 hn.one_le (hn.start i) (hn.comp i) (hn.low i) (hn.high i) (cubeSpans_le c1 c2 i) (a1 i).1 (a1 i).2
  refine ⟨?_, fun i => ?_, i, (h.hb i).face hu hu6 hn.one_le (hn.start i) (hn.comp i) (hn.low i) (hn.high i) a2⟩
  · obtain ⟨j, hj⟩ := hn.main
    obtain ⟨e1, e2⟩ := (s j).2 (isclose0_lt hj)
    have l1 := abs_le.1 (hn.low j)
    have l2 := abs_le.1 (hn.high j)
    have l3 := abs_le.1 (hn.start j)
    have : |ray.d j.castSucc * t| ≤ 2.1 * L := by
      rw [abs_le]
      constructor <;> linarith
    rw [abs_mul] at this
    have := mul_le_mul_of_nonneg_right hj (abs_nonneg t)
    linarith
  · have hx : 0 ≤ 1e-8 * |t| := by positivity
    by_cases hz : isclose0 (ray.d i.castSucc)
    · obtain ⟨e1, e2⟩ := (s i).1 hz
      simp only [cubeSpans] at e1 e2
      have : |ray.d i.castSucc * t| ≤ 1e-8 * |t| := by rw [abs_mul]; exact mul_le_mul_of_nonneg_right hz (abs_nonneg _)
      have := abs_le.1 this
      constructor <;> linarith
    · obtain ⟨e1, e2⟩ := (s i).2 hz
      simp only [cubeSpans] at e1 e2
      constructor <;> linarith

/-- a distance at which the ray is well inside is between the hits -/
theorem CubeR.complete (hu : 0 ≤ u) (hu6 : u ≤ 1e-6) {L T : ℝ} {c1 c2 : Fin 3 → ℝ} {ray : Ray} {hits : EReal × EReal} (hn : CubeNear L c1 c2 ray) (h : CubeR u c1 c2 ray hits)
    (hT : ∀ i : Fin 3, min (c1 i) (c2 i) + (4.01 * u * L + 1e-8 * |T|) < ray.o i.castSucc + ray.d i.castSucc * T ∧
      ray.o i.castSucc + ray.d i.castSucc * T < max (c1 i) (c2 i) - (4.01 * u * L + 1e-8 * |T|)) :
    ∃ t1 t2 : ℝ, hits = ((t1 : EReal), (t2 : EReal)) ∧ t1 < T ∧ T < t2 := by
  have huL : 0 ≤ u * L := mul_nonneg hu (by linarith [hn.one_le])
  have hx : 0 ≤ 1e-8 * |T| := by positivity
  have s : ∀ i, (h.b i).1 < (T : EReal) ∧ (T : EReal) < (h.b i).2 := by
    intro i
    obtain ⟨e1, e2⟩ := hT i
    refine (h.hb i).complete hu hu6 hn.one_le (hn.start i) (hn.comp i) (hn.low i) (hn.high i) (fun hz => ?_) (fun hz => ?_)
    · have : |ray.d i.castSucc * T| ≤ 1e-8 * |T| := by rw [abs_mul]; exact mul_le_mul_of_nonneg_right hz (abs_nonneg _)
      have := abs_le.1 this
      simp only [cubeSpans]
      constructor <;> linarith
    · simp only [cubeSpans]
      constructor <;> linarith
  have hh := h.hhits
  set lo := max (max (h.b 0).1 (h.b 1).1) (h.b 2).1 with hlo
  set hi := min (min (h.b 0).2 (h.b 1).2) (h.b 2).2 with hhi
  have g1 : lo < (T : EReal) := max_lt (max_lt (s 0).1 (s 1).1) (s 2).1
  have g2 : (T : EReal) < hi := lt_min (lt_min (s 0).2 (s 1).2) (s 2).2
  rw [if_pos (g1.trans g2)] at hh
  obtain ⟨j, hj⟩ := hn.main
  have hb := (h.hb j).bounds_eq (isclose0_lt hj)
  have l : (h.b j).1 ≤ lo := by rw [hlo]; fin_cases j <;> simp
  have r : hi ≤ (h.b j).2 := by rw [hhi]; fin_cases j <;> simp
  rw [hb] at l r
  have f1 : lo ≠ ⊤ := ne_top_of_lt g1
  have f2 : lo ≠ ⊥ := ne_bot_of_gt (lt_of_lt_of_le (EReal.bot_lt_coe _) l)
  have f3 : hi ≠ ⊥ := ne_bot_of_gt g2
  have f4 : hi ≠ ⊤ := ne_top_of_lt (lt_of_le_of_lt r (EReal.coe_lt_top _))
  refine ⟨lo.toReal, hi.toReal, ?_, ?_, ?_⟩
  · rw [hh, EReal.coe_toReal f1 f2, EReal.coe_toReal f4 f3]
  · rw [← EReal.coe_lt_coe_iff, EReal.coe_toReal f1 f2]; exact g1
  · rw [← EReal.coe_lt_coe_iff, EReal.coe_toReal f4 f3]; exact g2

/-- the computed ray in the coordinates of the cuboid -/
theorem LocalR.nearCube (hu : 0 ≤ u) (hu6 : u ≤ 1e-6) {L A : ℝ} {c1 c2 : Fin 3 → ℝ} {M : Mat4} {ray loc : Ray} (hL : 1 ≤ L) (hA : norm4 (cut ray.o) ≤ A) (hA2 : A ≤ 1.001 * L) (hp : ray.o 3 = 1)
    (hd : |ray.d 0 ^ 2 + ray.d 1 ^ 2 + ray.d 2 ^ 2 - 1| ≤ 0.0001) (hv : ray.d 3 = 0) (hM : Spec.Placed L M) (hl : LocalR u M ray loc) (h1 : ∀ i, |c1 i| ≤ L) (h2 : ∀ i, |c2 i| ≤ L) :
    (∀ i : Fin 3, |loc.o i.castSucc - Spec.seen M ray.o i.castSucc| ≤ 8.05 * u * L) ∧ (∀ i : Fin 3, |loc.d i.castSucc - Spec.facing M ray.d i.castSucc| ≤ 4.01 * u) ∧
    CubeNear (2.01 * L) c1 c2 loc := by
  have e1 := hl.1.point_err hu hu6 hM hL (hA.trans (by linarith)) hp
  have e2 := hl.2.dir_err hu hu6 hM (by linarith) ((unit_le hd).trans (by norm_num)) hv
  refine ⟨e1, e2, by linarith, fun i => ?_, (hl.2.unit hu hu6 hM (by linarith) hd hv).trans (by norm_num), fun i => (h1 i).trans (by linarith), fun i => (h2 i).trans (by linarith)⟩
  have h3 := (abs_le_norm4 (Spec.seen M ray.o) i.castSucc).trans (hM.seen_le (by linarith) hA)
  have h4 := abs_add_le (loc.o i.castSucc - Spec.seen M ray.o i.castSucc) (Spec.seen M ray.o i.castSucc)
  rw [sub_add_cancel] at h4
  have h5 := e1 i
  have h6 : u * L ≤ 1e-6 * L := mul_le_mul_of_nonneg_right hu6 (by linarith)
  norm_num at h3 h5 h6 ⊢
  linarith

/-- **C119 (1).** Hits of a cuboid that has been moved and turned: the place to which the tracer advances the ray lies on one of the planes of its faces up to `70 u L`, and
within the cuboid up to `70 u L` (and up to `1e-7 L`, since the code takes slopes below `1e-8` for zero). -/
theorem C119_cube (hu : 0 ≤ u) (hu6 : u ≤ 1e-6) {L t : ℝ} {c1 c2 : Fin 3 → ℝ} {M : Mat4} {ray loc : Ray} {hits : EReal × EReal} {p : Vec4} (hs : Spec.Scene L ray) (hM : Spec.Placed L M)
    (h1 : ∀ i, |c1 i| ≤ L) (h2 : ∀ i, |c2 i| ≤ L) (hl : LocalR u M ray loc) (h : CubeR u c1 c2 loc hits) (ht : hits.1 = (t : EReal) ∨ hits.2 = (t : EReal)) (hp : AdvanceR u ray t p) :
    (∀ i : Fin 3, min (c1 i) (c2 i) - (70 * u * L + 1e-7 * L) ≤ Spec.seen M p i.castSucc ∧ Spec.seen M p i.castSucc ≤ max (c1 i) (c2 i) + (70 * u * L + 1e-7 * L)) ∧
    (∃ i : Fin 3, |Spec.seen M p i.castSucc - min (c1 i) (c2 i)| ≤ 70 * u * L ∨ |Spec.seen M p i.castSucc - max (c1 i) (c2 i)| ≤ 70 * u * L) ∧ |t| ≤ 8.04 * L := by
  have hL := hs.one_le
  obtain ⟨e1, e2, hn⟩ := hl.nearCube hu hu6 hL hs.start' (by linarith) hs.isPoint hs.length hs.isVector hM h1 h2
  obtain ⟨a1, a2, j, a3⟩ := h.sound hu hu6 hn ht
  have huL : 0 ≤ u * L := mul_nonneg hu (by linarith)
  have ht2 : |t| ≤ 8.04 * L := a1.trans (by linarith)
  have key : ∀ i : Fin 3, |Spec.seen M p i.castSucc - (loc.o i.castSucc + loc.d i.castSucc * t)| ≤ 57.5 * u * L := fun i =>
    (seen_advance hu hu6 hs hM e1 e2 hp ht2 (by norm_num) i).trans (mul_le_mul_of_nonneg_right (mul_le_mul_of_nonneg_right (by norm_num) hu) (by linarith))
  have ht3 : 1e-8 * |t| ≤ 1e-7 * L := by
    have := mul_le_mul_of_nonneg_left ht2 (show (0 : ℝ) ≤ 1e-8 by norm_num)
    norm_num at this ⊢; linarith
  refine ⟨fun i => ?_, ⟨j, ?_⟩, ht2⟩
  · obtain ⟨b1, b2⟩ := a2 i
    have b3 := abs_le.1 (key i)
    constructor <;> linarith
  · have b3 := abs_le.1 (key j)
    refine a3.imp (fun a => ?_) (fun a => ?_)
    · have b4 := abs_le.1 a
      exact abs_le.2 ⟨by linarith, by linarith⟩
    · have b4 := abs_le.1 a
      exact abs_le.2 ⟨by linarith, by linarith⟩

theorem norm4_le_of_comp {q : Vec4} {L : ℝ} (hL : 0 ≤ L) (h : ∀ i : Fin 3, |q i.castSucc| ≤ L) (h3 : q 3 = 0) : norm4 q ≤ 1.733 * L := by
  refine (abs_le_of_sq_le_sq' ?_ (by positivity)).2
  rw [norm4, Real.sq_sqrt (by positivity), h3]
  have c0 := pow_le_pow_left₀ (abs_nonneg _) (h 0) 2
  have c1 := pow_le_pow_left₀ (abs_nonneg _) (h 1) 2
  have c2 := pow_le_pow_left₀ (abs_nonneg _) (h 2) 2
  rw [sq_abs] at c0 c1 c2
  replace c0 : q 0 ^ 2 ≤ L ^ 2 := c0
  replace c1 : q 1 ^ 2 ≤ L ^ 2 := c1
  replace c2 : q 2 ^ 2 ≤ L ^ 2 := c2
  have := sq_nonneg L
  rw [mul_pow]
  norm_num
  linarith

/-- **C119 (2).** No cuboids get lost: if at the distance `T` the exact ray is inside the cuboid by `35 u L + 1e-8 |T|`, then two hits are reported, one before `T` and one behind it. -/
theorem C119_found (hu : 0 ≤ u) (hu6 : u ≤ 1e-6) {L T : ℝ} {c1 c2 : Fin 3 → ℝ} {M : Mat4} {ray loc : Ray} {hits : EReal × EReal} (hs : Spec.Scene L ray) (hM : Spec.Placed L M)
    (h1 : ∀ i, |c1 i| ≤ L) (h2 : ∀ i, |c2 i| ≤ L) (hl : LocalR u M ray loc) (h : CubeR u c1 c2 loc hits)
    (hT : ∀ i : Fin 3, min (c1 i) (c2 i) + (35 * u * L + 1e-8 * |T|) < Spec.seen M (ray.o + T • ray.d) i.castSucc ∧
      Spec.seen M (ray.o + T • ray.d) i.castSucc < max (c1 i) (c2 i) - (35 * u * L + 1e-8 * |T|)) :
    ∃ t1 t2 : ℝ, hits = ((t1 : EReal), (t2 : EReal)) ∧ t1 < T ∧ T < t2 := by
  have hL := hs.one_le
  have hL0 : 0 < L := by linarith
  obtain ⟨e1, e2, hn⟩ := hl.nearCube hu hu6 hL hs.start' (by linarith) hs.isPoint hs.length hs.isVector hM h1 h2
  have huL : 0 ≤ u * L := mul_nonneg hu hL0.le
  have hx : 0 ≤ 1e-8 * |T| := by positivity
  have hTL : |T| ≤ 3.78 * L := by
    set q := Spec.seen M (ray.o + T • ray.d) with hq
    have qn : norm4 q ≤ 1.733 * L := by
      refine norm4_le_of_comp hL0.le (fun i => ?_) (by simp [hq, Spec.seen])
      obtain ⟨a1, a2⟩ := hT i
      have b1 := abs_le.1 (h1 i)
      have b2 := abs_le.1 (h2 i)
      have b3 : -L ≤ min (c1 i) (c2 i) := le_min b1.1 b2.1
      have b4 : max (c1 i) (c2 i) ≤ L := max_le b1.2 b2.2
      exact abs_le.2 ⟨by linarith, by linarith⟩
    have hT2 : T • Spec.facing M ray.d = q - Spec.seen M ray.o := by
      rw [hq, Spec.seen_step]; abel
    have hT3 : |T| * norm4 (Spec.facing M ray.d) ≤ 3.7332 * L := by
      rw [← norm4_smul, hT2]
      have c1 := norm4_add_le q (-Spec.seen M ray.o)
      rw [norm4_neg, ← sub_eq_add_neg] at c1
      have c2 := hM.seen_le hL0.le hs.start'
      norm_num at c2 qn ⊢
      linarith
    have hT4 : 0.99 ≤ norm4 (Spec.facing M ray.d) := by
      have c1 := (abs_le.1 (hM.facing_sq ray.d)).1
      rw [norm4_cut_sq] at c1
      have c2 := (abs_le.1 hs.length).1
      have c3 : dot3 ray.d ray.d = ray.d 0 ^ 2 + ray.d 1 ^ 2 + ray.d 2 ^ 2 := by simp only [dot3]; ring
      rw [← c3] at c2
      refine (abs_le_of_sq_le_sq' ?_ (norm4_nonneg _)).2
      norm_num at c1 c2 ⊢
      linarith
    have := mul_le_mul_of_nonneg_left hT4 (abs_nonneg T)
    norm_num at this hT3 ⊢
    linarith
  refine h.complete hu hu6 hn (fun i => ?_)
  have step : Spec.seen M (ray.o + T • ray.d) i.castSucc = Spec.seen M ray.o i.castSucc + T * Spec.facing M ray.d i.castSucc := by rw [Spec.seen_step]; rfl
  obtain ⟨a1, a2⟩ := hT i
  rw [step] at a1 a2
  have b1 := abs_le.1 (e1 i)
  have b2 : |(loc.d i.castSucc - Spec.facing M ray.d i.castSucc) * T| ≤ 4.01 * u * (3.78 * L) := by rw [abs_mul]; exact mul_le_mul (e2 i) hTL (abs_nonneg _) (by positivity)
  have b2' := abs_le.1 b2
  norm_num at a1 a2 b1 b2' ⊢
  constructor <;> linarith

/-- the ray after the step off the surface -/
theorem AdvanceR.off (hu : 0 ≤ u) (hu6 : u ≤ 1e-6) {L η : ℝ} {M : Mat4} {p w p' : Vec4} (hs : Spec.Scene L ⟨p, w⟩) (hM : Spec.Placed L M) (hη : 0 ≤ η) (hη2 : η ≤ 0.001)
    (hp' : AdvanceR u ⟨p, w⟩ η p') :
    norm4 (cut p') ≤ L + 0.0012 * L ∧ ∀ i : Fin 3, |Spec.seen M p' i.castSucc - (Spec.seen M p i.castSucc + η * Spec.facing M w i.castSucc)| ≤ 2.01 * u * L := by
  have hL := hs.one_le
  have hL0 : 0 < L := by linarith
  have huL : 0 ≤ u * L := mul_nonneg hu hL0.le
  have huL6 : u * L ≤ 1e-6 * L := mul_le_mul_of_nonneg_right hu6 hL0.le
  have hd := unit_le hs.length
  have hT : norm4 (cut (η • (⟨p, w⟩ : Ray).d)) ≤ 0.0011 * L := by
    show norm4 (cut (η • w)) ≤ _
    rw [cut_smul, norm4_smul, abs_of_nonneg hη]
    have := mul_le_mul hη2 hd (norm4_nonneg _) (by norm_num)
    norm_num at this ⊢
    linarith
  have hB : norm4 (cut ((⟨p, w⟩ : Ray).o + η • (⟨p, w⟩ : Ray).d)) ≤ 1.0011 * L := by
    rw [cut_add]
    have := norm4_add_le (cut (⟨p, w⟩ : Ray).o) (cut (η • (⟨p, w⟩ : Ray).d))
    have := hs.start'
    norm_num at hT ⊢
    linarith
  have e1 := hp'.err_scene hu hu6 hL hT (by norm_num) hB (by norm_num) (by norm_num)
  replace e1 : norm4 (cut p' - cut (p + η • w)) ≤ (0.0011 + 1.0011 + 0.0001) * u * L := e1
  replace hB : norm4 (cut (p + η • w)) ≤ 1.0011 * L := hB
  refine ⟨?_, fun i => ?_⟩
  · have := norm4_add_le (cut p' - cut (p + η • w)) (cut (p + η • w))
    rw [sub_add_cancel] at this
    norm_num at e1 hB huL6 ⊢
    linarith
  · rw [← cut_vsub] at e1
    have a3 := abs_facing_le hM e1 i.castSucc
    have e3 : Spec.facing M (p' - (p + η • w)) i.castSucc = Spec.seen M p' i.castSucc - (Spec.seen M p i.castSucc + η * Spec.facing M w i.castSucc) := by
      have := congrFun (Spec.seen_step M p w η) i.castSucc
      simp only [Pi.add_apply, Pi.smul_apply, smul_eq_mul] at this
      rw [← this, Spec.facing_sub, Spec.seen_eq, Spec.seen_eq]
      simp only [Pi.add_apply, Pi.sub_apply]; ring
    rw [e3] at a3
    refine a3.trans ?_
    norm_num
    linarith

/-- the computed ray after the step off the surface, in the coordinates of the cuboid -/
theorem LocalR.nearCube' (hu : 0 ≤ u) (hu6 : u ≤ 1e-6) {L : ℝ} {c1 c2 : Fin 3 → ℝ} {M : Mat4} {loc : Ray} {p w p' : Vec4} (hs : Spec.Scene L ⟨p, w⟩) (hM : Spec.Placed L M)
    (h1 : ∀ i, |c1 i| ≤ L) (h2 : ∀ i, |c2 i| ≤ L) (hp3 : p' 3 = 1) (a1 : norm4 (cut p') ≤ L + 0.0012 * L) (hl : LocalR u M ⟨p', w⟩ loc) : CubeNear (2.01 * L) c1 c2 loc := by
  have hL := hs.one_le
  have e1 : ∀ i : Fin 3, |loc.o i.castSucc - Spec.seen M p' i.castSucc| ≤ 8.05 * u * L := hl.1.point_err hu hu6 hM hL (a1.trans (by linarith)) hp3
  refine ⟨by linarith, fun i => ?_, (hl.2.unit hu hu6 hM (by linarith) hs.length hs.isVector).trans (by norm_num), fun i => (h1 i).trans (by linarith), fun i => (h2 i).trans (by linarith)⟩
  have h3 := (abs_le_norm4 (Spec.seen M p') i.castSucc).trans (hM.seen_le (by linarith) a1)
  have h4 := abs_add_le (loc.o i.castSucc - Spec.seen M p' i.castSucc) (Spec.seen M p' i.castSucc)
  rw [sub_add_cancel] at h4
  have h5 := e1 i
  have h6 : u * L ≤ 1e-6 * L := mul_le_mul_of_nonneg_right hu6 (by linarith)
  norm_num at h3 h5 h6 ⊢
  linarith

/-- **C119 (3).** Why the tracer moves rays off cuboids: if a ray leaves the place `p` on a face of the cuboid outwards and is moved off by `η`, and the component of its direction across the
face exceeds `100 u L / η`, then no hit of the cuboid is computed that lies ahead. -/
theorem C119_offset_out (hu : 0 ≤ u) (hu6 : u ≤ 1e-6) {L η : ℝ} {c1 c2 : Fin 3 → ℝ} {M : Mat4} {loc : Ray} {hits : EReal × EReal} {p w p' : Vec4} (hs : Spec.Scene L ⟨p, w⟩) (hM : Spec.Placed L M)
    (h1 : ∀ i, |c1 i| ≤ L) (h2 : ∀ i, |c2 i| ≤ L) (hη : 0 ≤ η) (hη2 : η ≤ 0.001) (hp' : AdvanceR u ⟨p, w⟩ η p') (hp3 : p' 3 = 1) (hl : LocalR u M ⟨p', w⟩ loc) (h : CubeR u c1 c2 loc hits)
    (i : Fin 3) (hc : |Spec.seen M p i.castSucc - max (c1 i) (c2 i)| ≤ 70 * u * L ∧ 100 * u * L < η * Spec.facing M w i.castSucc ∨
      |Spec.seen M p i.castSucc - min (c1 i) (c2 i)| ≤ 70 * u * L ∧ 100 * u * L < -(η * Spec.facing M w i.castSucc)) :
    hits = (⊤, ⊤) ∨ hits.1 < hits.2 ∧ hits.2 < 0 := by
  have hL := hs.one_le
  have hL0 : 0 < L := by linarith
  have huL : 0 ≤ u * L := mul_nonneg hu hL0.le
  have huuL : u ≤ u * L := by nlinarith
  obtain ⟨a1, a2⟩ := hp'.off hu hu6 hs hM hη hη2
  have hA2 : L + 0.0012 * L ≤ 1.01 * L := by linarith
  have e1 := hl.1.point_err hu hu6 hM hL (a1.trans hA2) hp3
  have e2 := hl.2.dir_err hu hu6 hM hL0.le ((unit_le hs.length).trans (by norm_num)) hs.isVector
  have hn := hl.nearCube' hu hu6 hs hM h1 h2 hp3 a1
  have b1 := abs_le.1 (e1 i)
  have b2 := abs_le.1 (a2 i)
  have b3 := abs_le.1 (e2 i)
  set m := Spec.facing M w i.castSucc with hm
  replace b3 : -(4.01 * u) ≤ loc.d i.castSucc - m ∧ loc.d i.castSucc - m ≤ 4.01 * u := b3
  replace b1 : -(8.05 * u * L) ≤ loc.o i.castSucc - Spec.seen M p' i.castSucc ∧ loc.o i.castSucc - Spec.seen M p' i.castSucc ≤ 8.05 * u * L := b1
  have key : (h.b i).1 = ⊤ ∨ (h.b i).2 < 0 := by
    refine (h.hb i).away hu hu6 hn.one_le (hn.start i) (hn.comp i) (hn.low i) (hn.high i) (cubeSpans_le c1 c2 i) ?_
    simp only [cubeSpans]
    have big : ∀ x : ℝ, 100 * u * L < η * x → 5 * u < x := by
      intro x hx
      by_contra hn
      push Not at hn
      have c1 : η * x ≤ η * (5 * u) := mul_le_mul_of_nonneg_left hn hη
      have c2 : η * (5 * u) ≤ 0.001 * (5 * u) := mul_le_mul_of_nonneg_right hη2 (by linarith)
      linarith
    refine hc.imp (fun ⟨c1, c2⟩ => ?_) (fun ⟨c1, c2⟩ => ?_)
    · have c3 := big m c2
      have c4 := abs_le.1 c1
      exact ⟨by linarith, by linarith⟩
    · have c3 := big (-m) (by linarith)
      have c4 := abs_le.1 c1
      exact ⟨by linarith, by linarith⟩
  have hh := h.hhits
  by_cases hlt : max (max (h.b 0).1 (h.b 1).1) (h.b 2).1 < min (min (h.b 0).2 (h.b 1).2) (h.b 2).2
  swap
  · rw [if_neg hlt] at hh
    exact .inl hh
  rw [if_pos hlt] at hh
  right
  rw [hh]
  refine ⟨hlt, ?_⟩
  have l : (h.b i).1 ≤ max (max (h.b 0).1 (h.b 1).1) (h.b 2).1 := by fin_cases i <;> simp
  have r : min (min (h.b 0).2 (h.b 1).2) (h.b 2).2 ≤ (h.b i).2 := by fin_cases i <;> simp
  rcases key with k | k
  · rw [k, top_le_iff] at l
    rw [l] at hlt
    exact absurd hlt not_top_lt
  · exact lt_of_le_of_lt r k

/-- **C119 (4).** Inwards, there is exactly one hit ahead: if the ray leaves the place `p` on a face inwards with such a slope, and `p` is at least `2 η + 200 u L` away from the other faces, then one hit
is computed behind the ray and one ahead. -/
theorem C119_offset_in (hu : 0 ≤ u) (hu6 : u ≤ 1e-6) {L η : ℝ} {c1 c2 : Fin 3 → ℝ} {M : Mat4} {loc : Ray} {hits : EReal × EReal} {p w p' : Vec4} (hs : Spec.Scene L ⟨p, w⟩) (hM : Spec.Placed L M)
    (h1 : ∀ i, |c1 i| ≤ L) (h2 : ∀ i, |c2 i| ≤ L) (hη : 0 ≤ η) (hη2 : η ≤ 0.001) (hp' : AdvanceR u ⟨p, w⟩ η p') (hp3 : p' 3 = 1) (hl : LocalR u M ⟨p', w⟩ loc) (h : CubeR u c1 c2 loc hits)
    (i : Fin 3) (hc : |Spec.seen M p i.castSucc - max (c1 i) (c2 i)| ≤ 70 * u * L ∧ 100 * u * L < -(η * Spec.facing M w i.castSucc) ∨
      |Spec.seen M p i.castSucc - min (c1 i) (c2 i)| ≤ 70 * u * L ∧ 100 * u * L < η * Spec.facing M w i.castSucc)
    (hwide : min (c1 i) (c2 i) + (2 * η + 200 * u * L) ≤ max (c1 i) (c2 i))
    (hin : ∀ j : Fin 3, j ≠ i → min (c1 j) (c2 j) + (2 * η + 200 * u * L) ≤ Spec.seen M p j.castSucc ∧ Spec.seen M p j.castSucc ≤ max (c1 j) (c2 j) - (2 * η + 200 * u * L)) :
    ∃ t1 t2 : ℝ, hits = ((t1 : EReal), (t2 : EReal)) ∧ t1 < 0 ∧ 0 < t2 := by
  have hL := hs.one_le
  have hL0 : 0 < L := by linarith
  have huL : 0 ≤ u * L := mul_nonneg hu hL0.le
  obtain ⟨a1, a2⟩ := hp'.off hu hu6 hs hM hη hη2
  have e1 := hl.1.point_err hu hu6 hM hL (a1.trans (by linarith)) hp3
  refine h.complete hu hu6 (hl.nearCube' hu hu6 hs hM h1 h2 hp3 a1) (fun j => ?_)
  have b1 := abs_le.1 (e1 j)
  have b2 := abs_le.1 (a2 j)
  replace b1 : -(8.05 * u * L) ≤ loc.o j.castSucc - Spec.seen M p' j.castSucc ∧ loc.o j.castSucc - Spec.seen M p' j.castSucc ≤ 8.05 * u * L := b1
  have b3 : |η * Spec.facing M w j.castSucc| ≤ η * 1.001 := by
    rw [abs_mul, abs_of_nonneg hη]
    exact mul_le_mul_of_nonneg_left ((abs_facing_le hM (unit_le hs.length) j.castSucc).trans (by norm_num)) hη
  have b4 := abs_le.1 b3
  rw [abs_zero, mul_zero, mul_zero, add_zero, add_zero]
  by_cases hj : j = i
  · subst hj
    rcases hc with ⟨k1, k2⟩ | ⟨k1, k2⟩
    · have k3 := abs_le.1 k1
      constructor <;> linarith
    · have k3 := abs_le.1 k1
      constructor <;> linarith
  · obtain ⟨k1, k2⟩ := hin j hj
    have hη0 : 0 < η := by
      refine lt_of_le_of_ne hη (fun e => ?_)
      rw [← e, zero_mul] at hc
      rcases hc with ⟨-, hc⟩ | ⟨-, hc⟩ <;> linarith
    constructor <;> linarith

/-- **C119 (5).** With doubles, the offset `1e-6` of the tracer and scenes of at most a hundred units: a ray that leaves a cuboid outwards does not meet it again, and a ray that enters it meets it once ahead,
unless it grazes the face with a slope below `2e-6` or, entering, starts closer than `3e-6` to another face. -/
theorem C119_doubles {c1 c2 : Fin 3 → ℝ} {M : Mat4} {loc : Ray} {hits : EReal × EReal} {p w p' : Vec4} (hs : Spec.Scene 100 ⟨p, w⟩) (hM : Spec.Placed 100 M)
    (h1 : ∀ i, |c1 i| ≤ 100) (h2 : ∀ i, |c2 i| ≤ 100) (hp' : AdvanceR (2 ^ (-53 : ℤ)) ⟨p, w⟩ 1e-6 p') (hp3 : p' 3 = 1) (hl : LocalR (2 ^ (-53 : ℤ)) M ⟨p', w⟩ loc)
    (h : CubeR (2 ^ (-53 : ℤ)) c1 c2 loc hits) (i : Fin 3) (hc : 2e-6 ≤ |Spec.facing M w i.castSucc|)
    (hface : |Spec.seen M p i.castSucc - max (c1 i) (c2 i)| ≤ 7000 * 2 ^ (-53 : ℤ)) :
    (0 < Spec.facing M w i.castSucc → hits = (⊤, ⊤) ∨ hits.1 < hits.2 ∧ hits.2 < 0) ∧
    (Spec.facing M w i.castSucc < 0 → min (c1 i) (c2 i) + 3e-6 ≤ max (c1 i) (c2 i) →
      (∀ j : Fin 3, j ≠ i → min (c1 j) (c2 j) + 3e-6 ≤ Spec.seen M p j.castSucc ∧ Spec.seen M p j.castSucc ≤ max (c1 j) (c2 j) - 3e-6) →
      ∃ t1 t2 : ℝ, hits = ((t1 : EReal), (t2 : EReal)) ∧ t1 < 0 ∧ 0 < t2) := by
  have hsmall : (2 * 1e-6 + 200 * 2 ^ (-53 : ℤ) * 100 : ℝ) ≤ 3e-6 := by norm_num
  refine ⟨fun h0 => ?_, fun h0 hwide hin => ?_⟩
  · refine C119_offset_out (by positivity) (by norm_num) hs hM h1 h2 (by norm_num) (by norm_num) hp' hp3 hl h i (.inl ⟨hface.trans (by norm_num), ?_⟩)
    rw [abs_of_pos h0] at hc
    have := mul_le_mul_of_nonneg_left hc (show (0 : ℝ) ≤ 1e-6 by norm_num)
    refine lt_of_lt_of_le ?_ this
    norm_num
  · refine C119_offset_in (by positivity) (by norm_num) hs hM h1 h2 (by norm_num) (by norm_num) hp' hp3 hl h i (.inl ⟨hface.trans (by norm_num), ?_⟩) (by linarith)
      (fun j hj => ⟨by linarith [(hin j hj).1], by linarith [(hin j hj).2]⟩)
    rw [abs_of_neg h0] at hc
    have := mul_le_mul_of_nonneg_left hc (show (0 : ℝ) ≤ 1e-6 by norm_num)
    rw [← mul_neg]
    refine lt_of_lt_of_le ?_ this
    norm_num

theorem slab_real {o d : ℝ} {s : ℝ × ℝ} : slab ((s.1 : EReal), (s.2 : EReal)) o d =
    sort2 (if ¬ isclose0 d then ((-(o - s.1) / addMask d (isclose0 d) : ℝ) : EReal) else if o ≤ s.2 ∧ o ≥ s.1 then ⊥ else ⊤,
      if ¬ isclose0 d then ((-(o - s.2) / addMask d (isclose0 d) : ℝ) : EReal) else ⊤) := by
  have e : ∀ x : ℝ, ((x : EReal) - (o : EReal)) * (((addMask d (isclose0 d))⁻¹ : ℝ) : EReal) = ((-(o - x) / addMask d (isclose0 d) : ℝ) : EReal) := by
    intro x
    rw [← EReal.coe_sub, ← EReal.coe_mul, neg_sub, div_eq_mul_inv]
  simp only [slab, e, ge_iff_le, EReal.coe_le_coe_iff]

noncomputable def SlabR.exact (hu : 0 ≤ u) (s : ℝ × ℝ) (o d : ℝ) : SlabR u s o d (slab ((s.1 : EReal), (s.2 : EReal)) o d) where
  num1 := _
  num2 := _
  q1 := _
  q2 := _
  hnum1 := Rounds.exact hu _
  hnum2 := Rounds.exact hu _
  hq1 := Rounds.exact hu _
  hq2 := Rounds.exact hu _
  hbounds := slab_real

/-- The exact hits are among the possible ones, for every roundoff. -/
noncomputable def CubeR.exact (hu : 0 ≤ u) (c1 c2 : Fin 3 → ℝ) (ray : Ray) : CubeR u c1 c2 ray (boxIntersect (toBox (cubeSpans c1 c2)) ray) where
  b := fun i => slab (toBox (cubeSpans c1 c2) i) (ray.o i.castSucc) (ray.d i.castSucc)
  hb := fun _ => SlabR.exact hu _ _ _
  hhits := rfl

theorem SlabR.of_zero {o d : ℝ} {s : ℝ × ℝ} {b : EReal × EReal} (h : SlabR 0 s o d b) : b = slab ((s.1 : EReal), (s.2 : EReal)) o d := by
  obtain ⟨num1, num2, q1, q2, hnum1, hnum2, hq1, hq2, hb⟩ := h
  rw [Rounds.zero] at hnum1 hnum2 hq1 hq2
  rw [hb, slab_real]
  subst hq1 hq2 hnum1 hnum2
  rfl

/-- **C119 (6).** Without rounding the relation is the function of the exact model. -/
theorem C119_exact (c1 c2 : Fin 3 → ℝ) (ray : Ray) (hits : EReal × EReal) : Nonempty (CubeR 0 c1 c2 ray hits) ↔ hits = boxIntersect (toBox (cubeSpans c1 c2)) ray := by
  constructor
  · rintro ⟨b, hb, hh⟩
    have e : ∀ i, b i = slab (toBox (cubeSpans c1 c2) i) (ray.o i.castSucc) (ray.d i.castSucc) := fun i => (hb i).of_zero
    rw [hh, e, e, e]
    rfl
  · rintro rfl
    exact ⟨CubeR.exact le_rfl _ _ _⟩

/-! ## Examples: a cuboid in the place of the turned mirror of `RoundingMoved.lean` -/

/-- the cuboid of size 4, 4, 2 is found: at the distance 11.25 the exact ray is inside -/
example : ∃ t1 t2 : ℝ, boxIntersect (toBox (cubeSpans ![-2, -2, -1] ![2, 2, 1])) ⟨![26 / 5, 0, -43 / 5, 1], ![-3 / 5, 0, 4 / 5, 0]⟩ = ((t1 : EReal), (t2 : EReal)) ∧ t1 < 45 / 4 ∧ 45 / 4 < t2 := by
  refine C119_found (u := 2 ^ (-53 : ℤ)) (L := 11) (by positivity) (by norm_num) facing_scene turnedMatrix_placed (fun i => ?_) (fun i => ?_) (facing_local (by positivity)) (CubeR.exact (by positivity) _ _ _)
    (fun i => ?_)
  · fin_cases i <;> simp <;> norm_num
  · fin_cases i <;> simp <;> norm_num
  · fin_cases i
    · have e : Spec.seen turnedMatrix (point 0 2 0 + (45 / 4 : ℝ) • vector 0 0 1) 0 = -31 / 20 := by simp [Spec.seen, turnedMatrix, vector, point]; norm_num
      show min (-2 : ℝ) 2 + _ < Spec.seen turnedMatrix (point 0 2 0 + (45 / 4 : ℝ) • vector 0 0 1) 0 ∧ Spec.seen turnedMatrix (point 0 2 0 + (45 / 4 : ℝ) • vector 0 0 1) 0 < max (-2 : ℝ) 2 - _
      rw [e, abs_of_nonneg (by norm_num)]; norm_num
    · have e : Spec.seen turnedMatrix (point 0 2 0 + (45 / 4 : ℝ) • vector 0 0 1) 1 = 0 := by simp [Spec.seen, turnedMatrix, vector, point]
      show min (-2 : ℝ) 2 + _ < Spec.seen turnedMatrix (point 0 2 0 + (45 / 4 : ℝ) • vector 0 0 1) 1 ∧ Spec.seen turnedMatrix (point 0 2 0 + (45 / 4 : ℝ) • vector 0 0 1) 1 < max (-2 : ℝ) 2 - _
      rw [e, abs_of_nonneg (by norm_num)]; norm_num
    · have e : Spec.seen turnedMatrix (point 0 2 0 + (45 / 4 : ℝ) • vector 0 0 1) 2 = 2 / 5 := by simp [Spec.seen, turnedMatrix, vector, point]; norm_num
      show min (-1 : ℝ) 1 + _ < Spec.seen turnedMatrix (point 0 2 0 + (45 / 4 : ℝ) • vector 0 0 1) 2 ∧ Spec.seen turnedMatrix (point 0 2 0 + (45 / 4 : ℝ) • vector 0 0 1) 2 < max (-1 : ℝ) 1 - _
      rw [e, abs_of_nonneg (by norm_num)]; norm_num

/-- and the point to which the ray is advanced lies on one of its faces -/
example {t : ℝ} {hits : EReal × EReal} {p : Vec4} (h : CubeR (2 ^ (-53 : ℤ)) ![-2, -2, -1] ![2, 2, 1] ⟨![26 / 5, 0, -43 / 5, 1], ![-3 / 5, 0, 4 / 5, 0]⟩ hits) (ht : hits.1 = (t : EReal))
    (hp : AdvanceR (2 ^ (-53 : ℤ)) ⟨point 0 2 0, vector 0 0 1⟩ t p) :
    ∃ i : Fin 3, |Spec.seen turnedMatrix p i.castSucc - min ((![-2, -2, -1] : Fin 3 → ℝ) i) ((![2, 2, 1] : Fin 3 → ℝ) i)| ≤ 1e-13 ∨
      |Spec.seen turnedMatrix p i.castSucc - max ((![-2, -2, -1] : Fin 3 → ℝ) i) ((![2, 2, 1] : Fin 3 → ℝ) i)| ≤ 1e-13 := by
  obtain ⟨-, ⟨i, hi⟩, -⟩ := C119_cube (L := 11) (by positivity) (by norm_num) facing_scene turnedMatrix_placed (fun i => by fin_cases i <;> simp <;> norm_num) (fun i => by fin_cases i <;> simp <;> norm_num)
    (facing_local (by positivity)) h (.inl ht) hp
  exact ⟨i, hi.imp (fun a => a.trans (by norm_num)) (fun a => a.trans (by norm_num))⟩

/-- a ray on the upper face of the cuboid of size 2, 2, 2 at the origin, going up or down -/
theorem faceRay_scene {s : ℝ} (hs : s = 1 ∨ s = -1) : Spec.Scene 100 ⟨point 0.5 0.25 1, vector 0 0 s⟩ := by
  refine ⟨by norm_num, by simp [point]; norm_num, ?_, by simp [point], by simp [vector]⟩
  rcases hs with rfl | rfl <;> simp [vector] <;> norm_num

theorem one_placed : Spec.Placed 100 (1 : Mat4) := by
  refine ⟨fun x y z => ?_, by simp⟩
  simp
  positivity

theorem faceRay_step {s : ℝ} : AdvanceR (2 ^ (-53 : ℤ)) ⟨point 0.5 0.25 1, vector 0 0 s⟩ 1e-6 (point 0.5 0.25 (1 + 1e-6 * s)) := by
  refine ⟨vector 0 0 (1e-6 * s), fun i => ?_, fun i => ?_⟩
  · have e : (1e-6 : ℝ) * vector 0 0 s i = vector 0 0 (1e-6 * s) i := by fin_cases i <;> simp [vector]
    show Rounds _ (1e-6 * vector 0 0 s i) _
    rw [e]; exact Rounds.exact (by positivity) _
  · have e : point 0.5 0.25 1 i + vector 0 0 (1e-6 * s) i = point 0.5 0.25 (1 + 1e-6 * s) i := by fin_cases i <;> simp [vector, point]
    show Rounds _ (point 0.5 0.25 1 i + vector 0 0 (1e-6 * s) i) _
    rw [e]; exact Rounds.exact (by positivity) _

example {loc : Ray} {hits : EReal × EReal} (hl : LocalR (2 ^ (-53 : ℤ)) 1 ⟨point 0.5 0.25 (1 + 1e-6 * 1), vector 0 0 1⟩ loc) (h : CubeR (2 ^ (-53 : ℤ)) ![-1, -1, -1] ![1, 1, 1] loc hits) :
    hits = (⊤, ⊤) ∨ hits.1 < hits.2 ∧ hits.2 < 0 := by
  refine (C119_doubles (faceRay_scene (.inl rfl)) one_placed (fun i => ?_) (fun i => ?_) faceRay_step (by simp [point]) hl h 2 ?_ ?_).1 ?_
  · fin_cases i <;> simp
  · fin_cases i <;> simp
  · show _ ≤ |Spec.facing 1 (vector 0 0 1) 2|
    simp [Spec.facing, vector]; norm_num
  · show |Spec.seen 1 (point 0.5 0.25 1) 2 - max (-1 : ℝ) 1| ≤ _
    simp [Spec.seen, point]
  · show 0 < Spec.facing 1 (vector 0 0 1) 2
    simp [Spec.facing, vector]

example {loc : Ray} {hits : EReal × EReal} (hl : LocalR (2 ^ (-53 : ℤ)) 1 ⟨point 0.5 0.25 (1 + 1e-6 * -1), vector 0 0 (-1)⟩ loc) (h : CubeR (2 ^ (-53 : ℤ)) ![-1, -1, -1] ![1, 1, 1] loc hits) :
    ∃ t1 t2 : ℝ, hits = ((t1 : EReal), (t2 : EReal)) ∧ t1 < 0 ∧ 0 < t2 := by
  refine (C119_doubles (faceRay_scene (.inr rfl)) one_placed (fun i => ?_) (fun i => ?_) faceRay_step (by simp [point]) hl h 2 ?_ ?_).2 ?_ ?_ (fun j hj => ?_)
  · fin_cases i <;> simp
  · fin_cases i <;> simp
  · show _ ≤ |Spec.facing 1 (vector 0 0 (-1)) 2|
    simp [Spec.facing, vector]; norm_num
  · show |Spec.seen 1 (point 0.5 0.25 1) 2 - max (-1 : ℝ) 1| ≤ _
    simp [Spec.seen, point]
  · show Spec.facing 1 (vector 0 0 (-1)) 2 < 0
    simp [Spec.facing, vector]
  · show min (-1 : ℝ) 1 + _ ≤ max (-1 : ℝ) 1
    norm_num
  · fin_cases j
    · show min (-1 : ℝ) 1 + _ ≤ Spec.seen 1 (point 0.5 0.25 1) 0 ∧ Spec.seen 1 (point 0.5 0.25 1) 0 ≤ max (-1 : ℝ) 1 - _
      simp [Spec.seen, point]; norm_num
    · show min (-1 : ℝ) 1 + _ ≤ Spec.seen 1 (point 0.5 0.25 1) 1 ∧ Spec.seen 1 (point 0.5 0.25 1) 1 ≤ max (-1 : ℝ) 1 - _
      simp [Spec.seen, point]; norm_num
    · exact absurd rfl hj

end PyRayT
