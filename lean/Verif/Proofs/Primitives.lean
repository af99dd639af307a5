import Verif.Spec.Solids
import Mathlib.Tactic.Linarith
import Mathlib.Tactic.Positivity
import Mathlib.Tactic.FieldSimp
import Mathlib.Tactic.Ring
import Mathlib.Tactic.NormNum

/-! Helper lemmas on the intersections of primitives. -/

namespace PyRayT

open Classical

/-! ### intervals -/

/-- `t` lies between the two (sorted) hits, inclusive -/
def Btw (h : EReal × EReal) (t : ℝ) : Prop := h.1 ≤ (t : EReal) ∧ (t : EReal) ≤ h.2

/-- `t` lies strictly between the two hits -/
def SBtw (h : EReal × EReal) (t : ℝ) : Prop := h.1 < (t : EReal) ∧ (t : EReal) < h.2

theorem not_isclose0 {a : ℝ} (h : 1e-8 < |a|) : ¬ isclose0 a := not_le.2 h

theorem isclose0_zero : isclose0 0 := by norm_num [isclose0]

theorem addMask_false {x : ℝ} {p : Prop} (h : ¬ p) : addMask x p = x := by simp [addMask, h]

@[simp] theorem addMask_False {x : ℝ} {i : Decidable False} : @addMask x False i = x := by
  simp [addMask]

@[simp] theorem addMask_True {x : ℝ} {i : Decidable True} : @addMask x True i = x + 1 := by
  simp [addMask]

theorem addMask_true {x : ℝ} {p : Prop} (h : p) : addMask x p = x + 1 := by simp [addMask, h]

/-- zero, or above the tolerance of `np.isclose` -/
def Clear (d : ℝ) : Prop := d = 0 ∨ 1e-8 < |d|

theorem Clear.isclose0_iff {d : ℝ} (h : Clear d) : isclose0 d ↔ d = 0 := by
  constructor
  · intro hc
    rcases h with h | h
    · exact h
    · exact absurd hc (not_isclose0 h)
  · rintro rfl; exact isclose0_zero

theorem sort2_fst (h : EReal × EReal) : (sort2 h).1 = min h.1 h.2 := rfl
theorem sort2_snd (h : EReal × EReal) : (sort2 h).2 = max h.1 h.2 := rfl

theorem sort2_of_le {h : EReal × EReal} (hle : h.1 ≤ h.2) : sort2 h = h := by
  simp [sort2, hle]

theorem sort2_of_ge {h : EReal × EReal} (hle : h.2 ≤ h.1) : sort2 h = (h.2, h.1) := by
  simp [sort2, hle]

theorem sort2_le (h : EReal × EReal) : (sort2 h).1 ≤ (sort2 h).2 := by
  simp [sort2]

theorem sort2_sort2 (h : EReal × EReal) : sort2 (sort2 h) = sort2 h := sort2_of_le (sort2_le h)

/-! ### quadratics -/

theorem quad_le_iff {a b c : ℝ} (ha : 0 < a) (t : ℝ) :
    a * t ^ 2 + b * t + c ≤ 0 ↔ 0 ≤ b ^ 2 - 4 * a * c ∧
      (-b - √(b ^ 2 - 4 * a * c)) / (2 * a) ≤ t ∧ t ≤ (-b + √(b ^ 2 - 4 * a * c)) / (2 * a) := by
  have h4 : 4 * a * (a * t ^ 2 + b * t + c) = (2 * a * t + b) ^ 2 - (b ^ 2 - 4 * a * c) := by ring
  have h2 : 0 < 2 * a := by linarith
  have key : a * t ^ 2 + b * t + c ≤ 0 ↔ (2 * a * t + b) ^ 2 ≤ b ^ 2 - 4 * a * c := by
    constructor
    · intro h
      have : 4 * a * (a * t ^ 2 + b * t + c) ≤ 0 :=
        mul_nonpos_of_nonneg_of_nonpos (by linarith) h
      linarith
    · intro h
      by_contra hc
      push Not at hc
      have : 0 < 4 * a * (a * t ^ 2 + b * t + c) := mul_pos (by linarith) hc
      linarith
  rw [key, div_le_iff₀ h2, le_div_iff₀ h2]
  constructor
  · intro h
    have hd : 0 ≤ b ^ 2 - 4 * a * c := le_trans (sq_nonneg _) h
    have := Real.abs_le_sqrt h
    rw [abs_le] at this
    exact ⟨hd, by linarith [this.1], by linarith [this.2]⟩
  · rintro ⟨hd, h1, h2⟩
    have : |2 * a * t + b| ≤ √(b ^ 2 - 4 * a * c) := abs_le.2 ⟨by linarith, by linarith⟩
    rw [← Real.sqrt_sq_eq_abs] at this
    exact (Real.sqrt_le_sqrt_iff hd).1 this

theorem quad_lt_iff {a b c : ℝ} (ha : 0 < a) (t : ℝ) :
    a * t ^ 2 + b * t + c < 0 ↔ 0 ≤ b ^ 2 - 4 * a * c ∧
      (-b - √(b ^ 2 - 4 * a * c)) / (2 * a) < t ∧ t < (-b + √(b ^ 2 - 4 * a * c)) / (2 * a) := by
  have h4 : 4 * a * (a * t ^ 2 + b * t + c) = (2 * a * t + b) ^ 2 - (b ^ 2 - 4 * a * c) := by ring
  have h2 : 0 < 2 * a := by linarith
  have key : a * t ^ 2 + b * t + c < 0 ↔ (2 * a * t + b) ^ 2 < b ^ 2 - 4 * a * c := by
    constructor
    · intro h
      have : 4 * a * (a * t ^ 2 + b * t + c) < 0 := mul_neg_of_pos_of_neg (by linarith) h
      linarith
    · intro h
      by_contra hc
      push Not at hc
      have : 0 ≤ 4 * a * (a * t ^ 2 + b * t + c) := mul_nonneg (by linarith) hc
      linarith
  rw [key, div_lt_iff₀ h2, lt_div_iff₀ h2]
  constructor
  · intro h
    have hd : 0 ≤ b ^ 2 - 4 * a * c := le_trans (sq_nonneg _) h.le
    have : |2 * a * t + b| < √(b ^ 2 - 4 * a * c) := by
      rw [Real.lt_sqrt (abs_nonneg _), sq_abs]; exact h
    rw [abs_lt] at this
    exact ⟨hd, by linarith [this.1], by linarith [this.2]⟩
  · rintro ⟨hd, h1, h2⟩
    have : |2 * a * t + b| < √(b ^ 2 - 4 * a * c) := abs_lt.2 ⟨by linarith, by linarith⟩
    rw [← Real.sqrt_sq_eq_abs] at this
    exact (Real.sqrt_lt_sqrt_iff (sq_nonneg _)).1 this

theorem polyRoots_ge {a b disc : ℝ} (ha : 0 < a) : (polyRoots b disc (2 * a)).2 ≤ (polyRoots b disc (2 * a)).1 := by
  unfold polyRoots
  split
  · simp only [EReal.coe_le_coe_iff]
    apply div_le_div_of_nonneg_right _ (by linarith)
    have := Real.sqrt_nonneg (max 0 disc)
    linarith
  · simp

theorem polyRoots_btw {a b c : ℝ} (ha : 0 < a) (t : ℝ) :
    Btw (sort2 (polyRoots b (b ^ 2 - 4 * a * c) (2 * a))) t ↔ a * t ^ 2 + b * t + c ≤ 0 := by
  rw [sort2_of_ge (polyRoots_ge ha), quad_le_iff ha, Btw]
  unfold polyRoots
  by_cases hd : b ^ 2 - 4 * a * c ≥ 0
  · simp only [hd, if_true, max_eq_right hd, EReal.coe_le_coe_iff, ge_iff_le.1 hd, true_and]
  · simp [hd]

theorem polyRoots_sbtw {a b c : ℝ} (ha : 0 < a) (t : ℝ) :
    SBtw (sort2 (polyRoots b (b ^ 2 - 4 * a * c) (2 * a))) t ↔ a * t ^ 2 + b * t + c < 0 := by
  rw [sort2_of_ge (polyRoots_ge ha), quad_lt_iff ha, SBtw]
  unfold polyRoots
  by_cases hd : b ^ 2 - 4 * a * c ≥ 0
  · simp only [hd, if_true, max_eq_right hd, EReal.coe_lt_coe_iff, ge_iff_le.1 hd, true_and]
  · simp [hd]

/-! ### sphere -/

/-- squared length of the spatial direction -/
def dirSq (r : Ray) : ℝ := r.d 0 * r.d 0 + r.d 1 * r.d 1 + r.d 2 * r.d 2

theorem dirSq_nonneg (r : Ray) : 0 ≤ dirSq r := by
  unfold dirSq; nlinarith [mul_self_nonneg (r.d 0), mul_self_nonneg (r.d 1), mul_self_nonneg (r.d 2)]

theorem dirSq_pos {r : Ray} (h : r.d 0 ≠ 0 ∨ r.d 1 ≠ 0 ∨ r.d 2 ≠ 0) : 0 < dirSq r := by
  unfold dirSq
  have h0 := mul_self_nonneg (r.d 0)
  have h1 := mul_self_nonneg (r.d 1)
  have h2 := mul_self_nonneg (r.d 2)
  rcases h with h | h | h
  · have := mul_self_pos.2 h; linarith
  · have := mul_self_pos.2 h; linarith
  · have := mul_self_pos.2 h; linarith

theorem sphere_eval (radius : ℝ) (r : Ray) (t : ℝ) :
    dirSq r * t ^ 2 + (2 * (r.d 0 * r.o 0 + r.d 1 * r.o 1 + r.d 2 * r.o 2)) * t +
      ((r.o 0 * r.o 0 + r.o 1 * r.o 1 + r.o 2 * r.o 2) - radius ^ 2) =
    (r.at t 0) ^ 2 + (r.at t 1) ^ 2 + (r.at t 2) ^ 2 - radius ^ 2 := by
  unfold dirSq Ray.at; ring

theorem sphereIntersect_eq (radius : ℝ) {r : Ray} (h : 0 < dirSq r) :
    sphereIntersect radius r = polyRoots (2 * (r.d 0 * r.o 0 + r.d 1 * r.o 1 + r.d 2 * r.o 2))
      ((2 * (r.d 0 * r.o 0 + r.d 1 * r.o 1 + r.d 2 * r.o 2)) ^ 2 - 4 * dirSq r *
        ((r.o 0 * r.o 0 + r.o 1 * r.o 1 + r.o 2 * r.o 2) - radius ^ 2)) (2 * dirSq r) := by
  have h0 : ¬ (r.d 0 * r.d 0 + r.d 1 * r.d 1 + r.d 2 * r.d 2 = 0) := by
    intro h'; unfold dirSq at h; linarith
  simp only [sphereIntersect, h0, if_false]
  rfl

theorem sphere_btw (radius : ℝ) {r : Ray} (h : 0 < dirSq r) (t : ℝ) :
    Btw (sort2 (sphereIntersect radius r)) t ↔ Spec.Closed (.sphere radius) (r.at t) := by
  rw [sphereIntersect_eq radius h, polyRoots_btw h, sphere_eval]
  simp [Spec.Closed]

theorem sphere_sbtw (radius : ℝ) {r : Ray} (h : 0 < dirSq r) (t : ℝ) :
    SBtw (sort2 (sphereIntersect radius r)) t ↔ Spec.Interior (.sphere radius) (r.at t) := by
  rw [sphereIntersect_eq radius h, polyRoots_sbtw h, sphere_eval]
  simp [Spec.Interior]

/-! ### slabs and boxes -/

theorem ereal_le_iff_pos {s : EReal} {o d t : ℝ} (hd : 0 < d) :
    (s - (o : EReal)) * ((d⁻¹ : ℝ) : EReal) ≤ (t : EReal) ↔ s ≤ ((o + t * d : ℝ) : EReal) := by
  have hi : 0 < d⁻¹ := inv_pos.2 hd
  induction s with
  | bot => simp [EReal.bot_sub, EReal.bot_mul_coe_of_pos hi]
  | top =>
    rw [EReal.top_sub_coe, EReal.top_mul_coe_of_pos hi]
    simp only [top_le_iff, EReal.coe_ne_top]
  | coe s =>
    rw [← EReal.coe_sub, ← EReal.coe_mul, EReal.coe_le_coe_iff, EReal.coe_le_coe_iff, ← div_eq_mul_inv,
      div_le_iff₀ hd]
    constructor <;> intro h <;> linarith

theorem ereal_ge_iff_pos {s : EReal} {o d t : ℝ} (hd : 0 < d) :
    (t : EReal) ≤ (s - (o : EReal)) * ((d⁻¹ : ℝ) : EReal) ↔ ((o + t * d : ℝ) : EReal) ≤ s := by
  have hi : 0 < d⁻¹ := inv_pos.2 hd
  induction s with
  | bot =>
    rw [EReal.bot_sub, EReal.bot_mul_coe_of_pos hi]
    simp only [le_bot_iff, EReal.coe_ne_bot]
  | top => simp [EReal.top_sub_coe, EReal.top_mul_coe_of_pos hi]
  | coe s =>
    rw [← EReal.coe_sub, ← EReal.coe_mul, EReal.coe_le_coe_iff, EReal.coe_le_coe_iff, ← div_eq_mul_inv,
      le_div_iff₀ hd]
    constructor <;> intro h <;> linarith

theorem ereal_le_iff_neg {s : EReal} {o d t : ℝ} (hd : d < 0) :
    (s - (o : EReal)) * ((d⁻¹ : ℝ) : EReal) ≤ (t : EReal) ↔ ((o + t * d : ℝ) : EReal) ≤ s := by
  have hi : d⁻¹ < 0 := inv_lt_zero.2 hd
  induction s with
  | bot =>
    rw [EReal.bot_sub, EReal.bot_mul_coe_of_neg hi]
    simp only [top_le_iff, EReal.coe_ne_top, le_bot_iff, EReal.coe_ne_bot]
  | top => simp [EReal.top_sub_coe, EReal.top_mul_coe_of_neg hi]
  | coe s =>
    rw [← EReal.coe_sub, ← EReal.coe_mul, EReal.coe_le_coe_iff, EReal.coe_le_coe_iff, ← div_eq_mul_inv,
      div_le_iff_of_neg hd]
    constructor <;> intro h <;> linarith

theorem ereal_ge_iff_neg {s : EReal} {o d t : ℝ} (hd : d < 0) :
    (t : EReal) ≤ (s - (o : EReal)) * ((d⁻¹ : ℝ) : EReal) ↔ s ≤ ((o + t * d : ℝ) : EReal) := by
  have hi : d⁻¹ < 0 := inv_lt_zero.2 hd
  induction s with
  | bot => simp [EReal.bot_sub, EReal.bot_mul_coe_of_neg hi]
  | top =>
    rw [EReal.top_sub_coe, EReal.top_mul_coe_of_neg hi]
    simp only [top_le_iff, EReal.coe_ne_top, le_bot_iff, EReal.coe_ne_bot]
  | coe s =>
    rw [← EReal.coe_sub, ← EReal.coe_mul, EReal.coe_le_coe_iff, EReal.coe_le_coe_iff, ← div_eq_mul_inv,
      le_div_iff_of_neg hd]
    constructor <;> intro h <;> linarith

theorem slab_btw {s : EReal × EReal} (hs : s.1 ≤ s.2) {o d : ℝ} (hd : Clear d) (t : ℝ) :
    Btw (slab s o d) t ↔ s.1 ≤ ((o + t * d : ℝ) : EReal) ∧ ((o + t * d : ℝ) : EReal) ≤ s.2 := by
  unfold slab Btw
  rcases hd with rfl | hd
  · simp only [isclose0_zero, not_true_eq_false, if_false, mul_zero, add_zero]
    by_cases h : (o : EReal) ≤ s.2 ∧ (o : EReal) ≥ s.1
    · simp [sort2, h, h.1, ge_iff_le.1 h.2]
    · simp only [sort2, h, if_false, min_self, max_self, top_le_iff, EReal.coe_ne_top, false_and,
        false_iff]
      rintro ⟨h1, h2⟩; exact h ⟨h2, h1⟩
  · have hc := not_isclose0 hd
    have hne : d ≠ 0 := by rintro rfl; norm_num at hd
    simp only [hc, not_false_eq_true, if_true, addMask_False, sort2]
    rcases lt_or_gt_of_ne hne with h | h
    · rw [min_le_iff, le_max_iff, ereal_le_iff_neg h, ereal_le_iff_neg h, ereal_ge_iff_neg h,
        ereal_ge_iff_neg h]
      constructor
      · rintro ⟨h1 | h1, h2 | h2⟩
        · exact ⟨h2, h1.trans hs⟩
        · exact ⟨hs.trans h2, h1.trans hs⟩
        · exact ⟨h2, h1⟩
        · exact ⟨hs.trans h2, h1⟩
      · rintro ⟨h1, h2⟩; exact ⟨Or.inr h2, Or.inl h1⟩
    · rw [min_le_iff, le_max_iff, ereal_le_iff_pos h, ereal_le_iff_pos h, ereal_ge_iff_pos h,
        ereal_ge_iff_pos h]
      constructor
      · rintro ⟨h1 | h1, h2 | h2⟩
        · exact ⟨h1, h2.trans hs⟩
        · exact ⟨h1, h2⟩
        · exact ⟨hs.trans h1, h2.trans hs⟩
        · exact ⟨hs.trans h1, h2⟩
      · rintro ⟨h1, h2⟩; exact ⟨Or.inl h1, Or.inr h2⟩

theorem slab_sbtw {s : EReal × EReal} {o d : ℝ} (hd : Clear d) (t : ℝ)
    (h1 : s.1 < ((o + t * d : ℝ) : EReal)) (h2 : ((o + t * d : ℝ) : EReal) < s.2) :
    SBtw (slab s o d) t := by
  unfold slab SBtw
  rcases hd with rfl | hd
  · simp only [mul_zero, add_zero] at h1 h2
    simp [isclose0_zero, sort2, h1.le, h2.le, EReal.bot_lt_coe, EReal.coe_lt_top]
  · have hc := not_isclose0 hd
    have hne : d ≠ 0 := by rintro rfl; norm_num at hd
    simp only [hc, not_false_eq_true, if_true, addMask_False, sort2]
    rcases lt_or_gt_of_ne hne with h | h
    · rw [min_lt_iff, lt_max_iff]
      refine ⟨Or.inr ?_, Or.inl ?_⟩
      · rw [← not_le, ereal_ge_iff_neg h]; exact not_le.2 h2
      · rw [← not_le, ereal_le_iff_neg h]; exact not_le.2 h1
    · rw [min_lt_iff, lt_max_iff]
      refine ⟨Or.inl ?_, Or.inr ?_⟩
      · rw [← not_le, ereal_ge_iff_pos h]; exact not_le.2 h1
      · rw [← not_le, ereal_le_iff_pos h]; exact not_le.2 h2

/-- direction components zero or above tolerance -/
def ClearDir (r : Ray) : Prop := Clear (r.d 0) ∧ Clear (r.d 1) ∧ Clear (r.d 2)

/-- closed box -/
def InBox (b : Box) (p : Vec4) : Prop :=
  ((b 0).1 ≤ (p 0 : EReal) ∧ (p 0 : EReal) ≤ (b 0).2) ∧ ((b 1).1 ≤ (p 1 : EReal) ∧ (p 1 : EReal) ≤ (b 1).2) ∧
    ((b 2).1 ≤ (p 2 : EReal) ∧ (p 2 : EReal) ≤ (b 2).2)

/-- open box -/
def InBoxS (b : Box) (p : Vec4) : Prop :=
  ((b 0).1 < (p 0 : EReal) ∧ (p 0 : EReal) < (b 0).2) ∧ ((b 1).1 < (p 1 : EReal) ∧ (p 1 : EReal) < (b 1).2) ∧
    ((b 2).1 < (p 2 : EReal) ∧ (p 2 : EReal) < (b 2).2)

/-- the raw interval computed before the final comparison in `Cube.intersect` -/
noncomputable def boxRaw (b : Box) (r : Ray) : EReal × EReal :=
  (max (max (slab (b 0) (r.o 0) (r.d 0)).1 (slab (b 1) (r.o 1) (r.d 1)).1) (slab (b 2) (r.o 2) (r.d 2)).1,
   min (min (slab (b 0) (r.o 0) (r.d 0)).2 (slab (b 1) (r.o 1) (r.d 1)).2) (slab (b 2) (r.o 2) (r.d 2)).2)

theorem boxIntersect_eq (b : Box) (r : Ray) :
    boxIntersect b r = if (boxRaw b r).1 < (boxRaw b r).2 then boxRaw b r else (⊤, ⊤) := rfl

theorem boxRaw_btw {b : Box} (hb : ∀ i, (b i).1 ≤ (b i).2) {r : Ray} (hr : ClearDir r) (t : ℝ) :
    Btw (boxRaw b r) t ↔ InBox b (r.at t) := by
  have h0 := slab_btw (hb 0) (o := r.o 0) hr.1 t
  have h1 := slab_btw (hb 1) (o := r.o 1) hr.2.1 t
  have h2 := slab_btw (hb 2) (o := r.o 2) hr.2.2 t
  unfold InBox Ray.at
  rw [← h0, ← h1, ← h2]
  simp only [Btw, boxRaw, max_le_iff, le_min_iff]
  tauto

theorem boxRaw_sbtw {b : Box} {r : Ray} (hr : ClearDir r) (t : ℝ) (h : InBoxS b (r.at t)) :
    SBtw (boxRaw b r) t := by
  have h0 := slab_sbtw hr.1 t h.1.1 h.1.2
  have h1 := slab_sbtw hr.2.1 t h.2.1.1 h.2.1.2
  have h2 := slab_sbtw hr.2.2 t h.2.2.1 h.2.2.2
  simp only [SBtw, boxRaw, max_lt_iff, lt_min_iff] at *
  tauto

theorem boxIntersect_btw_imp {b : Box} (hb : ∀ i, (b i).1 ≤ (b i).2) {r : Ray} (hr : ClearDir r) (t : ℝ)
    (h : Btw (boxIntersect b r) t) : InBox b (r.at t) := by
  rw [boxIntersect_eq] at h
  split at h
  · exact (boxRaw_btw hb hr t).1 h
  · simp [Btw] at h

theorem boxIntersect_sbtw {b : Box} {r : Ray} (hr : ClearDir r) (t : ℝ)
    (h : InBoxS b (r.at t)) : SBtw (boxIntersect b r) t := by
  have h' := boxRaw_sbtw hr t h
  rw [boxIntersect_eq, if_pos (h'.1.trans h'.2)]
  exact h'

theorem boxIntersect_le (b : Box) (r : Ray) : (boxIntersect b r).1 ≤ (boxIntersect b r).2 := by
  rw [boxIntersect_eq]
  split
  · rename_i h; exact h.le
  · exact le_rfl

end PyRayT
