import Verif.Spec.Retrace
import Verif.Props.Render5

/-! The hits of the ray that goes the other way. -/

namespace PyRayT

open Classical Matrix Spec

theorem Ray.back_at (r : Ray) (T t : ℝ) : (r.back T).at t = r.at (T - t) := by
  funext i
  simp only [Ray.back, Ray.at, Pi.neg_apply]
  ring

theorem Ray.back_map (m : Mat4) (r : Ray) (T : ℝ) : (r.back T).map m = (r.map m).back T := by
  have h := Ray.map_at m r T
  simp only [Ray.back, Ray.map] at *
  rw [h, mulVec_neg]

theorem Ray.back_back (r : Ray) (T S : ℝ) : (r.back T).back S = ⟨r.at (T - S), r.d⟩ := by
  show (⟨(r.back T).at S, -(r.back T).d⟩ : Ray) = _
  rw [Ray.back_at]
  simp [Ray.back]

theorem Clear.neg {d : ℝ} (h : Clear d) : Clear (-d) := by
  rcases h with h | h
  · exact Or.inl (by rw [h, neg_zero])
  · exact Or.inr (by rwa [abs_neg])

theorem sees_back {p : Prim} {r : Ray} (h : Sees p r) (T : ℝ) : Sees p (r.back T) := by
  cases p with
  | sphere _ => simpa [Sees, Ray.back] using h
  | paraboloid f hh =>
    obtain ⟨h1, h2, h3, h4⟩ := h
    refine ⟨h1, h2, h3.neg, ?_⟩
    show _ < -r.d 0 * -r.d 0 + -r.d 1 * -r.d 1 ∨ -r.d 0 * -r.d 0 + -r.d 1 * -r.d 1 = 0 ∧ _ < |4 * f * -r.d 2|
    rw [neg_mul_neg, neg_mul_neg, mul_neg, abs_neg]
    exact h4
  | plane w l => exact ⟨h.1, h.2.1, h.2.2.1.neg, h.2.2.2.1.neg, h.2.2.2.2.neg⟩
  | cube a b => exact ⟨h.1.neg, h.2.1.neg, h.2.2.neg⟩
  | cylinder rad a b =>
    refine ⟨h.1, ?_, h.2.2.neg⟩
    show Clear (-r.d 0 * -r.d 0 + -r.d 1 * -r.d 1)
    rw [neg_mul_neg, neg_mul_neg]
    exact h.2.1

theorem goodRay_back {r : Ray} (h : GoodRay r) (T : ℝ) : GoodRay (r.back T) where
  o3 := h.at3 T
  d3 := by show -r.d 3 = 0; rw [h.d3, neg_zero]
  clear := ⟨h.clear.1.neg, h.clear.2.1.neg, h.clear.2.2.neg⟩
  ne := by simpa [Ray.back] using h.ne

/-! ### boxes -/

/-- no point lies between the two ends -/
def Dead (p : EReal × EReal) : Prop := p.1 = ⊤ ∨ p.2 = ⊥

/-- the two ends of the interval, seen from the other side -/
def Turned (T : ℝ) (p q : EReal × EReal) : Prop := (Dead p ∧ Dead q) ∨ q = ((T : EReal) - p.2, (T : EReal) - p.1)

theorem flip_anti (T : ℝ) : Antitone fun x : EReal => (T : EReal) - x := fun _ _ h => EReal.sub_le_sub le_rfl h

theorem flip_max (T : ℝ) (a b : EReal) : (T : EReal) - max a b = min ((T : EReal) - a) ((T : EReal) - b) := (flip_anti T).map_max

theorem flip_min (T : ℝ) (a b : EReal) : (T : EReal) - min a b = max ((T : EReal) - a) ((T : EReal) - b) := (flip_anti T).map_min

theorem Turned.meet {T : ℝ} {p q p' q' : EReal × EReal} (h : Turned T p q) (h' : Turned T p' q') :
    Turned T (max p.1 p'.1, min p.2 p'.2) (max q.1 q'.1, min q.2 q'.2) := by
  have dead : ∀ {a b : EReal × EReal}, Dead a ∨ Dead b → Dead (max a.1 b.1, min a.2 b.2) := by
    rintro a b ((h | h) | (h | h))
    · left; show max a.1 b.1 = ⊤; rw [h, top_sup_eq]
    · right; show min a.2 b.2 = ⊥; rw [h, bot_inf_eq]
    · left; show max a.1 b.1 = ⊤; rw [h, sup_top_eq]
    · right; show min a.2 b.2 = ⊥; rw [h, inf_bot_eq]
  rcases h with ⟨h1, h2⟩ | h
  · exact Or.inl ⟨dead (Or.inl h1), dead (Or.inl h2)⟩
  rcases h' with ⟨h1, h2⟩ | h'
  · exact Or.inl ⟨dead (Or.inr h1), dead (Or.inr h2)⟩
  · right
    rw [h, h', flip_max, flip_min]

theorem flip_sort2 (T : ℝ) (a b : EReal) : sort2 ((T : EReal) - a, (T : EReal) - b) = ((T : EReal) - (sort2 (a, b)).2, (T : EReal) - (sort2 (a, b)).1) := by
  simp only [sort2, flip_max, flip_min]

theorem slab_turned (s : EReal × EReal) (o : ℝ) {d : ℝ} (hd : Clear d) (T : ℝ) : Turned T (slab s o d) (slab s (o + T * d) (-d)) := by
  by_cases h0 : d = 0
  · subst h0
    simp only [slab, neg_zero, mul_zero, add_zero, isclose0_zero, not_true_eq_false, if_false]
    split
    · right
      simp [sort2]
    · left
      simp [sort2, Dead]
  · have hc : ¬ isclose0 d := fun h => h0 (hd.isclose0_iff.1 h)
    have hc' : ¬ isclose0 (-d) := fun h => h0 (neg_eq_zero.1 (hd.neg.isclose0_iff.1 h))
    right
    have key : ∀ x : EReal, (x - ((o + T * d : ℝ) : EReal)) * (((-d)⁻¹ : ℝ) : EReal) = (T : EReal) - (x - (o : EReal)) * ((d⁻¹ : ℝ) : EReal) := by
      intro x
      induction x with
      | coe x =>
        rw [← EReal.coe_sub, ← EReal.coe_mul, ← EReal.coe_sub, ← EReal.coe_mul, ← EReal.coe_sub]
        congr 1
        field_simp
        ring
      | top =>
        rw [EReal.top_sub_coe, EReal.top_sub_coe]
        rcases lt_or_gt_of_ne h0 with h | h
        · rw [EReal.top_mul_coe_of_pos (inv_pos.2 (by linarith)), EReal.top_mul_coe_of_neg (inv_lt_zero.2 h)]
          rfl
        · rw [EReal.top_mul_coe_of_neg (inv_lt_zero.2 (by linarith)), EReal.top_mul_coe_of_pos (inv_pos.2 h)]
          rfl
      | bot =>
        rw [EReal.bot_sub, EReal.bot_sub]
        rcases lt_or_gt_of_ne h0 with h | h
        · rw [EReal.bot_mul_coe_of_pos (inv_pos.2 (by linarith)), EReal.bot_mul_coe_of_neg (inv_lt_zero.2 h)]
          rfl
        · rw [EReal.bot_mul_coe_of_neg (inv_lt_zero.2 (by linarith)), EReal.bot_mul_coe_of_pos (inv_pos.2 h)]
          rfl
    simp only [slab, hc, hc', not_false_eq_true, if_true, addMask_False]
    rw [key, key, flip_sort2]

theorem boxRaw_turned (b : Box) {r : Ray} (hr : ClearDir r) (T : ℝ) : Turned T (boxRaw b r) (boxRaw b (r.back T)) :=
  ((slab_turned (b 0) (r.o 0) hr.1 T).meet (slab_turned (b 1) (r.o 1) hr.2.1 T)).meet (slab_turned (b 2) (r.o 2) hr.2.2 T)

/-- the hits of a box -/
theorem boxIntersect_turned (b : Box) {r : Ray} (hr : ClearDir r) (T : ℝ) :
    (boxIntersect b r = (⊤, ⊤) ∧ boxIntersect b (r.back T) = (⊤, ⊤)) ∨
    ((boxIntersect b r).1 < (boxIntersect b r).2 ∧
      boxIntersect b (r.back T) = ((T : EReal) - (boxIntersect b r).2, (T : EReal) - (boxIntersect b r).1)) := by
  have e : ∀ r : Ray, boxIntersect b r = if (boxRaw b r).1 < (boxRaw b r).2 then boxRaw b r else (⊤, ⊤) := fun _ => rfl
  have dead : ∀ p : EReal × EReal, Dead p → ¬ p.1 < p.2 := by
    rintro p (h | h)
    · rw [h]; exact not_top_lt
    · rw [h]; exact not_lt_bot
  rcases boxRaw_turned b hr T with ⟨h1, h2⟩ | h
  · left
    rw [e, e, if_neg (dead _ h1), if_neg (dead _ h2)]
    exact ⟨rfl, rfl⟩
  · have flip2 : ∀ x : EReal, (T : EReal) - ((T : EReal) - x) = x := by
      intro x
      induction x with
      | coe x => rw [← EReal.coe_sub, ← EReal.coe_sub]; congr 1; ring
      | top => rfl
      | bot => rfl
    have hlt : (boxRaw b (r.back T)).1 < (boxRaw b (r.back T)).2 ↔ (boxRaw b r).1 < (boxRaw b r).2 := by
      rw [h]
      constructor
      · intro hh
        by_contra hc
        exact absurd (flip_anti T (not_lt.1 hc)) (not_le.2 hh)
      · intro hh
        by_contra hc
        have := flip_anti T (not_lt.1 hc)
        simp only [flip2] at this
        exact absurd this (not_le.2 hh)
    rw [e, e]
    by_cases hl : (boxRaw b r).1 < (boxRaw b r).2
    · right
      rw [if_pos hl, if_pos (hlt.2 hl)]
      exact ⟨hl, h⟩
    · left
      rw [if_neg hl, if_neg (mt hlt.1 hl)]
      exact ⟨rfl, rfl⟩

/-- the box test lets a line through from both sides or from none -/
theorem boxPasses_back (b : Box) {r : Ray} (hr : ClearDir r) (T : ℝ) : boxPasses b (r.back T) ↔ boxPasses b r := by
  have fin : ∀ x : EReal, ((T : EReal) - x ≠ ⊤ ∧ (T : EReal) - x ≠ ⊥) ↔ (x ≠ ⊤ ∧ x ≠ ⊥) := by
    intro x
    induction x with
    | coe x =>
      rw [← EReal.coe_sub]
      exact ⟨fun _ => ⟨EReal.coe_ne_top _, EReal.coe_ne_bot _⟩, fun _ => ⟨EReal.coe_ne_top _, EReal.coe_ne_bot _⟩⟩
    | top => simp
    | bot => simp
  unfold boxPasses
  rcases boxIntersect_turned b hr T with ⟨h1, h2⟩ | ⟨-, h2⟩
  · simp only [h1, h2]
  · simp only [h2, fin]
    exact or_comm

/-! ### primitives -/

/-- a primitive reports two distances or none -/
theorem prim_pair {p : Prim} {r : Ray} (hs : Sees p r) (hd : r.d 0 ≠ 0 ∨ r.d 1 ≠ 0 ∨ r.d 2 ≠ 0) :
    sort2 (p.intersect r) = (⊤, ⊤) ∨ ∃ a b : ℝ, a ≤ b ∧ sort2 (p.intersect r) = ((a : EReal), (b : EReal)) := by
  have hv : p.Valid := by
    cases p with
    | paraboloid f h => exact ⟨hs.1, hs.2.1⟩
    | _ => trivial
  obtain ⟨n1, n2⟩ := prim_ne_bot hs hd
  have hle := sort2_le (p.intersect r)
  have m1 : (sort2 (p.intersect r)).1 ≠ ⊥ := by
    rw [sort2_fst]
    intro h
    rcases min_eq_bot.1 h with h | h
    · exact n1 h
    · exact n2 h
  have m2 : (sort2 (p.intersect r)).2 ≠ ⊥ := fun h => m1 (le_bot_iff.1 (h ▸ hle))
  have hb : ∀ t, Btw (sort2 (p.intersect r)) t → Spec.Closed p (r.at t) := fun t => prim_btw hs
  generalize sort2 (p.intersect r) = q at *
  obtain ⟨x, y⟩ := q
  simp only at hle m1 m2
  by_cases hx : x = ⊤
  · left
    subst hx
    rw [top_le_iff.1 hle]
  lift x to ℝ using ⟨hx, m1⟩
  by_cases hy : y = ⊤
  · exfalso
    subst hy
    have hin : ∀ t, x ≤ t → ∀ i : Fin 3, (p.boundSpans i).1 ≤ r.o i.castSucc + t * r.d i.castSucc ∧
        r.o i.castSucc + t * r.d i.castSucc ≤ (p.boundSpans i).2 := fun t ht i =>
      closed_in_spans p hv _ (hb t ⟨EReal.coe_le_coe_iff.2 ht, le_top⟩) i
    have hzero : ∀ i : Fin 3, r.d i.castSucc = 0 := by
      intro i
      by_contra hne
      set lo := (p.boundSpans i).1
      set hi := (p.boundSpans i).2
      have h1 := hin x le_rfl i
      rcases lt_or_gt_of_ne hne with hneg | hpos
      · have h2 := hin (x + (hi - lo + 1) / -r.d i.castSucc) (by
          have : 0 ≤ (hi - lo + 1) / -r.d i.castSucc := div_nonneg (by linarith [h1.1, h1.2]) (by linarith)
          linarith) i
        have e : (hi - lo + 1) / -r.d i.castSucc * r.d i.castSucc = -(hi - lo + 1) := by field_simp
        have := h2.1
        rw [add_mul, e] at this
        linarith [h1.2]
      · have h2 := hin (x + (hi - lo + 1) / r.d i.castSucc) (by
          have : 0 ≤ (hi - lo + 1) / r.d i.castSucc := div_nonneg (by linarith [h1.1, h1.2]) hpos.le
          linarith) i
        have e : (hi - lo + 1) / r.d i.castSucc * r.d i.castSucc = hi - lo + 1 := by field_simp
        have := h2.2
        rw [add_mul, e] at this
        linarith [h1.1]
    rcases hd with h | h | h
    · exact h (hzero 0)
    · exact h (hzero 1)
    · exact h (hzero 2)
  lift y to ℝ using ⟨hy, m2⟩
  exact Or.inr ⟨x, y, EReal.coe_le_coe_iff.1 hle, rfl⟩

/-- the two distances from the other side -/
theorem prim_back {p : Prim} {r : Ray} (hs : Sees p r) (hd : r.d 0 ≠ 0 ∨ r.d 1 ≠ 0 ∨ r.d 2 ≠ 0) (T : ℝ) :
    (sort2 (p.intersect r) = (⊤, ⊤) ∧ sort2 (p.intersect (r.back T)) = (⊤, ⊤)) ∨
    ∃ a b : ℝ, a ≤ b ∧ sort2 (p.intersect r) = ((a : EReal), (b : EReal)) ∧
      sort2 (p.intersect (r.back T)) = (((T - b : ℝ) : EReal), ((T - a : ℝ) : EReal)) := by
  have hs' := sees_back hs T
  have hd' : (r.back T).d 0 ≠ 0 ∨ (r.back T).d 1 ≠ 0 ∨ (r.back T).d 2 ≠ 0 := by simpa [Ray.back] using hd
  have k1 := prim_pair hs hd
  have k2 := prim_pair hs' hd'
  by_cases hcube : ∃ a b, p = .cube a b
  · obtain ⟨a, b, rfl⟩ := hcube
    have hc : ClearDir r := hs
    simp only [Prim.intersect] at *
    rw [sort2_of_le (boxIntersect_le _ _)] at k1 k2
    rw [sort2_of_le (boxIntersect_le _ r), sort2_of_le (boxIntersect_le _ (r.back T))]
    rcases boxIntersect_turned (toBox (cubeSpans a b)) hc T with h | ⟨hl, h⟩
    · exact Or.inl h
    · right
      rcases k1 with k1 | ⟨x, y, hxy, k1⟩
      · rw [k1] at hl; exact absurd hl (lt_irrefl _)
      · rw [k1] at h
        exact ⟨x, y, hxy, k1, by rw [h]; rfl⟩
  -- the other primitives: the line is between the hits exactly where it is in the closed solid
  have key : ∀ {r : Ray}, Sees p r → ∀ t, Btw (sort2 (p.intersect r)) t ↔ (Spec.Closed p (r.at t) ∧ (∀ w l, p = .plane w l → r.d 2 ≠ 0)) := by
    intro r hs t
    cases p with
    | sphere rad => exact (sphere_btw rad (dirSq_pos hs) t).trans (by simp)
    | paraboloid f h =>
      obtain ⟨hf, hh, hz, hr⟩ := hs
      rw [sort2_of_le (by exact clip_le _ _)]
      exact (par_btw hf hh hr hz t).trans (by simp)
    | plane w l =>
      obtain ⟨hw, hl, hd⟩ := hs
      rw [Prim.intersect, plane_eq w l hw hl r hd]
      constructor
      · intro h
        split at h
        · rename_i hc
          simp only [Btw, sort2, min_self, max_self, EReal.coe_le_coe_iff] at h
          rw [show t = -(r.o 2) / r.d 2 from le_antisymm h.2 h.1]
          exact ⟨hc.2, fun _ _ _ => hc.1⟩
        · simp [Btw, sort2] at h
      · rintro ⟨hc, h2⟩
        have hne := h2 w l rfl
        have e : t = -(r.o 2) / r.d 2 := by
          have : r.o 2 + t * r.d 2 = 0 := hc.1
          rw [eq_div_iff hne]
          linarith
        rw [← e, if_pos ⟨hne, hc⟩]
        simp [Btw, sort2]
    | cube a b => exact absurd ⟨a, b, rfl⟩ hcube
    | cylinder rad a b =>
      obtain ⟨hab, hr, hz⟩ := hs
      rw [sort2_of_le (by exact clip_le _ _)]
      exact (cyl_btw hab hr hz t).trans (by simp)
  have hiff : ∀ t, Btw (sort2 (p.intersect (r.back T))) t ↔ Btw (sort2 (p.intersect r)) (T - t) := by
    intro t
    rw [key hs', key hs, Ray.back_at]
    have : (r.back T).d 2 ≠ 0 ↔ r.d 2 ≠ 0 := by simp [Ray.back]
    rw [this]
  rcases k1 with k1 | ⟨a, b, hab, k1⟩
  · left
    refine ⟨k1, ?_⟩
    rcases k2 with k2 | ⟨a, b, hab, k2⟩
    · exact k2
    · exfalso
      have := (hiff a).1 (by rw [k2]; exact ⟨le_rfl, EReal.coe_le_coe_iff.2 hab⟩)
      rw [k1] at this
      exact EReal.coe_ne_top _ (top_le_iff.1 this.1)
  · right
    refine ⟨a, b, hab, k1, ?_⟩
    have hiff' : ∀ t, Btw (sort2 (p.intersect (r.back T))) t ↔ a ≤ T - t ∧ T - t ≤ b := by
      intro t
      rw [hiff, k1]
      simp only [Btw, EReal.coe_le_coe_iff]
    rcases k2 with k2 | ⟨a', b', hab', k2⟩
    · exfalso
      have := (hiff' (T - a)).2 (by constructor <;> linarith)
      rw [k2] at this
      exact EReal.coe_ne_top _ (top_le_iff.1 this.1)
    · rw [k2] at hiff' ⊢
      simp only [Btw, EReal.coe_le_coe_iff] at hiff'
      have h1 := (hiff' a').1 ⟨le_rfl, hab'⟩
      have h2 := (hiff' b').1 ⟨hab', le_rfl⟩
      have h3 := (hiff' (T - a)).2 (by constructor <;> linarith)
      have h4 := (hiff' (T - b)).2 (by constructor <;> linarith)
      rw [show a' = T - b by linarith, show b' = T - a by linarith]

end PyRayT
