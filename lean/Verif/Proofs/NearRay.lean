import Verif.Proofs.Components4

/-! Rays that start inside a solid: what the intersection routines report without any condition on small direction components. -/

namespace PyRayT

open Classical Matrix Spec

variable {argsort : List EReal → List ℕ}

/-- one axis: a ray that starts strictly inside is inside as long as it is -/
theorem slab_within {s : EReal × EReal} {o d t : ℝ} (h1 : s.1 < (o : EReal)) (h2 : (o : EReal) < s.2)
    (h3 : s.1 < ((o + t * d : ℝ) : EReal)) (h4 : ((o + t * d : ℝ) : EReal) < s.2) : SBtw (slab s o d) t := by
  by_cases hc : isclose0 d
  · simp [slab, SBtw, hc, sort2, h1.le, h2.le, EReal.bot_lt_coe, EReal.coe_lt_top]
  · exact slab_sbtw (.inr (not_le.1 hc)) t h3 h4

theorem boxRaw_within {b : Box} {r : Ray} {t : ℝ} (h0 : Inner b r.o) (ht : Inner b (r.at t)) : SBtw (boxRaw b r) t := by
  have s0 := slab_within (d := r.d 0) (t := t) (h0 0).1 (h0 0).2 (ht 0).1 (ht 0).2
  have s1 := slab_within (d := r.d 1) (t := t) (h0 1).1 (h0 1).2 (ht 1).1 (ht 1).2
  have s2 := slab_within (d := r.d 2) (t := t) (h0 2).1 (h0 2).2 (ht 2).1 (ht 2).2
  simp only [SBtw, boxRaw, max_lt_iff, lt_min_iff, Fin.isValue, Fin.castSucc_zero, Fin.castSucc_one, Fin.reduceCastSucc] at *
  tauto

/-- a ray that starts strictly inside the box passes the culling test -/
theorem inner_passes_origin {b : Box} {ray : Ray} (hb : NoBot b) (hi : Inner b ray.o) {j : Fin 3} (hc : ¬ isclose0 (ray.d j.castSucc)) :
    boxPasses b ray := by
  have hs := boxRaw_within (t := 0) hi (by rw [show ray.at 0 = ray.o by funext i; simp [Ray.at]]; exact hi)
  have e : boxIntersect b ray = boxRaw b ray := by rw [boxIntersect_eq, if_pos (hs.1.trans hs.2)]
  have hval : (slab (b j) (ray.o j.castSucc) (ray.d j.castSucc)) =
      sort2 (((b j).1 - (ray.o j.castSucc : EReal)) * (((ray.d j.castSucc)⁻¹ : ℝ) : EReal),
        ((b j).2 - (ray.o j.castSucc : EReal)) * (((ray.d j.castSucc)⁻¹ : ℝ) : EReal)) := by
    simp only [slab, hc, not_false_eq_true, if_true, addMask_False]
  have hfin := ereal_sub_real_mul_ne (hb j).1 (ne_of_lt ((hi j).1.trans (EReal.coe_lt_top _))) (ray.o j.castSucc)
    ((ray.d j.castSucc)⁻¹)
  have hor : (slab (b j) (ray.o j.castSucc) (ray.d j.castSucc)).1 ≠ ⊥ ∨
      (slab (b j) (ray.o j.castSucc) (ray.d j.castSucc)).2 ≠ ⊤ := by
    rw [hval]
    simp only [sort2]
    by_contra hcon
    push Not at hcon
    obtain ⟨c1, c2⟩ := hcon
    rcases min_eq_bot.1 c1 with c | c
    · exact hfin.1 c
    · rcases max_eq_top.1 c2 with c' | c'
      · exact hfin.2 c'
      · rw [c] at c'; exact absurd c' bot_ne_top
  have hle1 : (slab (b j) (ray.o j.castSucc) (ray.d j.castSucc)).1 ≤ (boxRaw b ray).1 := by
    simp only [boxRaw]
    fin_cases j
    · exact (le_max_left _ _).trans (le_max_left _ _)
    · exact (le_max_right _ _).trans (le_max_left _ _)
    · exact le_max_right _ _
  have hle2 : (boxRaw b ray).2 ≤ (slab (b j) (ray.o j.castSucc) (ray.d j.castSucc)).2 := by
    simp only [boxRaw]
    fin_cases j
    · exact (min_le_left _ _).trans (min_le_left _ _)
    · exact (min_le_left _ _).trans (min_le_right _ _)
    · exact min_le_right _ _
  unfold boxPasses
  simp only [e]
  rcases hor with h | h
  · left
    refine ⟨ne_of_lt (hs.1.trans (EReal.coe_lt_top _)), fun hc => h ?_⟩
    rw [hc] at hle1; exact le_bot_iff.1 hle1
  · right
    refine ⟨fun hc => h ?_, ne_of_gt ((EReal.bot_lt_coe _).trans hs.2)⟩
    rw [hc] at hle2; exact top_le_iff.1 hle2

/-- the boolean combination of facts about the leaves -/
def Solid.eval (f : Prim → Mat4 → Prop) : Solid → Prop
  | .leaf p w => f p w
  | .node op l r => op.holds (l.eval f) (r.eval f)

/-- a leaf from which leaves are cut one after the other -/
def Solid.Spine : Solid → Prop
  | .leaf _ _ => True
  | .node op l r => op ≠ .union ∧ l.Spine ∧ ∃ p w, r = .leaf p w

theorem intersectObj_spine (ha : IsArgsort argsort) {h : Heap} {a : ℕ} {s : Solid} (hr : Represents h a s) (hsp : s.Spine) {ray : Ray}
    (h3 : ray.o 3 = 1) {j : Fin 3} (hc : ¬ isclose0 (ray.d j.castSucc)) (hg : s.All fun p w => p.Valid ∧ Affine w)
    (hb : BoxesOk argsort h a)
    (hs : ∀ x p, Under h a x → (h.obj x).kind = .prim p → (h.obj x).objT = (h.obj x).world⁻¹) (ho : s.Interior ray.o) :
    ∀ fuel, s.depth ≤ fuel → ∀ t : EReal,
    InsideAt (intersectObj argsort fuel h a ray).1 t ↔ s.eval fun p w => InsideAt (leafIntersect w⁻¹ 0 p ray).1 t := by
  induction hr with
  | @leaf a p hk =>
    intro fuel hf t
    obtain ⟨fuel, rfl⟩ : ∃ n, fuel = n + 1 := ⟨fuel - 1, by simp [Solid.depth] at hf; omega⟩
    rw [intersectObj, hk]
    simp only [Solid.eval]
    rw [hs a p .refl hk]
    simp [leafIntersect]
  | @node a l r op sl sr hk hl hr ihl ihr =>
    intro fuel hf t
    obtain ⟨fuel, rfl⟩ : ∃ n, fuel = n + 1 := ⟨fuel - 1, by simp [Solid.depth] at hf; omega⟩
    obtain ⟨hop, hspl, p, w, rfl⟩ := hsp
    have dl : sl.depth ≤ fuel := by simp [Solid.depth] at hf; omega
    have dr : 1 ≤ fuel := by simp [Solid.depth] at hf; omega
    have pl : IsParent h a l := ⟨op, l, r, hk, Or.inl rfl⟩
    have pr : IsParent h a r := ⟨op, l, r, hk, Or.inr rfl⟩
    have hpass := inner_passes_origin (aobb_noBot argsort ha (Represents.node hk hl hr) hb)
      (interior_inner argsort ha (Represents.node hk hl hr) h3 hg hb ho) hc
    have hol : sl.Interior ray.o := by
      cases op with
      | union => exact absurd rfl hop
      | intersect => simp only [Solid.Interior] at ho; exact ho.1
      | difference => simp only [Solid.Interior] at ho; exact ho.1
    have kl := ihl hspl hg.1 (hb.child argsort pl) (fun x p hu => hs x p (Under.trans (.step .refl pl) hu)) hol fuel dl t
    have kr : InsideAt (intersectObj argsort fuel h r ray).1 t ↔ InsideAt (leafIntersect w⁻¹ 0 p ray).1 t := by
      obtain ⟨fuel, rfl⟩ : ∃ n, fuel = n + 1 := ⟨fuel - 1, by omega⟩
      cases hr with
      | leaf hkr =>
        rw [intersectObj, hkr]
        simp only
        rw [hs r p (.step .refl pr) hkr]
        simp [leafIntersect]
    have sl' := intersectObj_shape argsort ha h ray fuel l
    have sr' := intersectObj_shape argsort ha h ray fuel r
    rw [intersectObj, hk]
    simp only
    rw [if_pos hpass, csgCombine_inside argsort ha _ _ _ _ _ _ sl'.1 sr'.1 sl'.2.1 sr'.2.1]
    simp only [Solid.eval]
    cases op <;> simp only [Operation.holds, kl, kr]

/-- the aperture of a lens, for a ray that starts inside and is nearly parallel to its axis -/
theorem aperture_within {ap : Aperture} {T : ℝ} {r : Ray} {t : ℝ} (hT : 0 ≤ T) (h0 : Spec.Interior (aperturePrim ap T) r.o)
    (ht : Spec.Interior (aperturePrim ap T) (r.at t)) (hz : ¬ isclose0 (r.d 2))
    (hcyl : ∀ D, ap = .scalar D → isclose0 (r.d 0 * r.d 0 + r.d 1 * r.d 1) ∧ isclose0 (2 * (r.d 0 * r.o 0 + r.d 1 * r.o 1))) :
    SBtw (sort2 ((aperturePrim ap T).intersect r)) t := by
  cases ap with
  | scalar D =>
    obtain ⟨c1, c2⟩ := hcyl D rfl
    simp only [aperturePrim, Spec.Interior] at h0 ht
    simp only [aperturePrim, Prim.intersect]
    rw [sort2_of_le (by exact clip_le _ _)]
    rw [min_eq_left (by linarith : -T / 2 ≤ T / 2), max_eq_right (by linarith : -T / 2 ≤ T / 2)] at ht
    unfold cylinderIntersect
    simp only
    rw [clip_sbtw]
    refine ⟨?_, caps_sbtw (.inr (not_le.1 hz)) t ht.2.1 ht.2.2⟩
    have hneg : r.o 0 * r.o 0 + r.o 1 * r.o 1 - (D / 2) ^ 2 ≤ 0 := by nlinarith [h0.1]
    have e : binomialRoot (r.d 0 * r.d 0 + r.d 1 * r.d 1) (2 * (r.d 0 * r.o 0 + r.d 1 * r.o 1)) (r.o 0 * r.o 0 + r.o 1 * r.o 1 - (D / 2) ^ 2) =
        (⊥, ⊤) := by
      simp only [binomialRoot, c1, c2, hneg, and_self, if_true]
    rw [e]
    simp [sort2, SBtw, EReal.bot_lt_coe, EReal.coe_lt_top]
  | pair A B =>
    simp only [aperturePrim, Spec.Interior] at h0 ht
    simp only [aperturePrim, Prim.intersect]
    rw [sort2_of_le (boxIntersect_le _ _)]
    have := boxRaw_within (b := toBox (cubeSpans ![-A / 2, -B / 2, -T / 2] ![A / 2, B / 2, T / 2])) (r := r) (t := t)
      (fun i => by simpa only [toBox, cubeSpans, EReal.coe_lt_coe_iff] using h0 i)
      (fun i => by simpa only [toBox, cubeSpans, EReal.coe_lt_coe_iff] using ht i)
    rw [boxIntersect_eq, if_pos (this.1.trans this.2)]
    exact this

end PyRayT
