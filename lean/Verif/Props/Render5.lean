import Verif.Props.Render4
import Verif.Props.Primitives

/-!
# Property C69: `draw` shows what is seen from outside
-/

namespace PyRayT

open Classical Matrix

/-! ### no hit at -inf -/

theorem slab_fst_ne_bot {s : ℝ × ℝ} {o d : ℝ} (hd : ¬ isclose0 d) : (slab ((s.1 : EReal), (s.2 : EReal)) o d).1 ≠ ⊥ := by
  simp only [slab, sort2, hd, not_false_eq_true, if_true, addMask_False]
  intro h
  rcases min_eq_bot.1 h with h | h
  · exact (ereal_sub_real_mul_ne (EReal.coe_ne_bot s.1) (EReal.coe_ne_top s.1) o d⁻¹).1 h
  · exact (ereal_sub_real_mul_ne (EReal.coe_ne_bot s.2) (EReal.coe_ne_top s.2) o d⁻¹).1 h

theorem caps_fst_bot {lo hi oz dz : ℝ} (h : (sort2 (capHits lo hi oz dz)).1 = ⊥) : isclose0 dz := by
  by_contra hc
  simp [capHits, sort2, hc] at h

theorem polyRoots_ne_bot (b disc den : ℝ) : (polyRoots b disc den).1 ≠ ⊥ ∧ (polyRoots b disc den).2 ≠ ⊥ := by
  unfold polyRoots
  split
  · exact ⟨EReal.coe_ne_bot _, EReal.coe_ne_bot _⟩
  · exact ⟨top_ne_bot, top_ne_bot⟩

theorem clip_ne_bot {side caps : EReal × EReal} (h1 : (sort2 side).2 ≠ ⊥) (h2 : (sort2 caps).2 ≠ ⊥)
    (h3 : (sort2 side).1 = ⊥ → (sort2 caps).1 = ⊥ → False) : (clipHits side caps).1 ≠ ⊥ ∧ (clipHits side caps).2 ≠ ⊥ := by
  unfold clipHits
  simp only
  split
  · refine ⟨fun h => h3 (max_eq_bot.1 h).1 (max_eq_bot.1 h).2, fun h => ?_⟩
    rcases min_eq_bot.1 h with h | h
    · exact h1 h
    · exact h2 h
  · exact ⟨top_ne_bot, top_ne_bot⟩

/-- a primitive reports no hit at -inf -/
theorem prim_ne_bot {p : Prim} {r : Ray} (hs : Spec.Sees p r) (hd : r.d 0 ≠ 0 ∨ r.d 1 ≠ 0 ∨ r.d 2 ≠ 0) :
    (p.intersect r).1 ≠ ⊥ ∧ (p.intersect r).2 ≠ ⊥ := by
  cases p with
  | sphere rad =>
    simp only [Prim.intersect, sphereIntersect]
    split
    · exact ⟨top_ne_bot, top_ne_bot⟩
    · exact polyRoots_ne_bot _ _ _
  | plane w l =>
    have : (planeIntersect w l r).1 ≠ ⊥ := by
      simp only [planeIntersect]
      generalize hh : (if isclose0 (r.d 2) then (⊤ : EReal) else ((-(r.o 2) / addMask (r.d 2) (isclose0 (r.d 2)) : ℝ) : EReal)) = x
      have hx : x ≠ ⊥ := by
        rw [← hh]
        split
        · exact top_ne_bot
        · exact EReal.coe_ne_bot _
      split
      · exact hx
      · exact top_ne_bot
    exact ⟨this, this⟩
  | cube a b =>
    simp only [Prim.intersect, boxIntersect]
    split
    · rename_i hlt
      obtain ⟨c0, c1, c2⟩ := hs
      refine ⟨fun h => ?_, (lt_of_le_of_lt bot_le hlt).ne'⟩
      obtain ⟨h01, h2⟩ := max_eq_bot.1 h
      obtain ⟨h0, h1⟩ := max_eq_bot.1 h01
      rcases hd with hd | hd | hd
      · exact slab_fst_ne_bot (fun hc => hd (c0.isclose0_iff.1 hc)) h0
      · exact slab_fst_ne_bot (fun hc => hd (c1.isclose0_iff.1 hc)) h1
      · exact slab_fst_ne_bot (fun hc => hd (c2.isclose0_iff.1 hc)) h2
    · exact ⟨top_ne_bot, top_ne_bot⟩
  | cylinder rad lo hi =>
    obtain ⟨-, c1, c2⟩ := hs
    refine clip_ne_bot (by rw [sort2_sort2]; exact binomialRoot_ne_bot _ _ _) (caps_ne_bot _ _ _ _) fun h1 h2 => ?_
    have hz : r.d 2 = 0 := c2.isclose0_iff.1 (caps_fst_bot h2)
    have ha : isclose0 (r.d 0 * r.d 0 + r.d 1 * r.d 1) := by
      by_contra hc
      rw [sort2_sort2] at h1
      simp only [binomialRoot, sort2, hc, false_and, if_false] at h1
      rcases min_eq_bot.1 h1 with h | h
      · exact (polyRoots_ne_bot _ _ _).1 h
      · exact (polyRoots_ne_bot _ _ _).2 h
    have h0 := c1.isclose0_iff.1 ha
    rcases hd with hd | hd | hd
    · nlinarith [mul_self_pos.2 hd, mul_self_nonneg (r.d 1)]
    · nlinarith [mul_self_pos.2 hd, mul_self_nonneg (r.d 0)]
    · exact hd hz
  | paraboloid f h =>
    obtain ⟨-, -, c2, c1⟩ := hs
    refine clip_ne_bot (by rw [sort2_sort2]; exact parSide_ne_bot _ _) (caps_ne_bot _ _ _ _) fun h1 h2 => ?_
    have hz : r.d 2 = 0 := c2.isclose0_iff.1 (caps_fst_bot h2)
    rcases c1 with c1 | c1
    · have hc : ¬ isclose0 (r.d 0 * r.d 0 + r.d 1 * r.d 1) := by
        have : Clear (r.d 0 * r.d 0 + r.d 1 * r.d 1) := Or.inr (lt_of_lt_of_le c1 (le_abs_self _))
        rw [this.isclose0_iff]
        linarith
      rw [sort2_sort2] at h1
      simp only [hc, if_false, sort2] at h1
      rcases min_eq_bot.1 h1 with h | h
      · exact (polyRoots_ne_bot _ _ _).1 h
      · exact (polyRoots_ne_bot _ _ _).2 h
    · rw [hz] at c1
      norm_num at c1

theorem local_dir_ne {w : Mat4} (hw : Affine w) {ray : Ray} (h3 : ray.d 3 = 0) (hne : ray.d 0 ≠ 0 ∨ ray.d 1 ≠ 0 ∨ ray.d 2 ≠ 0) :
    (ray.map w⁻¹).d 0 ≠ 0 ∨ (ray.map w⁻¹).d 1 ≠ 0 ∨ (ray.map w⁻¹).d 2 ≠ 0 := by
  by_contra hc
  push Not at hc
  have e : w *ᵥ (ray.map w⁻¹).d = ray.d := by
    show w *ᵥ (w⁻¹ *ᵥ ray.d) = ray.d
    rw [mulVec_mulVec, mul_nonsing_inv _ (isUnit_iff_ne_zero.2 hw.2), one_mulVec]
  have h3' : (ray.map w⁻¹).d 3 = 0 := by rw [← affine_three hw (ray.map w⁻¹).d, e, h3]
  have h0 : (ray.map w⁻¹).d = 0 := by
    funext i
    fin_cases i
    · exact hc.1
    · exact hc.2.1
    · exact hc.2.2
    · exact h3'
  rw [h0, mulVec_zero] at e
  rw [← e] at hne
  simp at hne

theorem under_rep {h : Heap} {P : Prim → Mat4 → Prop} {a x : ℕ} (hu : Under h a x) : (∃ s, Represents h a s ∧ s.All P) → ∃ s, Represents h x s ∧ s.All P := by
  induction hu with
  | refl => exact id
  | step hu hp ih =>
    intro hs
    obtain ⟨s, hr, hall⟩ := ih hs
    obtain ⟨op, l, r, hk, hx⟩ := hp
    cases hr with
    | leaf hk' => rw [hk'] at hk; cases hk
    | node hk' hl hr =>
      rw [hk'] at hk
      cases hk
      rcases hx with rfl | rfl
      · exact ⟨_, hl, hall.1⟩
      · exact ⟨_, hr, hall.2⟩

variable (argsort : List EReal → List ℕ)

/-- an object reports no hit at -inf -/
theorem tree_ne_bot (ha : IsArgsort argsort) {fuel : ℕ} {h : Heap} (hr : Reaches argsort fuel Heap.empty h) {a depth : ℕ} {ray : Ray}
    (hray : GoodRay ray) (hlt : a < h.size) {s : Solid} (hrep : Represents h a s)
    (hall : s.All fun p w => (p.Valid ∧ Affine w) ∧ Spec.Sees p (ray.map w⁻¹)) : ∀ x ∈ (intersectObj argsort depth h a ray).1, x ≠ ⊥ := by
  intro x hx hbot
  obtain ⟨i, hi, e⟩ := List.mem_iff_getElem.1 hx
  have hl := (intersectObj_shape argsort ha h ray depth a).2.2
  obtain ⟨y, p, hu, -, hk, -, hm⟩ := intersectObj_label argsort ha h ray depth a i x ((intersectObj argsort depth h a ray).2[i]'(by omega))
    (by rw [List.getElem?_eq_getElem hi, e]) (by rw [hbot]; exact bot_ne_top) (List.getElem?_eq_getElem _)
  obtain ⟨s', hrep', hall'⟩ := under_rep hu ⟨s, hrep, hall⟩
  have inv := reaches_inv argsort empty_inv hr
  cases hrep' with
  | node hk' => rw [hk'] at hk; cases hk
  | leaf hk' =>
    rw [hk'] at hk
    cases hk
    have hw : (h.obj y).objT = (h.obj y).world⁻¹ := (inv.synced y (lt_of_le_of_lt (hu.le inv.toStruct hlt) hlt)).2.1
    obtain ⟨⟨-, haff⟩, hsees⟩ := hall'
    obtain ⟨n1, n2⟩ := prim_ne_bot hsees (local_dir_ne haff hray.d3 hray.ne)
    rw [hw] at hm
    simp only [leafIntersect, sort2, List.mem_cons, List.not_mem_nil, or_false] at hm
    rw [hbot] at hm
    rcases hm with hm | hm
    · rcases min_eq_bot.1 hm.symm with h | h
      · exact n1 h
      · exact n2 h
    · exact n1 (max_eq_bot.1 hm.symm).1

theorem hit_ne_bot (ha : IsArgsort argsort) {fuel : ℕ} {h : Heap} (hr : Reaches argsort fuel Heap.empty h) {a depth : ℕ} {ray : Ray}
    (hray : GoodRay ray) (hd : Spec.Drawable h a depth ray) : ∀ x ∈ (intersectObj argsort depth h a ray).1, x ≠ ⊥ := by
  obtain ⟨hlt, ⟨s, hrep, hdep, hall⟩, -⟩ := hd
  exact tree_ne_bot argsort ha hr hray hlt hrep hall

/-! ### C69 -/

/-- The surface met first by an observer who comes along the whole line of the ray from infinitely far behind its start (distances may be negative), or
background (-1 at infinity) if the line meets nothing. -/
def Spec.FirstMet (shapes : List Shape) (ray : Ray) (r : EReal × ℤ) : Prop :=
  ((∀ c ∈ shapes, ∀ x ∈ (c.intersect ray).1, x = ⊤) ∧ r = (⊤, -1)) ∨
  ∃ d : ℝ, r.1 = (d : EReal) ∧ (∀ c ∈ shapes, ∀ x ∈ (c.intersect ray).1, (d : EReal) ≤ x) ∧
    ∃ c ∈ shapes, ∃ i : ℕ, (c.intersect ray).1[i]? = some r.1 ∧ (c.intersect ray).2[i]? = some r.2

theorem firstMet_of {shapes : List Shape} {ray : Ray} (hlen : ∀ c ∈ shapes, (c.intersect ray).2.length = (c.intersect ray).1.length)
    (hbot : ∀ c ∈ shapes, ∀ x ∈ (c.intersect ray).1, x ≠ ⊥)
    (hle : ∀ c ∈ shapes, ∀ x ∈ (c.intersect ray).1, (nearestRendered (c.intersect ray)).1 ≤ x) :
    Spec.FirstMet shapes ray (renderHit shapes ray) := by
  have hall : ∀ c ∈ shapes, ∀ x ∈ (c.intersect ray).1, (renderHit shapes ray).1 ≤ x :=
    fun c hc x hx => (renderHit_le hc ray).trans (hle c hc x hx)
  rcases renderHit_from hlen with h0 | ⟨hne, c, hc, i, e1, e2⟩
  · left
    refine ⟨fun c hc x hx => ?_, h0⟩
    have := hall c hc x hx
    rw [h0] at this
    exact top_le_iff.1 this
  · right
    have hb := hbot c hc _ (List.mem_of_getElem? e1)
    refine ⟨(renderHit shapes ray).1.toReal, (EReal.coe_toReal hne hb).symm, ?_, c, hc, i, e1, e2⟩
    rw [EReal.coe_toReal hne hb]
    exact hall

theorem nearest_le_of_pos {h : List EReal × List ℤ} (hp : ∀ x ∈ h.1, x < ⊤ → 0 < x) {x : EReal} (hx : x ∈ h.1) : (nearestRendered h).1 ≤ x := by
  by_cases ht : x < ⊤
  · rw [(nearestRendered_cases h).1 ⟨x, hx, hp x hx ht, ht⟩]
    exact nearestHit_le h hx (hp x hx ht)
  · rw [not_lt_top_iff.1 ht]
    exact le_top

theorem nearest_le_of_nonpos {h : List EReal × List ℤ} (hs : h.1.Pairwise (· ≤ ·)) (hp : ∀ x ∈ h.1, x < ⊤ → x ≤ 0) {x : EReal} (hx : x ∈ h.1) :
    (nearestRendered h).1 ≤ x := by
  rw [(nearestRendered_cases h).2 fun x hx hh => absurd (hp x hx hh.2) (not_le.2 hh.1)]
  exact head_le hs hx

theorem viewDir_good {view : View} {ray : Ray} (hd : ray.d = Spec.viewDir view) (ho : ray.o 3 = 1) : GoodRay ray := by
  have hc1 : Clear (1 : ℝ) := Or.inr (by norm_num)
  have hc2 : Clear (-1 : ℝ) := Or.inr (by norm_num)
  have hc0 : Clear (0 : ℝ) := Or.inl rfl
  refine ⟨ho, ?_, ?_, ?_⟩
  · rw [hd]
    cases view <;> rfl
  · unfold ClearDir
    rw [hd]
    cases view
    · exact ⟨hc0, hc0, hc2⟩
    · exact ⟨hc0, hc1, hc0⟩
  · rw [hd]
    cases view <;> simp [Spec.viewDir, vector]

/-- **C69.** Objects assembled from parts that are not used elsewhere, drawn without explicit bounds. For every ray of the camera of `draw`
(conditions as in C72): in the xy view the renderer records the surface met first from above (the largest z) if some of the bounding boxes reaches above z = 0; in the xz
view it records the surface met first from the side of negative y if some bounding box reaches y = 0. If nothing is on the line of the ray, background.
Missing from C69: all other placements, see `C69_below_false`. -/
theorem C69_view_partial (ha : IsStableArgsort argsort) {fuel : ℕ} {h : Heap} (hr : TidyReaches argsort fuel Heap.empty h) (view : View) (resolution depth : ℕ)
    (look : ℕ → Gooch) (light : Vec4) (a : ℕ) (as : List ℕ) {rays : List Ray}
    (hrays : (drawCamera view (fun i => (drawBounds (h.obj a).aobb (as.map fun x => (h.obj x).aobb) i).1)
      (fun i => (drawBounds (h.obj a).aobb (as.map fun x => (h.obj x).aobb) i).2) resolution).generateRays = some rays)
    {ray : Ray} (hray : ray ∈ rays) (hd : ∀ x ∈ a :: as, Spec.Drawable h x depth ray)
    (hfront : match view with
      | .xy => ∃ x ∈ a :: as, 0 < ((h.obj x).aobb 2).2
      | .xz => ∃ x ∈ a :: as, 0 ≤ ((h.obj x).aobb 1).2) :
    Spec.FirstMet ((a :: as).map (shapeOf argsort depth h look light)) ray (renderHit ((a :: as).map (shapeOf argsort depth h look light)) ray) := by
  have hre := TidyReaches.reaches argsort hr
  obtain ⟨e1, e2, e3⟩ := draw_rays view _ _ resolution hrays hray
  have hgood := viewDir_good e1 e3
  set M : ℝ := (drawBounds (h.obj a).aobb (as.map fun x => (h.obj x).aobb) (Spec.depthAxis view)).2 with hM
  have hbox : ∀ x ∈ a :: as, (h.obj x).aobb ∈ (h.obj a).aobb :: as.map fun x => (h.obj x).aobb := by
    intro x hx
    rcases List.mem_cons.1 hx with rfl | hx
    · simp
    · exact List.mem_cons_of_mem _ (List.mem_map.2 ⟨x, hx, rfl⟩)
  have hup : ∀ x ∈ a :: as, ((h.obj x).aobb (Spec.depthAxis view)).2 ≤ (M : EReal) := by
    intro x hx
    obtain ⟨lo, hi, e⟩ := (C72_hits_in_box_partial argsort ha hr hgood (hd x hx)).1 (Spec.depthAxis view)
    have := ((C70_bounds (h.obj a).aobb (as.map fun x => (h.obj x).aobb) (Spec.depthAxis view)).1 _ (hbox x hx)).2
    rw [e] at this ⊢
    exact EReal.coe_le_coe_iff.2 this
  have hcoord : ∀ x ∈ a :: as, ∀ t : ℝ, (t : EReal) ∈ (intersectObj argsort depth h x ray).1 → ray.at t (Spec.depthAxis view).castSucc ≤ M := by
    intro x hx t ht
    exact EReal.coe_le_coe_iff.1 ((((C72_hits_in_box_partial argsort ha hr hgood (hd x hx)).2 t ht (Spec.depthAxis view)).2).trans (hup x hx))
  have hat : ∀ t : ℝ, ray.at t (Spec.depthAxis view).castSucc = 1.5 * M + t * Spec.viewDir view (Spec.depthAxis view).castSucc := by
    intro t
    rw [← e1, ← e2]
    rfl
  have hnb : ∀ x ∈ a :: as, ∀ d ∈ (intersectObj argsort depth h x ray).1, d ≠ ⊥ := fun x hx => hit_ne_bot argsort ha.1 hre hgood (hd x hx)
  refine firstMet_of ?_ ?_ ?_
  · intro c hc
    obtain ⟨x, -, rfl⟩ := List.mem_map.1 hc
    exact (intersectObj_shape argsort ha.1 h ray depth x).2.2
  · intro c hc
    obtain ⟨x, hx, rfl⟩ := List.mem_map.1 hc
    exact hnb x hx
  · intro c hc
    obtain ⟨x, hx, rfl⟩ := List.mem_map.1 hc
    intro d hdm
    cases view with
    | xy =>
      refine nearest_le_of_pos (fun y hy hlt => ?_) hdm
      obtain ⟨z, hz, hpos⟩ := hfront
      have hMpos : 0 < M := EReal.coe_pos.1 (lt_of_lt_of_le hpos (hup z hz))
      have ey : ((y.toReal : ℝ) : EReal) = y := EReal.coe_toReal hlt.ne (hnb x hx y hy)
      rw [← ey] at hy ⊢
      have h1 := hcoord x hx _ hy
      rw [hat] at h1
      simp only [Spec.viewDir, Spec.depthAxis, vector, Fin.reduceCastSucc, Matrix.cons_val] at h1
      exact EReal.coe_pos.2 (by linarith)
    | xz =>
      refine nearest_le_of_nonpos (intersectObj_shape argsort ha.1 h ray depth x).1 (fun y hy hlt => ?_) hdm
      obtain ⟨z, hz, hpos⟩ := hfront
      have hMpos : 0 ≤ M := EReal.coe_nonneg.1 (hpos.trans (hup z hz))
      have ey : ((y.toReal : ℝ) : EReal) = y := EReal.coe_toReal hlt.ne (hnb x hx y hy)
      rw [← ey] at hy ⊢
      have h1 := hcoord x hx _ hy
      rw [hat] at h1
      simp only [Spec.viewDir, Spec.depthAxis, vector, Fin.reduceCastSucc, Matrix.cons_val] at h1
      exact EReal.coe_nonpos.2 (by linarith)

/-! #### a block on the axis of the view -/

/-- a block from -1 to 1 in the plane of the image and from `lo` to `hi` along the view -/
noncomputable def blockPrim (view : View) (lo hi : ℝ) : Prim :=
  match view with
  | .xy => .cube ![-1, -1, lo] ![1, 1, hi]
  | .xz => .cube ![-1, lo, -1] ![1, hi, 1]

noncomputable def block (view : View) (lo hi : ℝ) : Heap := newPrim Heap.empty (blockPrim view lo hi)

/-- the central ray -/
noncomputable def blockRay (view : View) (hi : ℝ) : Ray :=
  match view with
  | .xy => ⟨point 0 0 (1.5 * hi), vector 0 0 (-1)⟩
  | .xz => ⟨point 0 (1.5 * hi) 0, vector 0 1 0⟩

theorem block_obj (view : View) (lo hi : ℝ) : ((block view lo hi).obj 0).kind = .prim (blockPrim view lo hi) ∧ ((block view lo hi).obj 0).objT = 1 ∧
    ((block view lo hi).obj 0).world = 1 ∧ ((block view lo hi).obj 0).oid = 0 ∧ (block view lo hi).size = 1 ∧
    ((block view lo hi).obj 0).aobb = primBox 1 (blockPrim view lo hi) := by
  simp [block, newPrim, Heap.alloc, Heap.empty, primBox_one]

theorem block_tidy (view : View) (lo hi : ℝ) (fuel : ℕ) : TidyReaches argsort fuel Heap.empty (block view lo hi) :=
  .step (.newPrim _) (.refl _) trivial trivial rfl

theorem block_bounds (view : View) {lo hi : ℝ} (hlt : lo < hi) :
    (fun i => drawBounds ((block view lo hi).obj 0).aobb [] i) = fun i => if i = Spec.depthAxis view then (lo, hi) else (-1, 1) := by
  funext i
  rw [(block_obj view lo hi).2.2.2.2.2, primBox_one_eq]
  cases view <;> fin_cases i <;> simp [drawBounds, toBox, blockPrim, Prim.boundSpans, cubeSpans, Spec.depthAxis, hlt.le]

theorem block_rays (view : View) {lo hi : ℝ} (hlt : lo < hi) : ∃ rays, (drawCamera view (fun i => (drawBounds ((block view lo hi).obj 0).aobb [] i).1)
    (fun i => (drawBounds ((block view lo hi).obj 0).aobb [] i).2) 3).generateRays = some rays ∧ blockRay view hi ∈ rays := by
  have hb := block_bounds view hlt
  have e1 : (fun i => (drawBounds ((block view lo hi).obj 0).aobb [] i).1) = fun i => if i = Spec.depthAxis view then lo else -1 := by
    funext i
    rw [congrFun hb i]
    split <;> rfl
  have e2 : (fun i => (drawBounds ((block view lo hi).obj 0).aobb [] i).2) = fun i => if i = Spec.depthAxis view then hi else 1 := by
    funext i
    rw [congrFun hb i]
    split <;> rfl
  rw [e1, e2]
  have a1 : (if view.axes.1 = Spec.depthAxis view then lo else (-1 : ℝ)) = -1 := by cases view <;> simp [View.axes, Spec.depthAxis]
  have a2 : (if view.axes.2 = Spec.depthAxis view then lo else (-1 : ℝ)) = -1 := by cases view <;> simp [View.axes, Spec.depthAxis]
  have b1 : (if view.axes.1 = Spec.depthAxis view then hi else (1 : ℝ)) = 1 := by cases view <;> simp [View.axes, Spec.depthAxis]
  have b2 : (if view.axes.2 = Spec.depthAxis view then hi else (1 : ℝ)) = 1 := by cases view <;> simp [View.axes, Spec.depthAxis]
  obtain ⟨he, -, hh, hv, rays, hr, -, hg⟩ := C70_grid view (fun i => if i = Spec.depthAxis view then lo else -1)
    (fun i => if i = Spec.depthAxis view then hi else 1) 3 (by beta_reduce; rw [a1, b1]; norm_num) (by beta_reduce; rw [a2, b2]; norm_num)
  beta_reduce at he hh hv hg
  rw [a1, a2, b1, b2] at he hh hv
  have hh' := hh le_rfl
  norm_num at hh'
  have hh3 : (drawCamera view (fun i => if i = Spec.depthAxis view then lo else -1) (fun i => if i = Spec.depthAxis view then hi else 1) 3).hPixels = 3 := by
    exact_mod_cast hh'
  rw [hh3] at hv hg
  norm_num at hv
  rw [hv, he] at hg
  obtain ⟨r, hr1, d1, d2, d3, d4, d5⟩ := hg (by norm_num) (by norm_num) 1 1 (by norm_num) (by norm_num)
  refine ⟨rays, hr, ?_⟩
  have : r = blockRay view hi := by
    rw [if_pos rfl] at d2
    norm_num at d4 d5
    obtain ⟨o, d⟩ := r
    simp only at d1 d2 d3 d4 d5
    subst d1
    cases view
    · refine congrArg (Ray.mk · _) ?_
      funext i
      fin_cases i
      · exact d4
      · exact d5
      · exact d2
      · exact d3
    · refine congrArg (Ray.mk · _) ?_
      funext i
      fin_cases i
      · exact d4
      · exact d2
      · exact d5
      · exact d3
  rw [← this]
  exact List.mem_of_getElem? hr1

theorem block_drawable (view : View) (lo hi : ℝ) : Spec.Drawable (block view lo hi) 0 1 (blockRay view hi) := by
  obtain ⟨k, -, w, -, sz, -⟩ := block_obj view lo hi
  refine ⟨by rw [sz]; norm_num, ⟨_, .leaf k, le_rfl, ?_⟩, fun x j op l r hc hk => ?_⟩
  · rw [w]
    refine ⟨⟨?_, ?_⟩, ?_⟩
    · cases view <;> trivial
    · refine ⟨?_, by simp⟩
      funext i
      fin_cases i <;> simp [Matrix.one_apply]
    · have : (blockRay view hi).map 1⁻¹ = blockRay view hi := by simp [Ray.map]
      rw [this]
      have hc1 : Clear (1 : ℝ) := Or.inr (by norm_num)
      have hc2 : Clear (-1 : ℝ) := Or.inr (by norm_num)
      have hc0 : Clear (0 : ℝ) := Or.inl rfl
      cases view
      · exact ⟨hc0, hc0, hc2⟩
      · exact ⟨hc0, hc1, hc0⟩
  · have : x = 0 := by
      have := hc.under.le (reaches_inv (fun _ => []) empty_inv (TidyReaches.reaches _ (block_tidy _ view lo hi 0))).toStruct (by rw [sz]; norm_num)
      omega
    rw [this, k] at hk
    cases hk

theorem slab_still : slab (((-1 : ℝ) : EReal), ((1 : ℝ) : EReal)) 0 0 = (⊥, ⊤) := by
  have h : isclose0 (0 : ℝ) := isclose0_zero
  simp only [slab, h, not_true_eq_false, if_false, sort2]
  rw [if_pos ⟨EReal.coe_le_coe_iff.2 (by norm_num), EReal.coe_le_coe_iff.2 (by norm_num)⟩]
  simp

theorem slab_moving (a b o : ℝ) {d : ℝ} (hd : ¬ isclose0 d) : slab ((a : EReal), (b : EReal)) o d =
    sort2 ((((a - o) * d⁻¹ : ℝ) : EReal), (((b - o) * d⁻¹ : ℝ) : EReal)) := by
  simp only [slab, hd, not_false_eq_true, if_true, addMask_False]
  norm_cast

theorem boxIntersect_of {box : Box} {ray : Ray} {s0 s1 s2 : EReal × EReal} (e0 : slab (box 0) (ray.o 0) (ray.d 0) = s0)
    (e1 : slab (box 1) (ray.o 1) (ray.d 1) = s1) (e2 : slab (box 2) (ray.o 2) (ray.d 2) = s2)
    (h : max (max s0.1 s1.1) s2.1 < min (min s0.2 s1.2) s2.2) :
    boxIntersect box ray = (max (max s0.1 s1.1) s2.1, min (min s0.2 s1.2) s2.2) := by
  subst e0 e1 e2
  exact if_pos h

theorem block_hits (view : View) {lo hi : ℝ} (hlt : lo < hi) : (blockPrim view lo hi).intersect (blockRay view hi) =
    match view with
    | .xy => (((hi / 2 : ℝ) : EReal), ((3 / 2 * hi - lo : ℝ) : EReal))
    | .xz => (((lo - 3 / 2 * hi : ℝ) : EReal), ((-hi / 2 : ℝ) : EReal)) := by
  have hc1 : ¬ isclose0 (1 : ℝ) := by
    have : Clear (1 : ℝ) := Or.inr (by norm_num)
    rw [this.isclose0_iff]; norm_num
  have hc2 : ¬ isclose0 (-1 : ℝ) := by
    have : Clear (-1 : ℝ) := Or.inr (by norm_num)
    rw [this.isclose0_iff]; norm_num
  cases view
  · have e1 : (lo - 1.5 * hi) * (-1)⁻¹ = 3 / 2 * hi - lo := by norm_num
    have e2 : (hi - 1.5 * hi) * (-1)⁻¹ = hi / 2 := by norm_num; ring
    have h1 : ((hi / 2 : ℝ) : EReal) < ((3 / 2 * hi - lo : ℝ) : EReal) := EReal.coe_lt_coe_iff.2 (by linarith)
    have s2 : slab (((min lo hi : ℝ) : EReal), ((max lo hi : ℝ) : EReal)) (1.5 * hi) (-1) = (((hi / 2 : ℝ) : EReal), ((3 / 2 * hi - lo : ℝ) : EReal)) := by
      rw [min_eq_left hlt.le, max_eq_right hlt.le, slab_moving _ _ _ hc2, e1, e2, sort2, min_eq_right h1.le, max_eq_left h1.le]
    have s0 : slab (((min (-1) 1 : ℝ) : EReal), ((max (-1) 1 : ℝ) : EReal)) 0 0 = (⊥, ⊤) := by
      rw [min_eq_left (by norm_num), max_eq_right (by norm_num)]
      exact slab_still
    refine (boxIntersect_of (ray := blockRay .xy hi) s0 s0 s2 (by simpa using h1)).trans ?_
    simp
  · have e1 : (lo - 1.5 * hi) * (1)⁻¹ = lo - 3 / 2 * hi := by norm_num
    have e2 : (hi - 1.5 * hi) * (1)⁻¹ = -hi / 2 := by norm_num; ring
    have h1 : ((lo - 3 / 2 * hi : ℝ) : EReal) < ((-hi / 2 : ℝ) : EReal) := EReal.coe_lt_coe_iff.2 (by linarith)
    have s2 : slab (((min lo hi : ℝ) : EReal), ((max lo hi : ℝ) : EReal)) (1.5 * hi) 1 = (((lo - 3 / 2 * hi : ℝ) : EReal), ((-hi / 2 : ℝ) : EReal)) := by
      rw [min_eq_left hlt.le, max_eq_right hlt.le, slab_moving _ _ _ hc1, e1, e2, sort2, min_eq_left h1.le, max_eq_right h1.le]
    have s0 : slab (((min (-1) 1 : ℝ) : EReal), ((max (-1) 1 : ℝ) : EReal)) 0 0 = (⊥, ⊤) := by
      rw [min_eq_left (by norm_num), max_eq_right (by norm_num)]
      exact slab_still
    refine (boxIntersect_of (ray := blockRay .xz hi) s0 s2 s0 (by simpa using h1)).trans ?_
    simp

theorem block_seen (view : View) {lo hi : ℝ} (hlt : lo < hi) : intersectObj argsort 1 (block view lo hi) 0 (blockRay view hi) =
    match view with
    | .xy => ([((hi / 2 : ℝ) : EReal), ((3 / 2 * hi - lo : ℝ) : EReal)], [0, 0])
    | .xz => ([((lo - 3 / 2 * hi : ℝ) : EReal), ((-hi / 2 : ℝ) : EReal)], [0, 0]) := by
  obtain ⟨k, t, -, i, -⟩ := block_obj view lo hi
  have hm : (blockRay view hi).map 1 = blockRay view hi := by simp [Ray.map]
  simp only [intersectObj, k, leafIntersect, t, i, hm, block_hits view hlt]
  cases view
  · have h1 : ((hi / 2 : ℝ) : EReal) ≤ ((3 / 2 * hi - lo : ℝ) : EReal) := EReal.coe_le_coe_iff.2 (by linarith)
    simp only [sort2, min_eq_left h1, max_eq_right h1]
    rfl
  · have h1 : ((lo - 3 / 2 * hi : ℝ) : EReal) ≤ ((-hi / 2 : ℝ) : EReal) := EReal.coe_le_coe_iff.2 (by linarith)
    simp only [sort2, min_eq_left h1, max_eq_right h1]
    rfl

/-- the situation of C69 for a view: a block that is drawable for the central ray of the camera of `draw` -/
def Spec.Draws (view : View) (lo hi : ℝ) (ray : Ray) : Prop :=
  (∀ fuel, TidyReaches argsort fuel Heap.empty (block view lo hi)) ∧ Spec.Drawable (block view lo hi) 0 1 ray ∧
  ∃ rays, (drawCamera view (fun i => (drawBounds ((block view lo hi).obj 0).aobb [] i).1)
    (fun i => (drawBounds ((block view lo hi).obj 0).aobb [] i).2) 3).generateRays = some rays ∧ ray ∈ rays

theorem block_draws (view : View) {lo hi : ℝ} (hlt : lo < hi) : Spec.Draws argsort view lo hi (blockRay view hi) :=
  ⟨fun _ => block_tidy argsort view lo hi _, block_drawable view lo hi, block_rays view hlt⟩

/-- **C69 is false below the plane z = 0 (xy view) and for negative y (xz view):** a block from -5 to -1 along the view. The camera is inside the block (at -1.5), and
what is recorded is a distance of 3.5, the bottom of the block instead of the top (xy), or 0.5, the side turned away (xz); the line meets the block at -0.5 and
-3.5 already. -/
theorem C69_below_false (look : ℕ → Gooch) (light : Vec4) :
    (∃ ray, Spec.Draws argsort .xy (-5) (-1) ray ∧
      renderHit [shapeOf argsort 1 (block .xy (-5) (-1)) look light 0] ray = (((7 / 2 : ℝ) : EReal), 0) ∧
      ¬ Spec.FirstMet [shapeOf argsort 1 (block .xy (-5) (-1)) look light 0] ray
        (renderHit [shapeOf argsort 1 (block .xy (-5) (-1)) look light 0] ray)) ∧
    ∃ ray, Spec.Draws argsort .xz (-5) (-1) ray ∧
      renderHit [shapeOf argsort 1 (block .xz (-5) (-1)) look light 0] ray = (((1 / 2 : ℝ) : EReal), 0) ∧
      ¬ Spec.FirstMet [shapeOf argsort 1 (block .xz (-5) (-1)) look light 0] ray
        (renderHit [shapeOf argsort 1 (block .xz (-5) (-1)) look light 0] ray) := by
  have key : ∀ (view : View) (x y : ℝ), x ≤ 0 → 0 < y →
      intersectObj argsort 1 (block view (-5) (-1)) 0 (blockRay view (-1)) = ([(x : EReal), (y : EReal)], [0, 0]) →
      renderHit [shapeOf argsort 1 (block view (-5) (-1)) look light 0] (blockRay view (-1)) = ((y : EReal), 0) ∧
      ¬ Spec.FirstMet [shapeOf argsort 1 (block view (-5) (-1)) look light 0] (blockRay view (-1))
        (renderHit [shapeOf argsort 1 (block view (-5) (-1)) look light 0] (blockRay view (-1))) := by
    intro view x y hx hy e
    have h0 : renderHit [shapeOf argsort 1 (block view (-5) (-1)) look light 0] (blockRay view (-1)) = ((y : EReal), 0) := by
      have hn : nearestRendered (([(x : EReal), (y : EReal)], [0, 0]) : List EReal × List ℤ) = ((y : EReal), 0) := by
        have px : positiveHit (x : EReal) = ⊤ := if_neg (not_lt.2 (EReal.coe_nonpos.2 hx))
        have py : positiveHit (y : EReal) = (y : EReal) := if_pos (EReal.coe_pos.2 hy)
        have hk : argmin [(⊤ : EReal), (y : EReal)] = 1 := by
          simp [argmin, List.idxOf_cons]
        simp only [nearestRendered, List.map_cons, List.map_nil, px, py, hk]
        rfl
      simp only [renderHit, shapeOf, List.foldl_cons, List.foldl_nil, e, hn]
      rw [if_pos (EReal.coe_lt_top _)]
    refine ⟨h0, ?_⟩
    rw [h0]
    rintro (⟨-, h⟩ | ⟨d, h1, h2, -⟩)
    · exact EReal.coe_ne_top _ (Prod.ext_iff.1 h).1
    · have := h2 _ (List.mem_singleton.2 rfl) (x : EReal) (by simp only [shapeOf, e]; simp)
      rw [← h1] at this
      have := EReal.coe_le_coe_iff.1 this
      linarith
  refine ⟨⟨_, block_draws argsort .xy (by norm_num), ?_⟩, ⟨_, block_draws argsort .xz (by norm_num), ?_⟩⟩
  · exact key .xy (-1 / 2) (7 / 2) (by norm_num) (by norm_num) ((block_seen argsort .xy (by norm_num)).trans (by norm_num))
  · exact key .xz (-7 / 2) (1 / 2) (by norm_num) (by norm_num) ((block_seen argsort .xz (by norm_num)).trans (by norm_num))

/-- non-vacuity of C69 and C72: the block from 1 to 3 along either view -/
example (ha : IsStableArgsort argsort) (look : ℕ → Gooch) (light : Vec4) (view : View) :
    Spec.FirstMet [shapeOf argsort 1 (block view 1 3) look light 0] (blockRay view 3)
      (renderHit [shapeOf argsort 1 (block view 1 3) look light 0] (blockRay view 3)) ∧
    (intersectObj argsort 1 (block view 1 3) 0 (blockRay view 3)).1 = match view with
      | .xy => [((3 / 2 : ℝ) : EReal), ((7 / 2 : ℝ) : EReal)]
      | .xz => [((-7 / 2 : ℝ) : EReal), ((-3 / 2 : ℝ) : EReal)] := by
  obtain ⟨ht, hd, rays, hr, hm⟩ := block_draws argsort view (lo := 1) (hi := 3) (by norm_num)
  refine ⟨C69_view_partial argsort ha (ht 0) view 3 1 look light 0 [] hr hm (fun x hx => ?_) ?_, ?_⟩
  · rw [List.mem_singleton] at hx
    subst hx
    exact hd
  · have hb := (block_obj view 1 3).2.2.2.2.2
    cases view
    · refine ⟨0, by simp, ?_⟩
      rw [hb, primBox_one_eq]
      simp [toBox, blockPrim, Prim.boundSpans, cubeSpans]
    · refine ⟨0, by simp, ?_⟩
      rw [hb, primBox_one_eq]
      simp [toBox, blockPrim, Prim.boundSpans, cubeSpans]
  · rw [block_seen argsort view (by norm_num)]
    cases view <;> norm_num

/-! ### C73 -/

/-- the point is on the viewer's side of everything within the bounds: above in the xy view, in front (smaller y) in the xz view -/
def Spec.ViewerSide (view : View) (mins maxes : Fin 3 → ℝ) (q : Vec4) : Prop :=
  match view with
  | .xy => maxes 2 < q 2
  | .xz => q 1 < mins 1

/-- **C73.** The light of `draw` is above all objects in the xy view exactly if the upper bound is above z = 0, and in front of all objects in the xz view exactly
if the lower bound is above -3 times the upper bound. It is always over the corner of the upper bounds of the image plane. -/
theorem C73_light_partial (mins maxes : Fin 3 → ℝ) :
    (Spec.ViewerSide .xy mins maxes (drawLight .xy maxes) ↔ 0 < maxes 2) ∧
    (Spec.ViewerSide .xz mins maxes (drawLight .xz maxes) ↔ -3 * maxes 1 < mins 1) ∧
    ∀ view : View, drawLight view maxes view.axes.1.castSucc = maxes view.axes.1 ∧ drawLight view maxes view.axes.2.castSucc = maxes view.axes.2 ∧
      drawLight view maxes 3 = 1 := by
  refine ⟨?_, ?_, ?_⟩
  · simp only [Spec.ViewerSide, drawLight, point, Matrix.cons_val]
    constructor <;> intro h <;> linarith
  · simp only [Spec.ViewerSide, drawLight, point, Matrix.cons_val]
    constructor <;> intro h <;> linarith
  · intro view
    cases view <;> exact ⟨rfl, rfl, rfl⟩

/-- **C73 is false:** the block from -5 to -1 is lit from behind in the xy view, the block from -5 to 1 has the light inside in the xz view. -/
theorem C73_light_false :
    ¬ Spec.ViewerSide .xy (fun i => (drawBounds ((block .xy (-5) (-1)).obj 0).aobb [] i).1) (fun i => (drawBounds ((block .xy (-5) (-1)).obj 0).aobb [] i).2)
      (drawLight .xy fun i => (drawBounds ((block .xy (-5) (-1)).obj 0).aobb [] i).2) ∧
    ¬ Spec.ViewerSide .xz (fun i => (drawBounds ((block .xz (-5) 1).obj 0).aobb [] i).1) (fun i => (drawBounds ((block .xz (-5) 1).obj 0).aobb [] i).2)
      (drawLight .xz fun i => (drawBounds ((block .xz (-5) 1).obj 0).aobb [] i).2) := by
  have h1 := block_bounds .xy (lo := -5) (hi := -1) (by norm_num)
  have h2 := block_bounds .xz (lo := -5) (hi := 1) (by norm_num)
  refine ⟨fun h => ?_, fun h => ?_⟩
  · have := (C73_light_partial _ _).1.1 h
    rw [congrFun h1 2] at this
    norm_num [Spec.depthAxis] at this
  · have := (C73_light_partial _ _).2.1.1 h
    rw [congrFun h2 1] at this
    norm_num [Spec.depthAxis] at this

/-- non-vacuity of C73: the blocks from 1 to 3 are lit from the viewer's side -/
example (view : View) : Spec.ViewerSide view (fun i => (drawBounds ((block view 1 3).obj 0).aobb [] i).1) (fun i => (drawBounds ((block view 1 3).obj 0).aobb [] i).2)
    (drawLight view fun i => (drawBounds ((block view 1 3).obj 0).aobb [] i).2) := by
  have h1 := block_bounds view (lo := 1) (hi := 3) (by norm_num)
  cases view
  · refine (C73_light_partial _ _).1.2 ?_
    rw [congrFun h1 2]
    norm_num [Spec.depthAxis]
  · refine (C73_light_partial _ _).2.1.2 ?_
    rw [congrFun h1 1]
    norm_num [Spec.depthAxis]

end PyRayT
