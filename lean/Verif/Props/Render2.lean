import Verif.Props.Render
import Verif.Proofs.Tracer2
import Verif.Proofs.Scene
import Verif.Proofs.Resonator

/-!
# Property C54: what a renderer records for a ray
-/

namespace PyRayT

open Classical Matrix

/-! ### C54 -/

/-- a shape as a component of the tracer, for the vocabulary of `Spec/Trace.lean` -/
def Shape.comp (s : Shape) : Component := ⟨s.intersect, []⟩

/-- the surface with the smallest positive hit distance, or background (-1 at infinity) if there is none -/
def Spec.Shown (shapes : List Shape) (ray : Ray) (r : EReal × ℤ) : Prop :=
  (Spec.Miss (shapes.map Shape.comp) ray ∧ r = (⊤, -1)) ∨
  ∃ (d : ℝ) (s : ℤ), Spec.Nearest (shapes.map Shape.comp) ray d s ∧ r = ((d : EReal), s)

theorem foldrMin_le {xs : List EReal} {x : EReal} (hx : x ∈ xs) : xs.foldr min ⊤ ≤ x := by
  induction xs with
  | nil => cases hx
  | cons y xs ih =>
    rcases List.mem_cons.1 hx with rfl | h
    · exact min_le_left _ _
    · exact (min_le_right _ _).trans (ih h)

theorem foldrMin_mem {xs : List EReal} (hx : xs ≠ []) : xs.foldr min ⊤ ∈ xs := by
  induction xs with
  | nil => exact absurd rfl hx
  | cons y xs ih =>
    by_cases he : xs = []
    · subst he; simp
    · rcases min_choice y (xs.foldr min ⊤) with h | h
      · rw [List.foldr_cons, h]; exact List.mem_cons_self
      · rw [List.foldr_cons, h]; exact List.mem_cons_of_mem _ (ih he)

theorem argmin_getElem {xs : List EReal} (hx : xs ≠ []) : ∃ h : argmin xs < xs.length, xs[argmin xs] = xs.foldr min ⊤ :=
  ⟨List.idxOf_lt_length_of_mem (foldrMin_mem hx), List.getElem_idxOf (List.idxOf_lt_length_of_mem (foldrMin_mem hx))⟩

/-- the recorded distance of one shape is the masked one if the masked one is finite, else the first hit -/
theorem nearestRendered_cases (h : List EReal × List ℤ) :
    ((∃ x ∈ h.1, 0 < x ∧ x < ⊤) → nearestRendered h = nearestHit h) ∧
    ((∀ x ∈ h.1, ¬ (0 < x ∧ x < ⊤)) → nearestRendered h = (h.1.getD 0 ⊤, h.2.getD 0 (-1))) := by
  obtain ⟨l, ids⟩ := h
  dsimp only
  constructor
  · rintro ⟨x, hx, h0, h1⟩
    have hne : l.map positiveHit ≠ [] := by
      intro e
      rw [List.map_eq_nil_iff] at e
      subst e
      cases hx
    obtain ⟨hk, e⟩ := argmin_getElem hne
    have hlt : (l.map positiveHit).foldr min ⊤ < ⊤ :=
      lt_of_le_of_lt (foldrMin_le (List.mem_map.2 ⟨x, hx, if_pos h0⟩)) h1
    have hk' : argmin (l.map positiveHit) < l.length := by simpa using hk
    have e2 : positiveHit l[argmin (l.map positiveHit)] = (l.map positiveHit).foldr min ⊤ := by
      rw [← e, List.getElem_map]
    have e3 : l[argmin (l.map positiveHit)] = positiveHit l[argmin (l.map positiveHit)] := by
      by_cases hp : 0 < l[argmin (l.map positiveHit)]
      · exact (if_pos hp).symm
      · rw [show positiveHit l[argmin (l.map positiveHit)] = ⊤ from if_neg hp] at e2
        rw [← e2] at hlt
        exact absurd hlt (lt_irrefl _)
    simp only [nearestRendered, nearestHit, Prod.mk.injEq, and_true]
    rw [List.getD_eq_getElem _ _ hk', List.getD_eq_getElem _ _ hk, List.getElem_map]
    exact e3
  · intro hn
    have hall : l.map positiveHit = l.map fun _ => (⊤ : EReal) := by
      apply List.map_congr_left
      intro x hx
      unfold positiveHit
      split
      · rename_i hp
        exact not_lt_top_iff.1 fun hlt => hn x hx ⟨hp, hlt⟩
      · rfl
    have hk : argmin (l.map positiveHit) = 0 := by
      rw [hall]
      unfold argmin
      cases l with
      | nil => rfl
      | cons y l =>
        have : ((y :: l).map fun _ => (⊤ : EReal)).foldr min ⊤ = ⊤ := by
          refine top_le_iff.1 ?_
          have : ∀ l : List EReal, (⊤ : EReal) ≤ (l.map fun _ => (⊤ : EReal)).foldr min ⊤ := by
            intro l
            induction l with
            | nil => exact le_refl _
            | cons y l ih => exact le_min (le_refl _) ih
          exact this _
        rw [this]
        simp
    simp only [nearestRendered, hk]

theorem renderHit_concat (cs : List Shape) (c : Shape) (ray : Ray) : renderHit (cs ++ [c]) ray =
    if (nearestRendered (c.intersect ray)).1 < (renderHit cs ray).1 then nearestRendered (c.intersect ray) else renderHit cs ray := by
  simp only [renderHit, List.foldl_append, List.foldl_cons, List.foldl_nil]
  congr

theorem renderHit_le {cs : List Shape} {c : Shape} (hc : c ∈ cs) (ray : Ray) :
    (renderHit cs ray).1 ≤ (nearestRendered (c.intersect ray)).1 := by
  induction cs using List.reverseRecOn with
  | nil => cases hc
  | append_singleton cs c' ih =>
    rw [renderHit_concat]
    rcases List.mem_append.1 hc with h | h
    · split
      · rename_i hlt; exact hlt.le.trans (ih h)
      · exact ih h
    · simp at h
      subst h
      split
      · exact le_refl _
      · rename_i hlt; exact not_lt.1 hlt

theorem renderHit_eq_hitOf {cs : List Shape} {ray : Ray} (h : ∀ c ∈ cs, nearestRendered (c.intersect ray) = nearestHit (c.intersect ray)) :
    renderHit cs ray = hitOf (cs.map Shape.comp) ray := by
  induction cs using List.reverseRecOn with
  | nil => rfl
  | append_singleton cs c ih =>
    rw [renderHit_concat, List.map_append, List.map_cons, List.map_nil, hitOf_concat, ih fun c hc => h c (List.mem_append_left _ hc),
      h c (by simp)]
    rfl

theorem head_le {l : List EReal} (hs : l.Pairwise (· ≤ ·)) {x : EReal} (hx : x ∈ l) : l.getD 0 ⊤ ≤ x := by
  cases l with
  | nil => cases hx
  | cons y l =>
    rcases List.mem_cons.1 hx with rfl | h
    · exact le_refl _
    · exact (List.pairwise_cons.1 hs).1 x h

/-- **C54 (exactly when it holds).** For shapes reporting sorted hits, each with an id: the renderer records the nearest surface in front
of the camera for a ray, or background if there is none, if and only if every shape with any hit at a distance other than inf has one that is positive.
So it goes wrong exactly for the rays for which some shape is hit behind the camera (or at it) only. -/
theorem C54_exact_partial (shapes : List Shape) (ray : Ray) (hlen : ∀ c ∈ shapes, ∀ ray, (c.intersect ray).2.length = (c.intersect ray).1.length)
    (hs : ∀ c ∈ shapes, (c.intersect ray).1.Pairwise (· ≤ ·)) :
    Spec.Shown shapes ray (renderHit shapes ray) ↔
      ∀ c ∈ shapes, (∃ x ∈ (c.intersect ray).1, x < ⊤) → ∃ x ∈ (c.intersect ray).1, 0 < x ∧ x < ⊤ := by
  constructor
  · intro h c hc ⟨x, hx, hlt⟩
    by_contra hn
    push Not at hn
    have hn' : ∀ x ∈ (c.intersect ray).1, ¬ (0 < x ∧ x < ⊤) := fun x hx hh => absurd hh.2 (not_lt.2 (hn x hx hh.1))
    have e := (nearestRendered_cases (c.intersect ray)).2 hn'
    have h0 : x ≤ 0 := not_lt.1 fun h0 => hn' x hx ⟨h0, hlt⟩
    have hle : (renderHit shapes ray).1 ≤ 0 := by
      refine (renderHit_le hc ray).trans ?_
      rw [e]
      exact (head_le (hs c hc) hx).trans h0
    rcases h with ⟨-, h⟩ | ⟨d, s, h, h'⟩
    · rw [h] at hle
      exact absurd hle (not_le.2 EReal.zero_lt_top)
    · rw [h'] at hle
      have : (0 : EReal) < (d : EReal) := by exact_mod_cast h.1
      exact absurd hle (not_le.2 this)
  · intro h
    rw [renderHit_eq_hitOf]
    · refine hitOf_spec ?_ ray
      intro c hc r
      obtain ⟨c', hc', rfl⟩ := List.mem_map.1 hc
      exact hlen c' hc' r
    · intro c hc
      by_cases hx : ∃ x ∈ (c.intersect ray).1, x < ⊤
      · exact (nearestRendered_cases _).1 (h c hc hx)
      · push Not at hx
        have e := (nearestRendered_cases (c.intersect ray)).2 fun x hx' hh => absurd hh.2 (not_lt.2 (hx x hx'))
        rw [e]
        have hm : (c.intersect ray).1.map positiveHit = (c.intersect ray).1 := by
          conv_rhs => rw [← List.map_id (c.intersect ray).1]
          apply List.map_congr_left
          intro x hx'
          have := top_le_iff.1 (hx x hx')
          rw [this, positiveHit, if_pos EReal.zero_lt_top]
          rfl
        have e2 : nearestHit (c.intersect ray) = nearestRendered (c.intersect ray) := by
          simp only [nearestHit, nearestRendered, hm]
        rw [e2, e]

variable (argsort : List EReal → List ℕ)

/-- **C54 for objects.** For all objects on a heap (primitives and composites of any depth) and every ray: if no object is hit behind the
camera only, the renderer records the nearest surface in front of the camera, or background if there is none. Missing from C54: objects that are hit behind the camera only, for which it is always
false (`C54_exact_partial`, `C54_behind_false`). -/
theorem C54_objects_partial (ha : IsArgsort argsort) (depth : ℕ) (h : Heap) (look : ℕ → Gooch) (light : Vec4) (objs : List ℕ) (ray : Ray)
    (hf : ∀ a ∈ objs, (∃ x ∈ (intersectObj argsort depth h a ray).1, x < ⊤) → ∃ x ∈ (intersectObj argsort depth h a ray).1, 0 < x ∧ x < ⊤) :
    Spec.Shown (objs.map (shapeOf argsort depth h look light)) ray (renderHit (objs.map (shapeOf argsort depth h look light)) ray) := by
  refine (C54_exact_partial _ ray ?_ ?_).2 ?_
  · intro c hc r
    obtain ⟨a, -, rfl⟩ := List.mem_map.1 hc
    exact (intersectObj_shape argsort ha h r depth a).2.2
  · intro c hc
    obtain ⟨a, -, rfl⟩ := List.mem_map.1 hc
    exact (intersectObj_shape argsort ha h ray depth a).1
  · intro c hc
    obtain ⟨a, ha', rfl⟩ := List.mem_map.1 hc
    exact hf a ha'

/-- the unit sphere seen by a renderer, for a ray on the z axis -/
theorem ball_rendered (look : ℕ → Gooch) (light : Vec4) {z σ : ℝ} (hσ : σ ^ 2 = 1) :
    (shapeOf argsort 1 (newPrim Heap.empty (.sphere 1)) look light 0).intersect (axisRay z σ) =
      ([((-(σ * z) - 1 : ℝ) : EReal), ((-(σ * z) + 1 : ℝ) : EReal)], [0, 0]) :=
  ball_intersect argsort .absorber hσ 0

/-- **C54 is false:** the unit sphere around the origin and a ray starting at z = 5 and going in the +z direction, away from the sphere. There is nothing in front
of the camera, but the sphere is recorded, at the distance -6. -/
theorem C54_behind_false (look : ℕ → Gooch) (light : Vec4) :
    Spec.Miss ([shapeOf argsort 1 (newPrim Heap.empty (.sphere 1)) look light 0].map Shape.comp) (axisRay 5 1) ∧
    renderHit [shapeOf argsort 1 (newPrim Heap.empty (.sphere 1)) look light 0] (axisRay 5 1) = (((-6 : ℝ) : EReal), 0) := by
  have e := ball_rendered argsort look light (z := 5) (σ := 1) (by norm_num)
  have m : ∀ x ∈ ([((-(1 * 5) - 1 : ℝ) : EReal), ((-(1 * 5) + 1 : ℝ) : EReal)] : List EReal), ¬ (0 < x ∧ x < ⊤) := by
    intro x hx hh
    simp only [List.mem_cons, List.not_mem_nil, or_false] at hx
    rcases hx with rfl | rfl <;>
    · have := EReal.coe_pos.1 hh.1
      norm_num at this
  refine ⟨fun c hc x hx => ?_, ?_⟩
  · simp only [List.map_cons, List.map_nil, List.mem_singleton] at hc
    subst hc
    refine m x ?_
    change x ∈ ((shapeOf argsort 1 (newPrim Heap.empty (.sphere 1)) look light 0).intersect (axisRay 5 1)).1 at hx
    rwa [e] at hx
  · simp only [renderHit, List.foldl_cons, List.foldl_nil]
    rw [e, (nearestRendered_cases _).2 m, if_pos (by exact EReal.coe_lt_top _)]
    norm_num

/-- **C54 is false also for what is visible:** with a second sphere in front of the camera the sphere behind it is shown, not the one in front. -/
theorem C54_hides_false : ∃ (near behind : Shape) (ray : Ray) (s : ℤ), Spec.Nearest ([near, behind].map Shape.comp) ray 1 s ∧ (renderHit [near, behind] ray).2 ≠ s := by
  refine ⟨⟨fun _ => ([((1 : ℝ) : EReal), ((2 : ℝ) : EReal)], [0, 0]), []⟩, ⟨fun _ => ([((-2 : ℝ) : EReal), ((-1 : ℝ) : EReal)], [1, 1]), []⟩,
    axisRay 0 1, 0, ⟨by norm_num, ?_, 0, _, 0, rfl, fun j hj => by omega, rfl, fun j hj => by omega, rfl⟩, ?_⟩
  · intro c hc x hx hp
    simp only [List.map_cons, List.map_nil, List.mem_cons, List.not_mem_nil, or_false] at hc
    rcases hc with rfl | rfl <;> simp only [Shape.comp, List.mem_cons, List.not_mem_nil, or_false] at hx <;> rcases hx with rfl | rfl
    · exact le_refl _
    · exact EReal.coe_le_coe_iff.2 (by norm_num)
    · have := EReal.coe_pos.1 hp; norm_num at this
    · have := EReal.coe_pos.1 hp; norm_num at this
  · have e1 : nearestRendered ([((1 : ℝ) : EReal), ((2 : ℝ) : EReal)], [0, 0]) = (((1 : ℝ) : EReal), (0 : ℤ)) := by
      rw [(nearestRendered_cases _).1 ⟨((1 : ℝ) : EReal), by simp, EReal.coe_pos.2 (by norm_num), EReal.coe_lt_top 1⟩]
      have p1 : positiveHit ((1 : ℝ) : EReal) = ((1 : ℝ) : EReal) := if_pos (EReal.coe_pos.2 (by norm_num))
      have p2 : positiveHit ((2 : ℝ) : EReal) = ((2 : ℝ) : EReal) := if_pos (EReal.coe_pos.2 (by norm_num))
      have hmin : min ((1 : ℝ) : EReal) (min ((2 : ℝ) : EReal) ⊤) = ((1 : ℝ) : EReal) := by
        rw [min_eq_left le_top, min_eq_left (EReal.coe_le_coe_iff.2 (by norm_num))]
      simp only [nearestHit, argmin, List.map_cons, List.map_nil, p1, p2, List.foldr_cons, List.foldr_nil, hmin, List.idxOf_cons_self]
      rfl
    have e2 : nearestRendered ([((-2 : ℝ) : EReal), ((-1 : ℝ) : EReal)], [1, 1]) = (((-2 : ℝ) : EReal), (1 : ℤ)) := by
      rw [(nearestRendered_cases _).2]
      · rfl
      · intro x hx hh
        simp only [List.mem_cons, List.not_mem_nil, or_false] at hx
        rcases hx with rfl | rfl <;>
        · have := EReal.coe_pos.1 hh.1
          norm_num at this
    simp only [renderHit, List.foldl_cons, List.foldl_nil, e1, e2]
    rw [if_pos (EReal.coe_lt_top 1), if_pos (EReal.coe_lt_coe_iff.2 (by norm_num))]
    norm_num

/-- non-vacuity of `C54_objects_partial`: the camera at z = -5 looking in the +z direction sees the sphere at the distance 4 -/
example (ha : IsArgsort argsort) (look : ℕ → Gooch) (light : Vec4) :
    Spec.Shown ([0].map (shapeOf argsort 1 (newPrim Heap.empty (.sphere 1)) look light)) (axisRay (-5) 1)
      (renderHit ([0].map (shapeOf argsort 1 (newPrim Heap.empty (.sphere 1)) look light)) (axisRay (-5) 1)) := by
  refine C54_objects_partial argsort ha 1 _ look light [0] _ ?_
  intro a ha' _
  simp only [List.mem_singleton] at ha'
  subst ha'
  have e : intersectObj argsort 1 (newPrim Heap.empty (.sphere 1)) 0 (axisRay (-5) 1) = _ :=
    ball_rendered argsort look light (z := -5) (σ := 1) (by norm_num)
  rw [e]
  exact ⟨_, List.mem_cons_self, EReal.coe_pos.2 (by norm_num), EReal.coe_lt_top _⟩

end PyRayT
