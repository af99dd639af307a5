import Verif.Proofs.Tracer
import Verif.Spec.Trace
import Verif.Proofs.Operations

/-! Nearest hits, the loop over the surfaces, and the journey of a ray. -/

namespace PyRayT

open Classical Spec

/-! ### nearest hits -/

theorem foldr_min_top_le {xs : List EReal} {x : EReal} (h : x ∈ xs) : xs.foldr min ⊤ ≤ x := by
  induction xs with
  | nil => cases h
  | cons a xs ih =>
    rcases List.mem_cons.1 h with rfl | h
    · exact min_le_left _ _
    · exact (min_le_right _ _).trans (ih h)

theorem foldr_min_top_mem {xs : List EReal} (h : xs.foldr min ⊤ ≠ ⊤) : xs.foldr min ⊤ ∈ xs := by
  induction xs with
  | nil => exact absurd rfl h
  | cons a xs ih =>
    by_cases hle : a ≤ xs.foldr min ⊤
    · rw [List.foldr_cons, min_eq_left hle]; simp
    · have hle' := (not_le.1 hle).le
      rw [List.foldr_cons, min_eq_right hle'] at h ⊢
      exact List.mem_cons_of_mem _ (ih h)

theorem getD_argmin (xs : List EReal) : xs.getD (argmin xs) ⊤ = xs.foldr min ⊤ := by
  by_cases h : xs.foldr min ⊤ ∈ xs
  · have hlt := List.idxOf_lt_length_of_mem h
    rw [argmin, List.getD_eq_getElem?_getD, List.getElem?_eq_getElem hlt, List.getElem_idxOf]; rfl
  · rw [argmin, List.idxOf_of_notMem h]
    have : xs.foldr min ⊤ = ⊤ := by
      by_contra hc
      exact h (foldr_min_top_mem hc)
    rw [this]
    simp

theorem positiveHit_pos {x : EReal} (h : 0 < x) : positiveHit x = x := by rw [positiveHit, if_pos h]

theorem positiveHit_ne_top {x y : EReal} (h : positiveHit x = y) (hy : y ≠ ⊤) : x = y ∧ 0 < y := by
  unfold positiveHit at h
  split at h
  · subst h; exact ⟨rfl, by assumption⟩
  · exact absurd h.symm hy

/-- the nearest hit of one component -/
theorem nearestHit_le (h : List EReal × List ℤ) {x : EReal} (hx : x ∈ h.1) (hp : 0 < x) : (nearestHit h).1 ≤ x := by
  simp only [nearestHit]
  rw [getD_argmin]
  apply foldr_min_top_le
  exact List.mem_map.2 ⟨x, hx, positiveHit_pos hp⟩

theorem nearestHit_spec (h : List EReal × List ℤ) (hlen : h.2.length = h.1.length) (hne : (nearestHit h).1 ≠ ⊤) :
    0 < (nearestHit h).1 ∧ ∃ i : ℕ, h.1[i]? = some (nearestHit h).1 ∧ (∀ j < i, h.1[j]? ≠ some (nearestHit h).1) ∧
      h.2[i]? = some (nearestHit h).2 := by
  have hd : (nearestHit h).1 = (h.1.map positiveHit).foldr min ⊤ := by simp only [nearestHit]; rw [getD_argmin]
  have hs : (nearestHit h).2 = h.2.getD (argmin (h.1.map positiveHit)) (-1) := rfl
  generalize (nearestHit h).1 = d at *
  generalize (nearestHit h).2 = s at *
  have hmem : d ∈ h.1.map positiveHit := by rw [hd]; exact foldr_min_top_mem (by rw [← hd]; exact hne)
  have hi : argmin (h.1.map positiveHit) = (h.1.map positiveHit).idxOf d := by rw [argmin, ← hd]
  rw [hi] at hs
  have hlt := List.idxOf_lt_length_of_mem hmem
  have hget : (h.1.map positiveHit)[(h.1.map positiveHit).idxOf d]? = some d := by
    rw [List.getElem?_eq_getElem hlt, List.getElem_idxOf]
  have hbefore : ∀ j < (h.1.map positiveHit).idxOf d, (h.1.map positiveHit)[j]? ≠ some d := by
    intro j hj e
    have := List.not_of_lt_findIdx (p := (· == d)) hj
    rw [List.getElem?_eq_getElem (hj.trans hlt)] at e
    simp at this e
    exact this e
  generalize (h.1.map positiveHit).idxOf d = i at *
  rw [List.length_map] at hlt
  rw [List.getElem?_map, List.getElem?_eq_getElem hlt] at hget
  simp only [Option.map_some, Option.some.injEq] at hget
  obtain ⟨e1, e2⟩ := positiveHit_ne_top hget hne
  refine ⟨e2, i, ?_, ?_, ?_⟩
  · rw [List.getElem?_eq_getElem hlt, e1]
  · intro j hj e
    apply hbefore j hj
    rw [List.getElem?_map, e]
    simp only [Option.map_some, Option.some.injEq]
    exact positiveHit_pos e2
  · rw [hs, List.getD_eq_getElem?_getD, List.getElem?_eq_getElem (by rw [hlen]; exact hlt)]; rfl

theorem hitOf_concat (cs : List Component) (c : Component) (ray : Ray) : hitOf (cs ++ [c]) ray =
    if (nearestHit (c.intersect ray)).1 < (hitOf cs ray).1 then nearestHit (c.intersect ray) else hitOf cs ray := by
  simp only [hitOf, List.foldl_append, List.foldl_cons, List.foldl_nil]
  congr

theorem hitOf_le {cs : List Component} {ray : Ray} {c : Component} (hc : c ∈ cs) {x : EReal} (hx : x ∈ (c.intersect ray).1)
    (hp : 0 < x) : (hitOf cs ray).1 ≤ x := by
  induction cs using List.reverseRecOn with
  | nil => cases hc
  | append_singleton cs c' ih =>
    rw [hitOf_concat]
    rcases List.mem_append.1 hc with h | h
    · split
      · rename_i hlt; exact hlt.le.trans (ih h)
      · exact ih h
    · simp at h
      subst h
      split
      · exact nearestHit_le _ hx hp
      · rename_i hlt; exact (not_lt.1 hlt).trans (nearestHit_le _ hx hp)

theorem hitOf_top {cs : List Component} {ray : Ray} (h : (hitOf cs ray).1 = ⊤) : (hitOf cs ray).2 = -1 := by
  induction cs using List.reverseRecOn with
  | nil => rfl
  | append_singleton cs c' ih =>
    rw [hitOf_concat] at h ⊢
    split at h
    · rename_i hlt; rw [h] at hlt; exact absurd hlt not_top_lt
    · rename_i hlt; rw [if_neg hlt]; exact ih h

theorem hitOf_from {cs : List Component} {ray : Ray} (h : (hitOf cs ray).1 ≠ ⊤) :
    ∃ (k : ℕ) (c : Component), cs[k]? = some c ∧ hitOf cs ray = nearestHit (c.intersect ray) ∧
      ∀ j < k, ∀ c' : Component, cs[j]? = some c' → (hitOf cs ray).1 < (nearestHit (c'.intersect ray)).1 := by
  induction cs using List.reverseRecOn with
  | nil => exact absurd rfl h
  | append_singleton cs c ih =>
    rw [hitOf_concat] at h ⊢
    split at h
    · rename_i hlt
      rw [if_pos hlt]
      refine ⟨cs.length, c, by simp, rfl, fun j hj c' hc' => ?_⟩
      rw [List.getElem?_append_left hj] at hc'
      refine lt_of_lt_of_le hlt ?_
      clear hlt h ih
      -- the fold is below every component's nearest hit
      have key : ∀ {cs : List Component} {c' : Component}, c' ∈ cs → (hitOf cs ray).1 ≤ (nearestHit (c'.intersect ray)).1 := by
        intro cs c' hm
        induction cs using List.reverseRecOn with
        | nil => cases hm
        | append_singleton cs c'' ih =>
          rw [hitOf_concat]
          rcases List.mem_append.1 hm with h | h
          · split
            · rename_i hlt; exact hlt.le.trans (ih h)
            · exact ih h
          · simp at h
            subst h
            split
            · exact le_refl _
            · rename_i hlt; exact not_lt.1 hlt
      exact key (List.mem_of_getElem? hc')
    · rename_i hlt
      rw [if_neg hlt]
      obtain ⟨k, c', h1, h2, h3⟩ := ih h
      have hk : k < cs.length := by
        by_contra hc
        rw [List.getElem?_eq_none (not_lt.1 hc)] at h1
        cases h1
      refine ⟨k, c', by rw [List.getElem?_append_left hk]; exact h1, h2, fun j hj c'' hc'' => ?_⟩
      rw [List.getElem?_append_left (hj.trans hk)] at hc''
      exact h3 j hj c'' hc''

/-- the hit of a ray is the nearest one, or there is none -/
theorem hitOf_spec {cs : List Component} (hlen : ∀ c ∈ cs, ∀ ray, (c.intersect ray).2.length = (c.intersect ray).1.length)
    (ray : Ray) :
    (Miss cs ray ∧ hitOf cs ray = (⊤, -1)) ∨ ∃ (d : ℝ) (s : ℤ), Nearest cs ray d s ∧ hitOf cs ray = ((d : EReal), s) := by
  by_cases h : (hitOf cs ray).1 = ⊤
  · left
    refine ⟨fun c hc x hx hp => ?_, Prod.ext h (hitOf_top h)⟩
    have := hitOf_le hc hx hp.1
    rw [h] at this
    exact absurd hp.2 (not_lt.2 this)
  · right
    obtain ⟨k, c, h1, h2, h3⟩ := hitOf_from h
    have hc := List.mem_of_getElem? h1
    obtain ⟨e1, i, e2, e3, e4⟩ := nearestHit_spec (c.intersect ray) (hlen c hc ray) (by rw [← h2]; exact h)
    rw [← h2] at e1 e2 e3 e4
    obtain ⟨d, hd⟩ : ∃ d : ℝ, (d : EReal) = (hitOf cs ray).1 := by
      lift (hitOf cs ray).1 to ℝ using ⟨h, fun hb => by rw [hb] at e1; exact absurd e1 (not_lt.2 bot_le)⟩ with d
      exact ⟨d, rfl⟩
    refine ⟨d, (hitOf cs ray).2, ⟨?_, fun c' hc' x hx hp => ?_, k, c, i, h1, fun j hj c' hc' hm => ?_, ?_, ?_, e4⟩,
      Prod.ext hd.symm rfl⟩
    · rw [← hd] at e1; exact_mod_cast e1
    · rw [hd]; exact hitOf_le hc' hx hp
    · have := h3 j hj c' hc'
      rw [hd] at hm
      exact absurd (nearestHit_le _ hm e1) (not_le.2 this)
    · rw [hd]; exact e2
    · rw [hd]; exact e3

/-- nearest hits are unique -/
theorem Spec.Nearest.unique {cs : List Component} {ray : Ray} {d d' : ℝ} {s s' : ℤ} (h : Nearest cs ray d s)
    (h' : Nearest cs ray d' s') : d = d' ∧ s = s' := by
  obtain ⟨p, m, k, c, i, h1, h2, h3, h4, h5⟩ := h
  obtain ⟨p', m', k', c', i', h1', h2', h3', h4', h5'⟩ := h'
  have e : d = d' := by
    have a := m c' (List.mem_of_getElem? h1') d' (List.mem_of_getElem? h3') (by exact_mod_cast p')
    have b := m' c (List.mem_of_getElem? h1) d (List.mem_of_getElem? h3) (by exact_mod_cast p)
    exact le_antisymm (by exact_mod_cast a) (by exact_mod_cast b)
  subst e
  have ek : k = k' := by
    rcases lt_trichotomy k k' with hlt | he | hlt
    · exact absurd (List.mem_of_getElem? h3) (h2' k hlt c h1)
    · exact he
    · exact absurd (List.mem_of_getElem? h3') (h2 k' hlt c' h1')
  subst ek
  rw [h1] at h1'
  cases h1'
  have ei : i = i' := by
    rcases lt_trichotomy i i' with hlt | he | hlt
    · exact absurd h3 (h4' i hlt)
    · exact he
    · exact absurd h3' (h4 i' hlt)
  subst ei
  rw [h5] at h5'
  cases h5'
  exact ⟨rfl, rfl⟩

theorem Spec.Nearest.not_miss {cs : List Component} {ray : Ray} {d : ℝ} {s : ℤ} (h : Nearest cs ray d s) : ¬ Miss cs ray := by
  obtain ⟨p, m, k, c, i, h1, h2, h3, h4, h5⟩ := h
  exact fun hm => hm c (List.mem_of_getElem? h1) d (List.mem_of_getElem? h3) ⟨by exact_mod_cast p, EReal.coe_lt_top d⟩

/-! ### the loop over the surfaces -/

theorem lutPass_none {lut : List (ℤ × (Col → Col))} {hit : EReal × ℤ} (h : ∀ e ∈ lut, e.1 ≠ hit.2) (c : Col) :
    lutPass lut hit c = c := by
  induction lut generalizing c with
  | nil => rfl
  | cons e lut ih =>
    have := h e (by simp)
    simp only [lutPass, List.foldl_cons] at ih ⊢
    rw [if_neg (fun e' => this e'.symm)]
    exact ih (fun e' he' => h e' (by simp [he'])) c

theorem lutPass_once {lut : List (ℤ × (Col → Col))} (hn : (lut.map Prod.fst).Nodup) {d : EReal} {s : ℤ} {f : Col → Col}
    (hm : (s, f) ∈ lut) (c : Col) : lutPass lut (d, s) c = f (c.advance d.toReal) := by
  induction lut generalizing c with
  | nil => cases hm
  | cons e lut ih =>
    rw [List.map_cons, List.nodup_cons] at hn
    rcases List.mem_cons.1 hm with rfl | hm'
    · have : lutPass ((s, f) :: lut) (d, s) c = lutPass lut (d, s) (f (c.advance d.toReal)) := by
        simp [lutPass]
      rw [this, lutPass_none]
      intro e' he' h
      exact hn.1 (List.mem_map.2 ⟨e', he', h⟩)
    · have hne : s ≠ e.1 := fun h => hn.1 (List.mem_map.2 ⟨(s, f), hm', h⟩)
      have : lutPass (e :: lut) (d, s) c = lutPass lut (d, s) c := by
        simp [lutPass, hne]
      rw [this]
      exact ih hn.2 hm' c

theorem lut_unique {lut : List (ℤ × (Col → Col))} (hn : (lut.map Prod.fst).Nodup) {s : ℤ} {f f' : Col → Col}
    (hm : (s, f) ∈ lut) (hm' : (s, f') ∈ lut) : f = f' := by
  induction lut with
  | nil => cases hm
  | cons e lut ih =>
    rw [List.map_cons, List.nodup_cons] at hn
    rcases List.mem_cons.1 hm with rfl | h1 <;> rcases List.mem_cons.1 hm' with h2 | h2
    · cases h2; rfl
    · exact absurd (List.mem_map.2 ⟨_, h2, rfl⟩) hn.1
    · subst h2; exact absurd (List.mem_map.2 ⟨_, h1, rfl⟩) hn.1
    · exact ih hn.2 h1 h2

/-! ### journeys -/

theorem Spec.TracerOk.lut_mem {t : Tracer} (ok : TracerOk t) {c : Component} (hc : c ∈ t.components) {s : ℤ} {f : Col → Col}
    (h : (s, f) ∈ c.surfaces) : (s, f) ∈ t.lut := by
  rw [ok.lut]; exact List.mem_flatMap.2 ⟨c, hc, h⟩

theorem Spec.TracerOk.nearest_lut {t : Tracer} (ok : TracerOk t) {ray : Ray} {d : ℝ} {s : ℤ} (h : Nearest t.components ray d s) :
    0 ≤ s ∧ ∃ f, (s, f) ∈ t.lut := by
  obtain ⟨p, m, k, c, i, h1, h2, h3, h4, h5⟩ := h
  have hc := List.mem_of_getElem? h1
  obtain ⟨f, hf⟩ := (ok.comps c hc).labels ray i d s h3 (EReal.coe_ne_top d) h5
  exact ⟨(ok.comps c hc).ids _ hf, f, ok.lut_mem hc hf⟩

/-- a segment is determined by its ray, distance and surface -/
theorem Spec.Segment.unique {c : Col} {d : ℝ} {s : ℤ} {r r' : Row} (h : Segment c d s r) (h' : Segment c d s r') : r = r' := by
  obtain ⟨a1, a2, a3, a4, a5, a6, a7, a8, a9⟩ := h
  obtain ⟨b1, b2, b3, b4, b5, b6, b7, b8, b9⟩ := h'
  cases r; cases r'
  simp only at *
  subst a1 a2 a3 a4 a5 a6 b1 b2 b3 b4 b5 b6
  congr
  · exact funext fun i => by rw [a7, b7]
  · exact funext fun i => by rw [a8, b8]
  · exact funext fun i => by rw [a9, b9]

/-- one round of one ray, in terms of the specification -/
theorem colStep_iff {t : Tracer} (ok : TracerOk t) (g : ℕ) (c : Col) :
    ((Extinct c ∨ Miss t.components c.ray) ∧ t.colStep g c = none) ∨
    ∃ d s f r, ¬ Extinct c ∧ Nearest t.components c.ray d s ∧ (s, f) ∈ t.lut ∧ Segment c d s r ∧
      t.colStep g c = some (r, moved { f (moved c d) with generation := (g : ℝ) + 1 } t.offset) := by
  have hlen : ∀ c ∈ t.components, ∀ ray, (c.intersect ray).2.length = (c.intersect ray).1.length :=
    fun c hc => (ok.comps c hc).len
  have hext : isclose0 (norm4 c.ray.d) ↔ Extinct c := by
    unfold isclose0 Extinct
    rw [abs_of_nonneg (by unfold norm4; positivity)]
  rcases hitOf_spec hlen c.ray with ⟨hm, he⟩ | ⟨d, s, hn, he⟩
  · left
    refine ⟨Or.inr hm, ?_⟩
    unfold Tracer.colStep
    dsimp only
    rw [he, if_pos]
    exact Or.inr rfl
  · obtain ⟨hs, f, hf⟩ := ok.nearest_lut hn
    by_cases hx : Extinct c
    · left
      refine ⟨Or.inl hx, ?_⟩
      unfold Tracer.colStep
      dsimp only
      rw [if_pos (show deadCol t.threshold c (hitOf t.components c.ray) from Or.inl (hext.2 hx))]
    · right
      have hdead : ¬ deadCol t.threshold c (hitOf t.components c.ray) := by
        rintro (h | h)
        · exact hx (hext.1 h)
        · rw [he] at h; simp only at h; omega
      have hi : interactCol t.lut (hitOf t.components c.ray) c = f (moved c d) := by
        rw [he, interactCol, if_neg (by simp only; omega), lutPass_once ok.nodup hf]
        rfl
      refine ⟨d, s, f, mkRow c (f (moved c d)) s, hx, hn, hf, ?_, ?_⟩
      · have hpos : (f (moved c d)).ray.o = (moved c d).ray.o := (ok.materials _ hf).origin _
        refine ⟨rfl, rfl, rfl, rfl, rfl, rfl, fun i => rfl, fun i => ?_, fun i => ?_⟩
        · show (f (moved c d)).ray.o _ = _
          rw [hpos]
          rfl
        · rfl
      · unfold Tracer.colStep
        dsimp only
        rw [if_neg hdead, hi, he]
        simp only [Option.some.injEq, Prod.mk.injEq, true_and, moved, Nat.cast_add, Nat.cast_one]
        rfl

theorem colAt_iff {t : Tracer} (ok : TracerOk t) (g : ℕ) (c0 c : Col) : t.colAt g c0 = some c ↔ Journey t c0 g c := by
  induction g generalizing c with
  | zero =>
    constructor
    · intro h; cases h; exact .start
    · intro h; cases h; rfl
  | succ g ih =>
    constructor
    · intro h
      simp only [Tracer.colAt, Option.bind_eq_some_iff, Option.map_eq_some_iff] at h
      obtain ⟨x, hx, y, hy, rfl⟩ := h
      rcases colStep_iff ok g x with ⟨-, e⟩ | ⟨d, s, f, r, h1, h2, h3, h4, e⟩
      · rw [e] at hy; cases hy
      · rw [e] at hy
        cases hy
        exact .next ((ih x).1 hx) h1 h2 h3
    · intro h
      cases h with
      | @next _ x d s f hj h1 h2 h3 =>
      simp only [Tracer.colAt, Option.bind_eq_some_iff, Option.map_eq_some_iff]
      refine ⟨x, (ih x).2 hj, ?_⟩
      rcases colStep_iff ok g x with ⟨h | h, e⟩ | ⟨d', s', f', r, h1', h2', h3', h4', e⟩
      · exact absurd h h1
      · exact absurd h h2.not_miss
      · obtain ⟨rfl, rfl⟩ := h2.unique h2'
        have := lut_unique ok.nodup h3 h3'
        subst this
        exact ⟨_, e, rfl⟩

theorem rowAt_iff {t : Tracer} (ok : TracerOk t) (g : ℕ) (c0 : Col) (r : Row) : t.rowAt g c0 = some r ↔
    ∃ c d s, Journey t c0 g c ∧ ¬ Extinct c ∧ Nearest t.components c.ray d s ∧ Segment c d s r := by
  simp only [Tracer.rowAt, Option.bind_eq_some_iff, Option.map_eq_some_iff]
  constructor
  · rintro ⟨c, hc, y, hy, rfl⟩
    rcases colStep_iff ok g c with ⟨-, e⟩ | ⟨d, s, f, r, h1, h2, h3, h4, e⟩
    · rw [e] at hy; cases hy
    · rw [e] at hy
      cases hy
      exact ⟨c, d, s, (colAt_iff ok g c0 c).1 hc, h1, h2, h4⟩
  · rintro ⟨c, d, s, hj, h1, h2, h4⟩
    refine ⟨c, (colAt_iff ok g c0 c).2 hj, ?_⟩
    rcases colStep_iff ok g c with ⟨h | h, e⟩ | ⟨d', s', f', r', h1', h2', h3', h4', e⟩
    · exact absurd h h1
    · exact absurd h h2.not_miss
    · obtain ⟨rfl, rfl⟩ := h2.unique h2'
      refine ⟨_, e, ?_⟩
      exact h4'.unique h4

/-- journeys are deterministic -/
theorem Spec.Journey.unique {t : Tracer} (ok : TracerOk t) {g : ℕ} {c0 c c' : Col} (h : Journey t c0 g c)
    (h' : Journey t c0 g c') : c = c' := by
  have a := (colAt_iff ok g c0 c).2 h
  rw [(colAt_iff ok g c0 c').2 h'] at a
  cases a
  rfl

end PyRayT
