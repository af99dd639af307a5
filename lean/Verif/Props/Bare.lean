import Verif.Model.Bare
import Verif.Props.Reach

/-!
# C95: surfaces without an optical material
-/

namespace PyRayT

open Classical Matrix Spec

variable (argsort : List EReal → List ℕ)

/-- in round `g` a surface without optical material is the nearest one of some ray, dead or alive -/
def Spec.Touched (bare : ℤ → Prop) (t : Tracer) (g : ℕ) : Prop :=
  ∃ i c0 c d s, Emitted t i c0 ∧ Journey t c0 g c ∧ Nearest t.components c.ray d s ∧ bare s

theorem stuck_iff {bare : ℤ → Prop} {t0 t : Tracer} {g : ℕ} (ok : TracerOk t0) (h : t0.AtRound g t) :
    t.stPropagate.Stuck bare ↔ Touched bare t0 g := by
  have hlen : ∀ c ∈ t0.components, ∀ ray, (c.intersect ray).2.length = (c.intersect ray).1.length :=
    fun c hc => (ok.comps c hc).len
  constructor
  · rintro ⟨-, e, he, hb, hit, hh, hs⟩
    simp only [Tracer.stPropagate, List.mem_map] at he hh
    obtain ⟨c, hc, rfl⟩ := hh
    rw [h.same.lut] at he
    rw [h.rays, List.mem_filterMap] at hc
    obtain ⟨c0, hc0, hc⟩ := hc
    obtain ⟨i, hi⟩ := (mem_sourceRays t0 c0).1 hc0
    rw [h.same.components] at hs
    rcases hitOf_spec hlen c.ray with ⟨hm, ee⟩ | ⟨d, s, hn, ee⟩
    · rw [ee] at hs
      rw [ok.lut, List.mem_flatMap] at he
      obtain ⟨x, hx, hex⟩ := he
      have := (ok.comps x hx).ids e hex
      simp only at hs
      omega
    · rw [ee] at hs
      simp only at hs
      exact ⟨i, c0, c, d, s, hi, (colAt_iff ok g c0 c).1 hc, hn, by rw [hs]; exact hb⟩
  · rintro ⟨i, c0, c, d, s, hi, hj, hn, hb⟩
    obtain ⟨-, f, hf⟩ := ok.nearest_lut hn
    refine ⟨rfl, (s, f), ?_, hb, ?_⟩
    · simp only [Tracer.stPropagate]; rw [h.same.lut]; exact hf
    · refine ⟨hitOf t.components c.ray, ?_, ?_⟩
      · simp only [Tracer.stPropagate, List.mem_map]
        refine ⟨c, ?_, rfl⟩
        rw [h.rays, List.mem_filterMap]
        exact ⟨c0, (mem_sourceRays t0 c0).2 ⟨i, hi⟩, (colAt_iff ok g c0 c).2 hj⟩
      · rw [h.same.components]
        rcases hitOf_spec hlen c.ray with ⟨hm, ee⟩ | ⟨d', s', hn', ee⟩
        · exact absurd hm hn.not_miss
        · rw [ee]; exact (hn.unique hn').2.symm

/-- outcomes are deterministic -/
theorem Tracer.Ends.det {bare : ℤ → Prop} {n m : ℕ} {t : Tracer} {o o' : Outcome} (h : Tracer.Ends bare n t o) (h' : Tracer.Ends bare m t o') :
    n = m ∧ o = o' := by
  induction h generalizing m with
  | stop hp =>
    cases h' with
    | stop => exact ⟨rfl, rfl⟩
    | fail hs => rw [hs.1] at hp; cases hp
    | step hp' => exact absurd hp hp'
  | fail hs =>
    cases h' with
    | stop hp => rw [hs.1] at hp; cases hp
    | fail => exact ⟨rfl, rfl⟩
    | step _ hs' => exact absurd hs hs'
  | step hp hs he _ ih =>
    cases h' with
    | stop hp' => exact absurd hp' hp
    | fail hs' => exact absurd hs' hs
    | step _ _ he' h' =>
      rw [he] at he'
      cases he'
      obtain ⟨a, b⟩ := ih h'
      exact ⟨by omega, b⟩

theorem not_stuck_of {bare : ℤ → Prop} {t : Tracer} {p : Phase} (hp : t.phase = p) (hne : p ≠ .interact) : ¬ t.Stuck bare := by
  rintro ⟨h, -⟩
  exact hne (hp.symm.trans h)

/-- no surface without material is reached: the run ends as if there were none -/
theorem ends_returned {bare : ℤ → Prop} {t0 : Tracer} (ok : TracerOk t0) (hno : ∀ k : ℕ, (0 < t0.limit → (k : ℤ) < t0.limit) → ¬ Touched bare t0 k)
    (n : ℕ) : ∀ {g : ℕ} {t t' : Tracer}, (0 < t0.limit → (g : ℤ) < t0.limit) → t0.AtRound g t → Tracer.Runs n t t' →
      Tracer.Ends bare n t (.returned t') := by
  induction n using Nat.strong_induction_on with
  | _ n ih =>
  intro g t t' hg h hr
  cases hr with
  | stop hp => rw [h.phase] at hp; cases hp
  | @step n1 _ t1 _ hp hs hr =>
  refine .step hp (not_stuck_of h.phase (by decide)) hs ?_
  rw [Tracer.step_propagate h.phase] at hs
  cases hs
  cases hr with
  | stop hp => cases hp
  | @step n2 _ t2 _ hp hs hr =>
  refine .step hp (fun hst => hno g hg ((stuck_iff ok h).1 hst)) hs ?_
  rw [Tracer.step_interact] at hs
  cases hs
  have fin : ∀ {m : ℕ} {a b : Tracer}, a.phase = .finish → Tracer.Runs m a b → Tracer.Ends bare m a (.returned b) := by
    intro m a b hf hr
    cases hr with
    | stop hp => exact .stop hp
    | @step n3 _ t3 _ hp hs hr =>
      refine .step hp (not_stuck_of hf (by decide)) hs ?_
      rw [Tracer.step_finish hf] at hs
      cases hs
      cases hr with
      | stop hp => exact .stop hp
      | step hp => exact absurd rfl hp
  rcases h.next with ⟨he, hd, hf⟩ | ⟨he, hl, hd, hf⟩ | ⟨he, hl, ha⟩
  · exact fin hf hr
  · exact fin hf hr
  · refine ih n2 (by omega) (fun hp => ?_) ha hr
    have := hg hp
    push_cast at hl ⊢
    omega

/-- a surface without material is reached first in round `g + j`: the run ends with an exception then, with the rows of the earlier rounds -/
theorem ends_raised {bare : ℤ → Prop} {t0 : Tracer} (ok : TracerOk t0) (j : ℕ) : ∀ {g : ℕ} {t : Tracer},
    (0 < t0.limit → ((g + j : ℕ) : ℤ) < t0.limit) → t0.AtRound g t → (∀ k, g ≤ k → k < g + j → ¬ Touched bare t0 k) → Touched bare t0 (g + j) →
      ∃ n e, Tracer.Ends bare n t (.raised e) ∧ e.frame = (List.range (g + j)).flatMap t0.rowsAt := by
  induction j with
  | zero =>
    intro g t hg h hno ht
    refine ⟨1, t.stPropagate, .step (by rw [h.phase]; decide) (not_stuck_of h.phase (by decide)) (Tracer.step_propagate h.phase)
      (.fail ((stuck_iff ok h).2 ht)), ?_⟩
    show t.frame = _
    rw [h.frame]; rfl
  | succ j ih =>
    intro g t hg h hno ht
    have hrow : t0.rowsAt g ≠ [] := by
      obtain ⟨i, c0, c, d, s, hi, hj, -⟩ := ht
      obtain ⟨c', d', s', f, h1, h2, h3, h4⟩ := hj.earlier g (by omega)
      obtain ⟨r, hr⟩ := segment_exists c' d' s'
      exact List.ne_nil_of_mem ((mem_rowsAt ok g r).2 ⟨i, c0, c', d', s', hi, h1, h2, h3, hr⟩)
    rcases h.next with ⟨he, hd, hf⟩ | ⟨he, hl, hd, hf⟩ | ⟨he, hl, ha⟩
    · exact absurd he hrow
    · have := hg (by omega)
      push_cast at this hl
      omega
    · obtain ⟨n, e, h1, h2⟩ := ih (g := g + 1) (fun hp => by have := hg hp; push_cast at this ⊢; omega) ha
        (fun k h1 h2 => hno k (by omega) (by omega)) (by rw [show g + 1 + j = g + (j + 1) by omega]; exact ht)
      refine ⟨n + 1 + 1, e, .step (by rw [h.phase]; decide) (not_stuck_of h.phase (by decide)) (Tracer.step_propagate h.phase)
        (.step (by simp [Tracer.stPropagate]) (fun hst => hno g (le_refl _) (by omega) ((stuck_iff ok h).1 hst)) (Tracer.step_interact t) h1), ?_⟩
      rw [h2, show g + 1 + j = g + (j + 1) by omega]

/-- **C95, exactly.** `trace()` raises if in one of its rounds a surface without an optical material is the nearest one of some ray,
dead or alive; the rows recorded are those of the earlier rounds. Otherwise it ends as if all surfaces had optical materials. -/
theorem C95_exact {bare : ℤ → Prop} {n : ℕ} {t t' : Tracer} (ok : TracerOk t) (h : Tracer.Traces n t t') :
    ((∀ k : ℕ, (0 < t.limit → (k : ℤ) < t.limit) → ¬ Touched bare t k) → t.TraceEnds bare n (.returned t')) ∧
    (∀ k : ℕ, (0 < t.limit → (k : ℤ) < t.limit) → Touched bare t k → (∀ j < k, ¬ Touched bare t j) →
      ∃ m e, t.TraceEnds bare m (.raised e) ∧ e.frame = t'.frame.filter fun r => r.generation < (k : ℝ)) := by
  have hs := h.result.1
  obtain ⟨t1, e1, a1⟩ := t.initial hs
  constructor
  · intro hno
    cases h with
    | stop hp => cases hp
    | @step n1 _ t2 _ hp hst hr =>
    refine .step hp (not_stuck_of (p := .initialize) rfl (by decide)) hst ?_
    rw [e1] at hst
    cases hst
    exact ends_returned ok hno n1 (fun hp => by push_cast; omega) a1 hr
  · intro k hk ht hfirst
    obtain ⟨m, e, h1, h2⟩ := ends_raised ok k (g := 0) (by simpa using hk) a1 (fun j _ hj => hfirst j (by omega)) (by simpa using ht)
    refine ⟨m + 1, e, .step (by simp) (not_stuck_of (p := .initialize) rfl (by decide)) e1 h1, ?_⟩
    rw [h2, zero_add]
    have h0 : ∀ s ∈ t.sources, ∀ c ∈ s t.raysPerSource, c.generation = 0 := fun s hs c hc => (ok.emits s hs c hc).1
    obtain ⟨-, G, hd, hne, hlim, -⟩ := h.result
    have hkG : k ≤ G := by
      by_contra hc
      rcases hd.stopped with e | ⟨hp, e⟩
      · obtain ⟨i, c0, c, d, s, hi, hj, -⟩ := ht
        obtain ⟨c', d', s', f, h1, h2, h3, h4⟩ := hj.earlier G (by omega)
        obtain ⟨r, hr⟩ := segment_exists c' d' s'
        have := (mem_rowsAt ok G r).2 ⟨i, c0, c', d', s', hi, h1, h2, h3, hr⟩
        rw [e] at this
        cases this
      · have := hk (by omega)
        omega
    obtain ⟨j, rfl⟩ : ∃ j, G = k + j := ⟨G - k, by omega⟩
    rw [hd.frame, List.range_add, List.flatMap_append, List.filter_append]
    have b1 : (((List.range k).flatMap t.rowsAt).filter fun r => r.generation < (k : ℝ)) = (List.range k).flatMap t.rowsAt := by
      rw [List.filter_eq_self]
      intro r hr
      rw [List.mem_flatMap] at hr
      obtain ⟨g, hg, hr⟩ := hr
      rw [decide_eq_true_eq, rowsAt_generation h0 hr]
      exact_mod_cast List.mem_range.1 hg
    have b2 : ((((List.range j).map (k + ·)).flatMap t.rowsAt).filter fun r => r.generation < (k : ℝ)) = [] := by
      rw [List.filter_eq_nil_iff]
      intro r hr
      rw [List.mem_flatMap] at hr
      obtain ⟨g, hg, hr⟩ := hr
      obtain ⟨l, hl, rfl⟩ := List.mem_map.1 hg
      rw [decide_eq_true_eq, rowsAt_generation h0 hr, not_lt]
      exact_mod_cast Nat.le_add_right k l
    rw [b1, b2, List.append_nil]

/-- a ray whose direction was set to zero hits nothing -/
def Spec.Still (c : Component) : Prop := ∀ o : Vec4, Miss [c] ⟨o, 0⟩

theorem touched_row {bare : ℤ → Prop} {n : ℕ} {t t' : Tracer} (ok : TracerOk t) (hz : ∀ c ∈ t.components, Still c) (h : Tracer.Traces n t t') :
    (∃ k : ℕ, (0 < t.limit → (k : ℤ) < t.limit) ∧ Touched bare t k) ↔ ∃ r ∈ t'.frame, bare r.surface := by
  constructor
  · rintro ⟨k, hk, i, c0, c, d, s, hi, hj, hn, hb⟩
    have hx : ¬ Extinct c := by
      intro hx
      rcases (hj.onTheWay ok hi).unit with h1 | h1
      · unfold Extinct at hx; rw [h1] at hx; norm_num at hx
      · refine hn.not_miss fun x hx' v hv => ?_
        refine hz x hx' c.ray.o x (List.mem_singleton.2 rfl) v ?_
        rw [← h1]; exact hv
    obtain ⟨r, hr⟩ := segment_exists c d s
    exact ⟨r, (trace_iff ok h r).2 ⟨i, k, hk, c0, c, d, s, hi, hj, hx, hn, hr⟩, by rw [hr.surface]; exact hb⟩
  · rintro ⟨r, hr, hb⟩
    obtain ⟨i, g, hg, c0, c, d, s, hi, hj, hx, hn, hs⟩ := (trace_iff ok h r).1 hr
    exact ⟨g, hg, i, c0, c, d, s, hi, hj, hn, by rw [← hs.surface]; exact hb⟩

/-- **C95.** Components none of which is hit by a ray of direction zero: `trace()` raises if and only if some row of the result with optical
materials in place of the missing ones ends on a surface without one. If it raises, the rows recorded are those of the generations before
the first such row, and if not, the result is the one with any materials in place of the missing ones. Missing from C95: paraboloids
(`C95_dead_ray_false`). -/
theorem C95_bare_partial {bare : ℤ → Prop} {n : ℕ} {t t' : Tracer} (ok : TracerOk t) (hz : ∀ c ∈ t.components, Still c) (h : Tracer.Traces n t t') :
    ((∃ m e, t.TraceEnds bare m (.raised e)) ↔ ∃ r ∈ t'.frame, bare r.surface) ∧
    ((∀ r ∈ t'.frame, ¬ bare r.surface) → t.TraceEnds bare n (.returned t')) ∧
    ∀ m e, t.TraceEnds bare m (.raised e) → ∃ r0 ∈ t'.frame, bare r0.surface ∧ (∀ r ∈ t'.frame, bare r.surface → r0.generation ≤ r.generation) ∧
      e.frame = t'.frame.filter fun r => r.generation < r0.generation := by
  have key := touched_row (bare := bare) ok hz h
  obtain ⟨hret, hraise⟩ := C95_exact (bare := bare) ok h
  have hret' : (∀ r ∈ t'.frame, ¬ bare r.surface) → t.TraceEnds bare n (.returned t') := by
    intro hno
    refine hret fun k hk ht => ?_
    obtain ⟨r, hr, hb⟩ := key.1 ⟨k, hk, ht⟩
    exact hno r hr hb
  have hyes : (∃ r ∈ t'.frame, bare r.surface) → ∃ m e, t.TraceEnds bare m (.raised e) ∧ ∃ r0 ∈ t'.frame, bare r0.surface ∧
      (∀ r ∈ t'.frame, bare r.surface → r0.generation ≤ r.generation) ∧ e.frame = t'.frame.filter fun r => r.generation < r0.generation := by
    intro hr
    have hex : ∃ k : ℕ, (0 < t.limit → (k : ℤ) < t.limit) ∧ Touched bare t k := key.2 hr
    obtain ⟨hk, ht⟩ := Nat.find_spec hex
    have hmin : ∀ j < Nat.find hex, ¬ Touched bare t j := fun j hj htj =>
      Nat.find_min hex hj ⟨fun hp => by have := hk hp; omega, htj⟩
    obtain ⟨m, e, h1, h2⟩ := hraise _ hk ht hmin
    have ht' := ht
    obtain ⟨i, c0, c, d, s, hi, hj, hn, hb⟩ := ht'
    have hx : ¬ Extinct c := by
      intro hx
      rcases (hj.onTheWay ok hi).unit with h1 | h1
      · unfold Extinct at hx; rw [h1] at hx; norm_num at hx
      · refine hn.not_miss fun x hx' v hv => ?_
        refine hz x hx' c.ray.o x (List.mem_singleton.2 rfl) v ?_
        rw [← h1]; exact hv
    obtain ⟨r0, hr0⟩ := segment_exists c d s
    have hl : Leaves t i (Nat.find hex) r0 := ⟨c0, c, d, s, hi, hj, hx, hn, hr0⟩
    have hg0 := (hl.spec ok).1
    refine ⟨m, e, h1, r0, (trace_iff ok h r0).2 ⟨i, _, hk, hl⟩, by rw [hr0.surface]; exact hb, fun r hr hb' => ?_, by rw [hg0]; exact h2⟩
    obtain ⟨i', g', hg', hl'⟩ := (trace_iff ok h r).1 hr
    rw [hg0, (hl'.spec ok).1]
    obtain ⟨c0', c', d', s', hi', hj', hx', hn', hs'⟩ := hl'
    exact_mod_cast Nat.find_min' hex ⟨hg', i', c0', c', d', s', hi', hj', hn', by rw [← hs'.surface]; exact hb'⟩
  refine ⟨⟨?_, fun hr => ?_⟩, hret', fun m e he => ?_⟩
  · rintro ⟨m, e, he⟩
    by_contra hc
    push Not at hc
    have := (he.det (hret' hc)).2
    cases this
  · obtain ⟨m, e, he, -⟩ := hyes hr
    exact ⟨m, e, he⟩
  · by_cases hr : ∃ r ∈ t'.frame, bare r.surface
    · obtain ⟨m', e', he', rest⟩ := hyes hr
      have := (he.det he').2
      cases this
      exact rest
    · push Not at hr
      have := (he.det (hret' hr)).2
      cases this

/-- **C95, any materials.** Two ways of giving materials to the surfaces that have none: the results are the same if no ray reaches
such a surface. -/
theorem C95_any_material {bare : ℤ → Prop} {n : ℕ} {t t' u : Tracer} (ok : TracerOk t) (oku : TracerOk u) (h : Tracer.Traces n t t')
    (hs : u.sources = t.sources) (hn : u.raysPerSource = t.raysPerSource) (hl : u.limit = t.limit) (ho : u.offset = t.offset)
    (hi : u.components.map Component.intersect = t.components.map Component.intersect)
    (hm : ∀ s f, ¬ bare s → ((s, f) ∈ u.lut ↔ (s, f) ∈ t.lut)) (hrows : ∀ r ∈ t'.frame, ¬ bare r.surface) :
    ∃ u', Tracer.Traces n u u' ∧ u'.frame = t'.frame := by
  have near : ∀ ray d s, Nearest u.components ray d s ↔ Nearest t.components ray d s := by
    have aux : ∀ {cs cs' : List Component} {ray d s}, cs'.map Component.intersect = cs.map Component.intersect → Nearest cs ray d s → Nearest cs' ray d s := by
      intro cs cs' ray d s hi hn
      obtain ⟨p, m, k, c, i, h1, h2, h3, h4, h5⟩ := hn
      have get : ∀ j : ℕ, (cs'[j]?).map Component.intersect = (cs[j]?).map Component.intersect := by
        intro j; rw [← List.getElem?_map, ← List.getElem?_map, hi]
      have hk := get k
      rw [h1] at hk
      simp only [Option.map_some, Option.map_eq_some_iff] at hk
      obtain ⟨c', hc', e'⟩ := hk
      refine ⟨p, fun x hx => ?_, k, c', i, hc', fun j hj x hx => ?_, by rw [e']; exact h3, by rw [e']; exact h4, by rw [e']; exact h5⟩
      · have hmem : x.intersect ∈ cs.map Component.intersect := by rw [← hi]; exact List.mem_map.2 ⟨x, hx, rfl⟩
        obtain ⟨y, hy, e⟩ := List.mem_map.1 hmem
        rw [← e]; exact m y hy
      · have := get j
        rw [hx] at this
        simp only [Option.map_some] at this
        obtain ⟨y, hy, e⟩ := Option.map_eq_some_iff.1 this.symm
        rw [← e]; exact h2 j hj y hy
    exact fun ray d s => ⟨aux hi.symm, aux hi⟩
  have reached : ∀ {i c0 c d s} {g : ℕ}, (0 < t.limit → (g : ℤ) < t.limit) → Emitted t i c0 → Journey t c0 g c → ¬ Extinct c →
      Nearest t.components c.ray d s → ¬ bare s := by
    intro i c0 c d s g hg he hj hx hn
    obtain ⟨r, hr⟩ := segment_exists c d s
    have := hrows r ((trace_iff ok h r).2 ⟨i, g, hg, c0, c, d, s, he, hj, hx, hn, hr⟩)
    rwa [hr.surface] at this
  have hj1 : ∀ {i c0 c} {g : ℕ}, (0 < t.limit → (g : ℤ) < t.limit) → Emitted t i c0 → Journey t c0 g c → Journey u c0 g c := by
    intro i c0 c g hg he hj
    induction hj with
    | start => exact .start
    | @next g c d s f hj hx hn hf ih =>
      have hg' : 0 < t.limit → (g : ℤ) < t.limit := fun hp => by have := hg hp; push_cast at this; omega
      rw [← ho]
      exact (ih hg').next hx ((near _ _ _).2 hn) ((hm _ _ (reached hg' he hj hx hn)).2 hf)
  have hj2 : ∀ {i c0 c} {g : ℕ}, (0 < t.limit → (g : ℤ) < t.limit) → Emitted t i c0 → Journey u c0 g c → Journey t c0 g c := by
    intro i c0 c g hg he hj
    induction hj with
    | start => exact .start
    | @next g c d s f hj hx hn hf ih =>
      have hg' : 0 < t.limit → (g : ℤ) < t.limit := fun hp => by have := hg hp; push_cast at this; omega
      have hn' := (near _ _ _).1 hn
      rw [ho]
      exact (ih hg').next hx hn' ((hm _ _ (reached hg' he (ih hg') hx hn')).1 hf)
  refine traces_congr_upto h (by rw [hs]; exact h.result.1) hl fun k hk => ?_
  unfold Tracer.rowsAt
  rw [hs, hn]
  refine List.filterMap_congr fun c0 hc0 => ?_
  obtain ⟨i, he⟩ := (mem_sourceRays t c0).1 hc0
  apply Option.ext
  intro r
  rw [rowAt_iff oku, rowAt_iff ok]
  constructor
  · rintro ⟨c, d, s, a, b, c', e⟩
    exact ⟨c, d, s, hj2 hk he a, b, (near _ _ _).1 c', e⟩
  · rintro ⟨c, d, s, a, b, c', e⟩
    exact ⟨c, d, s, hj1 hk he a, b, (near _ _ _).2 c', e⟩

/-! ### which components let dead rays pass -/

theorem sort2_still {v : EReal × EReal} (h1 : v.1 = ⊥ ∨ v.1 = ⊤) (h2 : v.2 = ⊥ ∨ v.2 = ⊤) :
    ((sort2 v).1 = ⊥ ∨ (sort2 v).1 = ⊤) ∧ ((sort2 v).2 = ⊥ ∨ (sort2 v).2 = ⊤) := by
  obtain ⟨a, b⟩ := v
  simp only at h1 h2
  rcases h1 with rfl | rfl <;> rcases h2 with rfl | rfl <;> simp [sort2]

theorem slab_dead (span : EReal × EReal) (o : ℝ) : ((slab span o 0).1 = ⊥ ∨ (slab span o 0).1 = ⊤) ∧ (slab span o 0).2 = ⊤ := by
  simp only [slab, isclose0_zero, not_true_eq_false, if_false]
  split_ifs <;> simp [sort2]

theorem boxIntersect_still (box : Box) (ray : Ray) (hd : ray.d = 0) :
    ((boxIntersect box ray).1 = ⊥ ∨ (boxIntersect box ray).1 = ⊤) ∧ ((boxIntersect box ray).2 = ⊥ ∨ (boxIntersect box ray).2 = ⊤) := by
  simp only [boxIntersect, hd, Pi.zero_apply]
  obtain ⟨a, a'⟩ := slab_dead (box 0) (ray.o 0)
  obtain ⟨b, b'⟩ := slab_dead (box 1) (ray.o 1)
  obtain ⟨c, c'⟩ := slab_dead (box 2) (ray.o 2)
  rw [a', b', c']
  rcases a with a | a <;> rcases b with b | b <;> rcases c with c | c <;> rw [a, b, c] <;> simp

theorem clipHits_still {v w : EReal × EReal} (h1 : v.1 = ⊥ ∨ v.1 = ⊤) (h2 : v.2 = ⊥ ∨ v.2 = ⊤) (h3 : w.1 = ⊥ ∨ w.1 = ⊤) (h4 : w.2 = ⊥ ∨ w.2 = ⊤) :
    ((clipHits v w).1 = ⊥ ∨ (clipHits v w).1 = ⊤) ∧ ((clipHits v w).2 = ⊥ ∨ (clipHits v w).2 = ⊤) := by
  obtain ⟨a, b⟩ := sort2_still h1 h2
  obtain ⟨c, d⟩ := sort2_still h3 h4
  unfold clipHits
  rcases a with a | a <;> rcases b with b | b <;> rcases c with c | c <;> rcases d with d | d <;> simp [a, b, c, d]

theorem cylinder_still (r lo hi : ℝ) (ray : Ray) (hd : ray.d = 0) :
    ((cylinderIntersect r lo hi ray).1 = ⊥ ∨ (cylinderIntersect r lo hi ray).1 = ⊤) ∧
    ((cylinderIntersect r lo hi ray).2 = ⊥ ∨ (cylinderIntersect r lo hi ray).2 = ⊤) := by
  unfold cylinderIntersect
  simp only [hd, Pi.zero_apply, mul_zero, zero_mul, add_zero]
  have hb : ∀ c, ((binomialRoot 0 0 c).1 = ⊥ ∨ (binomialRoot 0 0 c).1 = ⊤) ∧ ((binomialRoot 0 0 c).2 = ⊥ ∨ (binomialRoot 0 0 c).2 = ⊤) := by
    intro c
    simp only [binomialRoot, isclose0_zero, true_and, and_self, if_true]
    split_ifs <;> simp
  have hc : ∀ z, ((capHits lo hi z 0).1 = ⊥ ∨ (capHits lo hi z 0).1 = ⊤) ∧ ((capHits lo hi z 0).2 = ⊥ ∨ (capHits lo hi z 0).2 = ⊤) := by
    intro z
    simp only [capHits, isclose0_zero, true_and, if_true]
    split_ifs <;> simp
  obtain ⟨h1, h2⟩ := sort2_still (hb _).1 (hb _).2
  exact clipHits_still h1 h2 (hc _).1 (hc _).2

theorem prim_still (p : Prim) (hp : ∀ f h, p ≠ .paraboloid f h) (ray : Ray) (hd : ray.d = 0) :
    ((p.intersect ray).1 = ⊥ ∨ (p.intersect ray).1 = ⊤) ∧ ((p.intersect ray).2 = ⊥ ∨ (p.intersect ray).2 = ⊤) := by
  cases p with
  | sphere r => simp [Prim.intersect, sphereIntersect, hd]
  | paraboloid f h => exact absurd rfl (hp f h)
  | plane w l =>
    simp only [Prim.intersect, planeIntersect, hd, Pi.zero_apply, isclose0_zero, if_true]
    split_ifs <;> simp
  | cube a b => exact boxIntersect_still _ ray hd
  | cylinder r a b => exact cylinder_still r a b ray hd

/-- **C95, dead rays.** A ray of direction zero hits no component, unless this is a single paraboloid: composites cull it with their
bounding box. -/
theorem C95_still (argsort : List EReal → List ℕ) (depth : ℕ) (s : Scene) (a : ℕ) (hp : ∀ f h, (s.heap.obj a).kind ≠ .prim (.paraboloid f h)) :
    Still (s.component argsort depth a) := by
  intro o c hc v hv
  rw [List.mem_singleton] at hc
  subst hc
  simp only [Scene.component] at hv
  cases depth with
  | zero => simp [intersectObj] at hv
  | succ depth =>
    rw [intersectObj] at hv
    split at hv
    · rename_i p hk
      have hz : (Ray.map (s.heap.obj a).objT ⟨o, 0⟩).d = 0 := by simp [Ray.map]
      obtain ⟨h1, h2⟩ := prim_still p (fun f h e => hp f h (by rw [hk, e])) _ hz
      obtain ⟨h3, h4⟩ := sort2_still h1 h2
      simp only [leafIntersect, List.mem_cons, List.not_mem_nil, or_false] at hv
      rcases hv with rfl | rfl
      · rcases h3 with e | e <;> rw [e] <;> simp
      · rcases h4 with e | e <;> rw [e] <;> simp
    · rename_i op l r hk
      have hb : ¬ boxPasses (s.heap.obj a).aobb ⟨o, 0⟩ := by
        obtain ⟨h1, h2⟩ := boxIntersect_still (s.heap.obj a).aobb ⟨o, 0⟩ rfl
        unfold boxPasses
        rcases h1 with h1 | h1 <;> rcases h2 with h2 | h2 <;> simp [h1, h2]
      simp only [hb, if_false] at hv
      rw [List.eq_of_mem_replicate hv]
      simp
    · simp at hv

/-- **C95 for a scene.** The hypotheses of `C95_bare_partial` for a tracer over objects none of which is a single paraboloid; `bare` are the
addresses of the surfaces that have no optical material, the material of the scene at these is arbitrary. -/
theorem C95_scene_partial (ha : IsArgsort argsort) (fuel : ℕ) (s : Scene) (hr : Reaches argsort fuel Heap.empty s.heap)
    (objs : List ℕ) (hlt : ∀ a ∈ objs, a < s.heap.size) (depth : ℕ)
    (hnd : (objs.flatMap fun a => (surfaceIds depth s.heap a).map Prod.snd).Nodup)
    (hp : ∀ a ∈ objs, ∀ f h, (s.heap.obj a).kind ≠ .prim (.paraboloid f h))
    (sources : List (ℕ → List Col)) (n : ℕ) (limit : ℤ)
    (hem : ∀ f ∈ sources, ∀ c ∈ f n, c.generation = 0 ∧ c.ray.o 3 = 1 ∧ c.ray.d 3 = 0 ∧ norm4 c.ray.d = 1) (bare : ℕ → Prop)
    {k : ℕ} {t' : Tracer} (h : Tracer.Traces k (Tracer.new sources (objs.map (s.component argsort depth)) n limit) t') :
    ((∃ m e, (Tracer.new sources (objs.map (s.component argsort depth)) n limit).TraceEnds
        (fun j => ∃ x < s.heap.size, bare x ∧ j = (s.heap.obj x).oid) m (.raised e)) ↔
      ∃ r ∈ t'.frame, ∃ x < s.heap.size, bare x ∧ r.surface = (s.heap.obj x).oid) ∧
    ∀ m e, (Tracer.new sources (objs.map (s.component argsort depth)) n limit).TraceEnds
        (fun j => ∃ x < s.heap.size, bare x ∧ j = (s.heap.obj x).oid) m (.raised e) →
      e.frame.Sublist t'.frame ∧ ∀ r ∈ e.frame, ¬ ∃ x < s.heap.size, bare x ∧ r.surface = (s.heap.obj x).oid := by
  have ok := scene_tracer_ok argsort ha fuel s hr objs hlt depth hnd sources n limit hem
  obtain ⟨h1, -, h2⟩ := C95_bare_partial (bare := fun j => ∃ x < s.heap.size, bare x ∧ j = (s.heap.obj x).oid) ok (by
    intro c hc
    simp only [Tracer.new, List.mem_map] at hc
    obtain ⟨a, ha', rfl⟩ := hc
    exact C95_still argsort depth s a (hp a ha')) h
  refine ⟨h1, fun m e he => ?_⟩
  obtain ⟨r0, -, -, hmin, hf⟩ := h2 m e he
  rw [hf]
  refine ⟨List.filter_sublist, fun r hr hb => ?_⟩
  rw [List.mem_filter, decide_eq_true_eq] at hr
  exact absurd (hmin r hr.1 hb) (not_le.2 hr.2)

/-! ### the witness and the example -/

/-- two surfaces, just made -/
noncomputable def pair (p q : Prim) (m : ℕ → Material) : Scene := ⟨newPrim (newPrim Heap.empty p) q, m⟩

theorem pair_reaches (p q : Prim) (m : ℕ → Material) (fuel : ℕ) : Reaches argsort fuel Heap.empty (pair p q m).heap :=
  .step (.newPrim q) (.step (.newPrim p) (.refl _) trivial rfl) trivial rfl

theorem pair_obj (p q : Prim) (m : ℕ → Material) :
    (((pair p q m).heap.obj 0).kind = .prim p ∧ ((pair p q m).heap.obj 0).objT = 1 ∧ ((pair p q m).heap.obj 0).oid = 0 ∧ ((pair p q m).heap.obj 0).nscale = 1) ∧
    (((pair p q m).heap.obj 1).kind = .prim q ∧ ((pair p q m).heap.obj 1).objT = 1 ∧ ((pair p q m).heap.obj 1).oid = 1 ∧ ((pair p q m).heap.obj 1).nscale = 1) ∧
    (pair p q m).heap.size = 2 := by
  simp [pair, newPrim, Heap.alloc, Heap.empty, Function.update]

/-- the components of a tracer over the two surfaces -/
noncomputable def pairParts (p q : Prim) (m : ℕ → Material) : List Component := [0, 1].map ((pair p q m).component argsort 1)

theorem pair_nearest (p q : Prim) (m : ℕ → Material) (ray : Ray) {a b a' b' : EReal} (hp : sort2 (p.intersect ray) = (a, b))
    (hq : sort2 (q.intersect ray) = (a', b')) {d : ℝ} (hd : 0 < d) (ha : 0 < a → (d : EReal) ≤ a) (hb : 0 < b → (d : EReal) ≤ b)
    (ha' : 0 < a' → (d : EReal) ≤ a') (hb' : 0 < b' → (d : EReal) ≤ b') :
    (a = d ∨ b = d → Nearest (pairParts argsort p q m) ray d 0) ∧
    (a ≠ d → b ≠ d → a' = d ∨ b' = d → Nearest (pairParts argsort p q m) ray d 1) := by
  obtain ⟨⟨k0, t0, i0, -⟩, ⟨k1, t1, i1, -⟩, -⟩ := pair_obj p q m
  have hm : ray.map (1 : Mat4) = ray := by simp [Ray.map]
  have e0 : ((pair p q m).component argsort 1 0).intersect ray = ([a, b], [0, 0]) := by
    show intersectObj argsort 1 (pair p q m).heap 0 ray = _
    simp only [intersectObj, k0, leafIntersect, t0, i0, hm, hp]
    rfl
  have e1 : ((pair p q m).component argsort 1 1).intersect ray = ([a', b'], [1, 1]) := by
    show intersectObj argsort 1 (pair p q m).heap 1 ray = _
    simp only [intersectObj, k1, leafIntersect, t1, i1, hm, hq]
    rfl
  have hmin : ∀ c ∈ pairParts argsort p q m, ∀ h ∈ (c.intersect ray).1, 0 < h → (d : EReal) ≤ h := by
    intro c hc h hh hpos
    simp only [pairParts, List.map_cons, List.map_nil, List.mem_cons, List.not_mem_nil, or_false] at hc
    rcases hc with rfl | rfl
    · rw [e0] at hh
      simp only [List.mem_cons, List.not_mem_nil, or_false] at hh
      rcases hh with rfl | rfl
      · exact ha hpos
      · exact hb hpos
    · rw [e1] at hh
      simp only [List.mem_cons, List.not_mem_nil, or_false] at hh
      rcases hh with rfl | rfl
      · exact ha' hpos
      · exact hb' hpos
  constructor
  · intro hor
    by_cases h : a = d
    · exact ⟨hd, hmin, 0, _, 0, rfl, fun j hj => by omega, by rw [e0, h]; rfl, fun j hj => by omega, by rw [e0]; rfl⟩
    · have hb2 := hor.resolve_left h
      refine ⟨hd, hmin, 0, _, 1, rfl, fun j hj => by omega, by rw [e0, hb2]; rfl, fun j hj => ?_, by rw [e0]; rfl⟩
      obtain rfl : j = 0 := by omega
      rw [e0]
      simpa using h
  · intro hna hnb hor
    have hbefore : ∀ j < 1, ∀ c' : Component, (pairParts argsort p q m)[j]? = some c' → (d : EReal) ∉ (c'.intersect ray).1 := by
      intro j hj c' hc'
      obtain rfl : j = 0 := by omega
      simp only [pairParts, List.map_cons, List.getElem?_cons_zero, Option.some.injEq] at hc'
      subst hc'
      rw [e0]
      simp only [List.mem_cons, List.not_mem_nil, or_false, not_or]
      exact ⟨Ne.symm hna, Ne.symm hnb⟩
    by_cases h : a' = d
    · exact ⟨hd, hmin, 1, _, 0, rfl, hbefore, by rw [e1, h]; rfl, fun j hj => by omega, by rw [e1]; rfl⟩
    · have hb2 := hor.resolve_left h
      refine ⟨hd, hmin, 1, _, 1, rfl, hbefore, by rw [e1, hb2]; rfl, fun j hj => ?_, by rw [e1]; rfl⟩
      obtain rfl : j = 0 := by omega
      rw [e1]
      simpa using h

theorem pair_ok (ha : IsArgsort argsort) (p q : Prim) (m : ℕ → Material) (z : ℝ) (limit : ℤ) :
    TracerOk (Tracer.new [fun _ => [axisCol z (-1) 100 0]] (pairParts argsort p q m) 1 limit) := by
  obtain ⟨⟨k0, -⟩, ⟨k1, -⟩, hsz⟩ := pair_obj p q m
  refine scene_tracer_ok argsort ha 1 _ (pair_reaches argsort p q m 1) [0, 1] ?_ 1 ?_ _ 1 limit ?_
  · intro a h
    rw [hsz]
    simp only [List.mem_cons, List.not_mem_nil, or_false] at h
    omega
  · simp [surfaceIds, k0, k1]
  · intro f hf c hc
    simp only [List.mem_singleton] at hf
    subst hf
    simp only [List.mem_singleton] at hc
    subst hc
    exact ⟨by simp [axisCol], rfl, rfl, axis_norm (by norm_num)⟩

theorem pair_lut (p q : Prim) (m : ℕ → Material) (z : ℝ) (limit : ℤ) :
    ((1 : ℤ), fun c => (m 1).trace (surfaceNormal (pair p q m).heap 1) c) ∈
      (Tracer.new [fun _ => [axisCol z (-1) 100 0]] (pairParts argsort p q m) 1 limit).lut := by
  obtain ⟨⟨k0, -⟩, ⟨k1, -, i1, -⟩, hsz⟩ := pair_obj p q m
  show _ ∈ (pairParts argsort p q m).flatMap Component.surfaces
  rw [List.mem_flatMap]
  refine ⟨_, List.mem_map.2 ⟨1, by simp, rfl⟩, ?_⟩
  have e : surfaceIds 1 (pair p q m).heap 1 = [(1, 1)] := by
    rw [surfaceIds]
    simp only [k1, i1]
  simp only [Scene.component, e]
  exact List.mem_singleton.2 rfl

theorem dish_inside : sort2 (paraboloidIntersect 1 10 (axisRay 5 (-1))) = (((-5 : ℝ) : EReal), ((5 : ℝ) : EReal)) := by
  have h1 : ¬ isclose0 (-(4 * -1) : ℝ) := by apply not_isclose0; norm_num
  have h2 : ¬ isclose0 (-1 : ℝ) := by apply not_isclose0; norm_num
  simp only [paraboloidIntersect, axisRay, capHits, clipHits, point, vector, Matrix.cons_val, mul_zero, mul_one,
    add_zero, isclose0_zero, zero_sub, h1, h2, if_true, if_false, false_and, addMask_False]
  have e1 : (-(-(4 * 5)) / -(4 * -1) : ℝ) = 5 := by norm_num
  have e2 : (-5 / -1 : ℝ) = 5 := by norm_num
  have e3 : ((10 - 5) / -1 : ℝ) = -5 := by norm_num
  have e4 : ¬ ((-1 : ℝ) ≥ 0) := by norm_num
  rw [e1, e2, e3]
  simp only [e4, if_false]
  have e5 : (((-5 : ℝ) : EReal)) ≤ ((5 : ℝ) : EReal) := EReal.coe_le_coe_iff.2 (by norm_num)
  have e6 : -((5 : ℝ) : EReal) ≤ ((5 : ℝ) : EReal) := by rw [← EReal.coe_neg]; exact e5
  simp [sort2, e6]

theorem dish_dead (z : ℝ) (h0 : 0 ≤ z) (h1 : z ≤ 10) : sort2 (paraboloidIntersect 1 10 ⟨point 0 0 z, 0⟩) = (((4 * z : ℝ) : EReal), ⊤) := by
  simp only [paraboloidIntersect, capHits, clipHits, point, Pi.zero_apply, Matrix.cons_val, mul_zero, mul_one, sub_zero,
    add_zero, isclose0_zero, zero_sub, if_true, true_and, addMask_True]
  have e1 : (- -(4 * z) / (0 + 1) : ℝ) = 4 * z := by ring
  have e2 : z ≥ 0 ∧ z ≤ 10 := ⟨h0, h1⟩
  rw [e1]
  simp only [e2, and_self, if_true, ge_iff_le, le_refl, sort2]
  simp

theorem sphere_dead (r : ℝ) (o : Vec4) : sort2 (sphereIntersect r ⟨o, 0⟩) = (⊤, ⊤) := by
  simp [sphereIntersect, sort2]

/-- **C95 is false for a single paraboloid.** A paraboloid without optical material and an absorbing ball inside: every row of the result (with
any materials) ends on the ball, but `trace()` raises: the absorbed ray, which has no direction any more, is reported to hit the
paraboloid. -/
theorem C95_dead_ray_false (ha : IsArgsort argsort) : ∃ (s : Scene) (n : ℕ) (t t' : Tracer),
    Reaches argsort 1 Heap.empty s.heap ∧ (s.heap.obj 0).kind = .prim (.paraboloid 1 10) ∧ (s.heap.obj 0).oid = 0 ∧
    t = Tracer.new [fun _ => [axisCol 5 (-1) 100 0]] ([0, 1].map (s.component argsort 1)) 1 5 ∧ TracerOk t ∧
    Tracer.Traces n t t' ∧ (∀ r ∈ t'.frame, r.surface = 1) ∧ ∃ m e, t.TraceEnds (fun j => j = 0) m (.raised e) := by
  set p : Prim := .paraboloid 1 10 with hp
  set q : Prim := .sphere 1 with hq
  set m : ℕ → Material := fun _ => .absorber with hm
  have ok := pair_ok argsort ha p q m 5 5
  have hlut := pair_lut argsort p q m 5 5
  set t := Tracer.new [fun _ => [axisCol 5 (-1) 100 0]] (pairParts argsort p q m) 1 5 with ht
  obtain ⟨n, t', h, -⟩ := C26_terminates t (by simp [ht, Tracer.new]) (by simp [ht, Tracer.new]) (fun s hs c hc => (ok.emits s hs c hc).1)
  have hσ : (-1 : ℝ) ^ 2 = 1 := by norm_num
  have near0 : Nearest t.components (axisCol 5 (-1) 100 0).ray 4 1 := by
    have hs : sort2 (q.intersect (axisRay 5 (-1))) = (((4 : ℝ) : EReal), ((6 : ℝ) : EReal)) := by
      simp only [hq, Prim.intersect, axis_sphere hσ]
      have : (((4 : ℝ) : EReal)) ≤ ((6 : ℝ) : EReal) := EReal.coe_le_coe_iff.2 (by norm_num)
      norm_num [sort2, this]
    refine (pair_nearest argsort p q m (axisRay 5 (-1)) dish_inside hs (d := 4) (by norm_num) ?_ ?_ ?_ ?_).2 ?_ ?_ (Or.inl rfl)
    · intro h
      have : (0 : ℝ) < -5 := by exact_mod_cast h
      norm_num at this
    · exact fun _ => EReal.coe_le_coe_iff.2 (by norm_num)
    · exact fun _ => le_refl _
    · exact fun _ => EReal.coe_le_coe_iff.2 (by norm_num)
    · rw [ne_eq, EReal.coe_eq_coe_iff]; norm_num
    · rw [ne_eq, EReal.coe_eq_coe_iff]; norm_num
  have he : Emitted t 0 (axisCol 5 (-1) 100 0) := ⟨axisCol 5 (-1) 100 0, rfl, by simp [axisCol]⟩
  have hx : ¬ Extinct (axisCol 5 (-1) 100 0) := not_extinct_of_unit (axis_norm hσ)
  have hj := Journey.next (.start (t := t) (c0 := axisCol 5 (-1) 100 0)) hx near0 hlut
  refine ⟨pair p q m, n, t, t', pair_reaches argsort p q m 1, (pair_obj p q m).1.1, (pair_obj p q m).1.2.2.1, rfl, ok, h, ?_, ?_⟩
  · intro r hr
    obtain ⟨i, g, -, c0, c, d, s, he', hj', hx', hn, hseg⟩ := (trace_iff ok h r).1 hr
    have hc0 : c0 = axisCol 5 (-1) 100 0 := by
      obtain ⟨c', e1, e2⟩ := he'
      cases i with
      | zero => simp [ht, Tracer.new] at e1; subst e1; rw [e2]; simp [axisCol]
      | succ i => simp [ht, Tracer.new] at e1
    subst hc0
    cases hj' with
    | start =>
      rw [hseg.surface]
      exact (near0.unique hn).2.symm
    | @next g c d' s' f hj0 hx0 hn0 hf0 =>
      have hdead : ∀ {g c}, Journey t (axisCol 5 (-1) 100 0) g c → g ≠ 0 → c.ray.d = 0 := by
        intro g c hj hg
        cases hj with
        | start => exact absurd rfl hg
        | @next g c d s f hj hx hn hf =>
          have : ∀ e ∈ t.lut, ∀ c : Col, (e.2 c).ray.d = 0 := by
            intro e he c
            simp only [ht, Tracer.new, pairParts, List.mem_flatMap, List.mem_map] at he
            obtain ⟨x, ⟨a, -, rfl⟩, hx⟩ := he
            simp only [Scene.component, List.mem_map] at hx
            obtain ⟨y, -, rfl⟩ := hx
            simp [pair, hm, Material.trace]
          exact this _ hf _
      have hd0 := hdead (hj0.next hx0 hn0 hf0) (by omega)
      exact absurd (by rw [Extinct, hd0]; norm_num [norm4]) hx'
  · have ht1 : Touched (fun j => j = 0) t 1 := by
      refine ⟨0, _, _, 4, 0, he, hj, ?_, rfl⟩
      have hray : ∀ c : Col, c = moved { (m 1).trace (surfaceNormal (pair p q m).heap 1) (moved (axisCol 5 (-1) 100 0) 4) with generation := ((0 : ℕ) : ℝ) + 1 } t.offset →
          c.ray = ⟨point 0 0 1, 0⟩ := by
        rintro c rfl
        simp only [moved, hm, Material.trace, axisCol, axisRay]
        congr 1
        funext l; fin_cases l <;> simp [point, vector]
        norm_num
      rw [hray _ rfl]
      have hdd := dish_dead 1 (by norm_num) (by norm_num)
      rw [show (4 * 1 : ℝ) = 4 by norm_num] at hdd
      exact (pair_nearest argsort p q m ⟨point 0 0 1, 0⟩ hdd (sphere_dead 1 _) (d := 4) (by norm_num) (fun _ => le_refl _) (fun _ => le_top)
        (fun _ => le_top) (fun _ => le_top)).1 (Or.inl rfl)
    obtain ⟨-, hraise⟩ := C95_exact (bare := fun j => j = 0) ok h
    have hno : ¬ Touched (fun j => j = 0) t 0 := by
      rintro ⟨i, c0, c, d, s, he', hj', hn, rfl⟩
      cases hj'
      obtain ⟨c', e1, e2⟩ := he'
      have : c0 = axisCol 5 (-1) 100 0 := by
        cases i with
        | zero => simp [ht, Tracer.new] at e1; subst e1; rw [e2]; simp [axisCol]
        | succ i => simp [ht, Tracer.new] at e1
      subst this
      have := (near0.unique hn).2
      norm_num at this
    obtain ⟨m', e, h1, -⟩ := hraise 1 (fun _ => by simp [ht, Tracer.new]) ht1 (fun j hj => by
      obtain rfl : j = 0 := by omega
      exact hno)
    exact ⟨m', e, h1⟩

theorem axis_sphere_five {z σ : ℝ} (hσ : σ ^ 2 = 1) : sphereIntersect 5 (axisRay z σ) =
    (((-(σ * z) + 5 : ℝ) : EReal), ((-(σ * z) - 5 : ℝ) : EReal)) := by
  have a1 : (axisRay z σ).d 0 * (axisRay z σ).d 0 + (axisRay z σ).d 1 * (axisRay z σ).d 1 +
      (axisRay z σ).d 2 * (axisRay z σ).d 2 = 1 := by
    simp [axisRay, vector]; nlinarith
  have b1 : (axisRay z σ).d 0 * (axisRay z σ).o 0 + (axisRay z σ).d 1 * (axisRay z σ).o 1 +
      (axisRay z σ).d 2 * (axisRay z σ).o 2 = σ * z := by
    simp [axisRay, vector, point]
  have c1 : (axisRay z σ).o 0 * (axisRay z σ).o 0 + (axisRay z σ).o 1 * (axisRay z σ).o 1 +
      (axisRay z σ).o 2 * (axisRay z σ).o 2 = z * z := by
    simp [axisRay, point]
  unfold sphereIntersect
  dsimp only
  rw [if_neg (by rw [a1]; exact one_ne_zero), a1, b1, c1]
  have h2 : (2 * (σ * z)) ^ 2 - 4 * 1 * (z * z - 5 ^ 2) = 10 ^ 2 := by
    have : (2 * (σ * z)) ^ 2 = 4 * σ ^ 2 * z ^ 2 := by ring
    rw [this, hσ]; ring
  rw [h2, polyRoots, if_pos (by norm_num : (10 : ℝ) ^ 2 ≥ 0)]
  rw [max_eq_right (by norm_num), Real.sqrt_sq (by norm_num)]
  congr 2 <;> ring

/-- rays on the axis between the two spheres -/
theorem shell_nearest (m : ℕ → Material) {z : ℝ} (h1 : 1 < z) (h5 : z < 5) :
    Nearest (pairParts argsort (.sphere 5) (.sphere 1) m) (axisRay z (-1)) (z - 1) 1 ∧
    Nearest (pairParts argsort (.sphere 5) (.sphere 1) m) (axisRay z 1) (5 - z) 0 := by
  have srt : ∀ {a b : ℝ}, a ≤ b → sort2 ((b : EReal), (a : EReal)) = ((a : EReal), (b : EReal)) := by
    intro a b h
    have := EReal.coe_le_coe_iff.2 h
    simp [sort2, this]
  have hs5 : ∀ σ : ℝ, σ ^ 2 = 1 → sort2 ((Prim.sphere 5).intersect (axisRay z σ)) = (((-(σ * z) - 5 : ℝ) : EReal), ((-(σ * z) + 5 : ℝ) : EReal)) := by
    intro σ hσ
    rw [Prim.intersect, axis_sphere_five hσ, srt (by linarith)]
  have hs1 : ∀ σ : ℝ, σ ^ 2 = 1 → sort2 ((Prim.sphere 1).intersect (axisRay z σ)) = (((-(σ * z) - 1 : ℝ) : EReal), ((-(σ * z) + 1 : ℝ) : EReal)) := by
    intro σ hσ
    rw [Prim.intersect, axis_sphere hσ, srt (by linarith)]
  have le : ∀ {a d : ℝ}, (0 < a → d ≤ a) → 0 < (a : EReal) → (d : EReal) ≤ (a : EReal) := by
    intro a d h hp
    exact EReal.coe_le_coe_iff.2 (h (by exact_mod_cast hp))
  constructor
  · refine (pair_nearest argsort _ _ m (axisRay z (-1)) (hs5 _ (by norm_num)) (hs1 _ (by norm_num)) (d := z - 1) (by linarith)
      (le fun _ => by linarith) (le fun _ => by linarith) (le fun _ => by linarith) (le fun _ => by linarith)).2 ?_ ?_ (Or.inl ?_)
    · rw [ne_eq, EReal.coe_eq_coe_iff]; intro h; linarith
    · rw [ne_eq, EReal.coe_eq_coe_iff]; intro h; linarith
    · rw [EReal.coe_eq_coe_iff]; ring
  · refine (pair_nearest argsort _ _ m (axisRay z 1) (hs5 _ (by norm_num)) (hs1 _ (by norm_num)) (d := 5 - z) (by linarith)
      (le fun _ => by linarith) (le fun _ => by linarith) (le fun _ => by linarith) (le fun _ => by linarith)).1 (Or.inr ?_)
    rw [EReal.coe_eq_coe_iff]; ring

/-- non-vacuity of C95: a sphere of radius 5 around a mirror ball, and a ray on the axis between them. It is reflected by the ball and reaches the
sphere: if the sphere has no optical material, `trace()` raises and has recorded one row; if the ball has none it raises at once; if
a third surface has none it returns. -/
example (ha : IsArgsort argsort) : ∃ (n : ℕ) (t t' : Tracer), TracerOk t ∧ (∀ c ∈ t.components, Still c) ∧ Tracer.Traces n t t' ∧
    (∃ m e, t.TraceEnds (fun j => j = 0) m (.raised e) ∧ e.frame ≠ []) ∧
    (∃ m e, t.TraceEnds (fun j => j = 1) m (.raised e) ∧ e.frame = []) ∧ t.TraceEnds (fun j => j = 2) n (.returned t') := by
  set m : ℕ → Material := fun _ => .mirror with hm
  have ok := pair_ok argsort ha (.sphere 5) (.sphere 1) m 3 5
  have hlut := pair_lut argsort (.sphere 5) (.sphere 1) m 3 5
  set t := Tracer.new [fun _ => [axisCol 3 (-1) 100 0]] (pairParts argsort (.sphere 5) (.sphere 1) m) 1 5 with ht
  obtain ⟨n, t', h, -⟩ := C26_terminates t (by simp [ht, Tracer.new]) (by simp [ht, Tracer.new]) (fun s hs c hc => (ok.emits s hs c hc).1)
  have hstill : ∀ c ∈ t.components, Still c := by
    intro c hc
    simp only [ht, Tracer.new, pairParts, List.mem_map] at hc
    obtain ⟨a, ha', rfl⟩ := hc
    refine C95_still argsort 1 _ a fun f h => ?_
    obtain ⟨⟨k0, -⟩, ⟨k1, -⟩, -⟩ := pair_obj (.sphere 5) (.sphere 1) m
    simp only [List.mem_cons, List.not_mem_nil, or_false] at ha'
    rcases ha' with rfl | rfl
    · rw [k0]; simp
    · rw [k1]; simp
  have near0 : Nearest t.components (axisCol 3 (-1) 100 0).ray 2 1 := by
    have := (shell_nearest argsort m (z := 3) (by norm_num) (by norm_num)).1
    rwa [show (3 - 1 : ℝ) = 2 by norm_num] at this
  have he : Emitted t 0 (axisCol 3 (-1) 100 0) := ⟨axisCol 3 (-1) 100 0, rfl, by simp [axisCol]⟩
  have hx : ¬ Extinct (axisCol 3 (-1) 100 0) := not_extinct_of_unit (axis_norm (by norm_num))
  have hj := Journey.next (.start (t := t) (c0 := axisCol 3 (-1) 100 0)) hx near0 hlut
  have hnorm : surfaceNormal (pair (.sphere 5) (.sphere 1) m).heap 1 (point 0 0 1) = vector 0 0 1 := by
    have e := ball_normal .mirror (z := 1) one_ne_zero
    rw [abs_one, div_one] at e
    rw [← e]
    obtain ⟨-, ⟨k1, t1, -, s1⟩, -⟩ := pair_obj (.sphere 5) (.sphere 1) m
    obtain ⟨k2, t2, -, s2, -⟩ := ball_obj .mirror
    simp only [surfaceNormal, k1, k2, worldNormal, t1, t2, s1, s2]
  have hray : ∀ c : Col, c = moved { (m 1).trace (surfaceNormal (pair (.sphere 5) (.sphere 1) m).heap 1) (moved (axisCol 3 (-1) 100 0) 2) with generation := ((0 : ℕ) : ℝ) + 1 } t.offset →
      c.ray = axisRay (1 + 1e-6) 1 := by
    rintro c rfl
    have hp : (moved (axisCol 3 (-1) 100 0) 2).ray.o = point 0 0 1 := by
      simp only [moved, axisCol, axisRay]
      funext l; fin_cases l <;> simp [point, vector]
      norm_num
    have ho : t.offset = 1e-6 := rfl
    rw [show m 1 = .mirror from rfl]
    simp only [Material.trace, hp, hnorm, ho]
    simp only [moved, axisCol, axisRay, Ray.mk.injEq]
    constructor
    · funext l; fin_cases l <;> simp [point, vector, dot4]
      norm_num
    · funext l; fin_cases l <;> simp [vector, dot4]
      norm_num
  have near1 := (shell_nearest argsort m (z := 1 + 1e-6) (by norm_num) (by norm_num)).2
  rw [← hray _ rfl] at near1
  obtain ⟨r0, hr0⟩ := segment_exists (axisCol 3 (-1) 100 0) 2 1
  have hm0 : r0 ∈ t'.frame := (trace_iff ok h r0).2 ⟨0, 0, fun _ => by simp [ht, Tracer.new], _, _, _, _, he, .start, hx, near0, hr0⟩
  have hg0 : r0.generation = 0 := by rw [hr0.generation]; simp [axisCol]
  have hx1 : ¬ Extinct (moved { (m 1).trace (surfaceNormal (pair (.sphere 5) (.sphere 1) m).heap 1) (moved (axisCol 3 (-1) 100 0) 2) with generation := ((0 : ℕ) : ℝ) + 1 } t.offset) := by
    apply not_extinct_of_unit
    rw [hray _ rfl]
    exact axis_norm (by norm_num)
  obtain ⟨r1, hr1⟩ := segment_exists (moved { (m 1).trace (surfaceNormal (pair (.sphere 5) (.sphere 1) m).heap 1) (moved (axisCol 3 (-1) 100 0) 2) with generation := ((0 : ℕ) : ℝ) + 1 } t.offset)
    (5 - (1 + 1e-6)) 0
  have hm1 : r1 ∈ t'.frame := (trace_iff ok h r1).2 ⟨0, 1, fun _ => by simp [ht, Tracer.new], _, _, _, _, he, hj, hx1, near1, hr1⟩
  have first : ∀ r ∈ t'.frame, r.surface = 0 → r.generation ≠ 0 := by
    intro r hr hs hg
    obtain ⟨i, g, -, hl⟩ := (trace_iff ok h r).1 hr
    have hgg := (hl.spec ok).1
    rw [hg] at hgg
    obtain rfl : g = 0 := by exact_mod_cast hgg.symm
    obtain ⟨c0, c, d, s, he', hj', -, hn, hseg⟩ := hl
    cases hj'
    obtain ⟨c', e1, e2⟩ := he'
    have : c0 = axisCol 3 (-1) 100 0 := by
      cases i with
      | zero => simp [ht, Tracer.new] at e1; subst e1; rw [e2]; simp [axisCol]
      | succ i => simp [ht, Tracer.new] at e1
    subst this
    have := (near0.unique hn).2
    rw [hseg.surface, ← this] at hs
    norm_num at hs
  have nonneg : ∀ r ∈ t'.frame, 0 ≤ r.generation := by
    intro r hr
    obtain ⟨i, g, -, hl⟩ := (trace_iff ok h r).1 hr
    rw [(hl.spec ok).1]
    positivity
  refine ⟨n, t, t', ok, hstill, h, ?_, ?_, ?_⟩
  · obtain ⟨a, -, b⟩ := C95_bare_partial (bare := fun j => j = 0) ok hstill h
    obtain ⟨m', e, hme⟩ := a.2 ⟨r1, hm1, by rw [hr1.surface]⟩
    obtain ⟨r, hr, hs, -, hf⟩ := b m' e hme
    refine ⟨m', e, hme, List.ne_nil_of_mem (a := r0) ?_⟩
    rw [hf, List.mem_filter, decide_eq_true_eq, hg0]
    exact ⟨hm0, lt_of_le_of_ne (nonneg r hr) (Ne.symm (first r hr hs))⟩
  · obtain ⟨a, -, b⟩ := C95_bare_partial (bare := fun j => j = 1) ok hstill h
    obtain ⟨m', e, hme⟩ := a.2 ⟨r0, hm0, by rw [hr0.surface]⟩
    obtain ⟨r, hr, hs, hmin, hf⟩ := b m' e hme
    refine ⟨m', e, hme, ?_⟩
    rw [hf, List.filter_eq_nil_iff]
    intro r' hr'
    rw [decide_eq_true_eq, not_lt]
    have := hmin r0 hm0 hr0.surface
    rw [hg0] at this
    exact this.trans (nonneg r' hr')
  · refine (C95_bare_partial (bare := fun j => j = 2) ok hstill h).2.1 fun r hr hs => ?_
    obtain ⟨i, g, -, c0, c, d, s, -, -, -, hn, hseg⟩ := (trace_iff ok h r).1 hr
    obtain ⟨-, f, hf⟩ := ok.nearest_lut hn
    rw [hseg.surface] at hs
    subst hs
    have hlt : t.lut = (pairParts argsort (.sphere 5) (.sphere 1) m).flatMap Component.surfaces := rfl
    rw [hlt, List.mem_flatMap] at hf
    obtain ⟨x, hx, hf⟩ := hf
    obtain ⟨a, ha', rfl⟩ := List.mem_map.1 hx
    obtain ⟨⟨k0, -, i0, -⟩, ⟨k1, -, i1, -⟩, -⟩ := pair_obj (.sphere 5) (.sphere 1) m
    simp only [List.mem_cons, List.not_mem_nil, or_false] at ha'
    simp only [Scene.component, List.mem_map] at hf
    obtain ⟨y, hy, e⟩ := hf
    have e1 : (y.1 : ℤ) = 2 := congrArg Prod.fst e
    rcases ha' with rfl | rfl
    · rw [surfaceIds] at hy
      simp only [k0, i0, List.mem_singleton] at hy
      rw [hy] at e1; norm_num at e1
    · rw [surfaceIds] at hy
      simp only [k1, i1, List.mem_singleton] at hy
      rw [hy] at e1; norm_num at e1

end PyRayT
