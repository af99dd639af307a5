import Verif.Props.Tracer2

/-!
# C93, C94: what a trace does not depend on

A smaller generation limit cuts the result off; components that no ray reaches have no effect.
-/

namespace PyRayT

open Classical Matrix Spec

variable (argsort : List EReal → List ℕ)

/-! ### C93 generation limits -/

theorem rowsAt_limit (t : Tracer) (L : ℤ) (g : ℕ) : ({ t with limit := L } : Tracer).rowsAt g = t.rowsAt g := by
  have hs : ({ t with limit := L } : Tracer).colStep = t.colStep := rfl
  have hc : ∀ k, ({ t with limit := L } : Tracer).colAt k = t.colAt k := by
    intro k
    induction k with
    | zero => rfl
    | succ k ih => funext c; unfold Tracer.colAt; rw [ih, hs]
  unfold Tracer.rowsAt Tracer.rowAt
  rw [hc, hs]

theorem rowsAt_generation {t : Tracer} (h0 : ∀ s ∈ t.sources, ∀ c ∈ s t.raysPerSource, c.generation = 0) {g : ℕ} {r : Row}
    (hr : r ∈ t.rowsAt g) : r.generation = g := by
  obtain ⟨c, hc, hr⟩ := List.mem_filterMap.1 hr
  refine rowAt_generation ?_ hr
  obtain ⟨i, c', hc', rfl⟩ := (mem_sourceRays t c).1 hc
  obtain ⟨s, h2, h3⟩ := List.mem_flatMap.1 (List.mem_of_getElem? hc')
  exact h0 s h2 c' h3

/-- **C93.** The same tracer with two generation limits, the second larger or not positive (no limit): the result for the first is
the beginning of the result for the second, and consists of exactly the rows with generation numbers below the first limit, in
the same order. For all components and materials. -/
theorem C93_limit {n m : ℕ} {t t1 t2 : Tracer} {L1 L2 : ℤ} (h0 : ∀ s ∈ t.sources, ∀ c ∈ s t.raysPerSource, c.generation = 0)
    (h1 : Tracer.Traces n (t.setGenerationLimit L1) t1) (h2 : Tracer.Traces m (t.setGenerationLimit L2) t2) (hL1 : 1 ≤ L1)
    (hL : L2 ≤ 0 ∨ L1 ≤ L2) :
    t1.frame <+: t2.frame ∧ t1.frame = t2.frame.filter fun r => r.generation < (L1 : ℝ) := by
  obtain ⟨-, G1, d1, n1, l1, -⟩ := h1.result
  obtain ⟨-, G2, d2, n2, l2, -⟩ := h2.result
  have e1 := d1.frame
  have e2 := d2.frame
  have r1 := d1.stopped
  have r2 := d2.stopped
  have k1 : ∀ g, (t.setGenerationLimit L1).rowsAt g = t.rowsAt g := rowsAt_limit t L1
  have k2 : ∀ g, (t.setGenerationLimit L2).rowsAt g = t.rowsAt g := rowsAt_limit t L2
  rw [funext k1] at e1 r1
  rw [funext k2] at e2 r2
  simp only [k1] at n1
  simp only [k2] at n2
  simp only [Tracer.setGenerationLimit] at l1 l2 r1 r2
  have hG1 : (G1 : ℤ) ≤ L1 := by
    by_contra hc
    exact l1 L1.toNat (by omega) (by omega) (by omega)
  have hle : G1 ≤ G2 := by
    by_contra hc
    rcases r2 with e | ⟨hp, e⟩
    · exact n1 G2 (by omega) e
    · rcases hL with h | h <;> omega
  have hcut : G1 < G2 → (G1 : ℤ) = L1 := by
    intro hlt
    rcases r1 with e | ⟨hp, e⟩
    · exact absurd e (n2 G1 hlt)
    · exact e
  obtain ⟨k, rfl⟩ : ∃ k, G2 = G1 + k := ⟨G2 - G1, by omega⟩
  rw [List.range_add, List.flatMap_append, ← e1] at e2
  refine ⟨⟨_, e2.symm⟩, ?_⟩
  rw [e2, List.filter_append]
  have a1 : (t1.frame.filter fun r => r.generation < (L1 : ℝ)) = t1.frame := by
    rw [List.filter_eq_self]
    intro r hr
    rw [e1, List.mem_flatMap] at hr
    obtain ⟨g, hg, hr⟩ := hr
    have := List.mem_range.1 hg
    rw [decide_eq_true_eq, rowsAt_generation h0 hr]
    exact_mod_cast (show (g : ℤ) < L1 by omega)
  have a2 : ((((List.range k).map (G1 + ·)).flatMap t.rowsAt).filter fun r => r.generation < (L1 : ℝ)) = [] := by
    rw [List.filter_eq_nil_iff]
    intro r hr
    rw [List.mem_flatMap] at hr
    obtain ⟨g, hg, hr⟩ := hr
    obtain ⟨j, hj, rfl⟩ := List.mem_map.1 hg
    have := List.mem_range.1 hj
    have hc := hcut (by omega)
    rw [decide_eq_true_eq, rowsAt_generation h0 hr, not_lt]
    exact_mod_cast (show L1 ≤ ((G1 + j : ℕ) : ℤ) by push_cast; omega)
  rw [a1, a2, List.append_nil]

/-- non-vacuity of C93: a ray in a spherical mirror, with the limits 1 and 3, and the longer result is longer -/
example (ha : IsArgsort argsort) : ∃ n m t1 t2,
    Tracer.Traces n ((ballTracer argsort .mirror 0 1 100 3).setGenerationLimit 1) t1 ∧
    Tracer.Traces m ((ballTracer argsort .mirror 0 1 100 3).setGenerationLimit 3) t2 ∧
    t1.frame <+: t2.frame ∧ ∃ r ∈ t2.frame, r ∉ t1.frame := by
  have hσ : (1 : ℝ) ^ 2 = 1 := by norm_num
  have ok := fun l => ballTracer_ok argsort ha .mirror (z := 0) hσ 100 l
  have h0 : ∀ s ∈ (ballTracer argsort .mirror 0 1 100 3).sources, ∀ c ∈ s (ballTracer argsort .mirror 0 1 100 3).raysPerSource, c.generation = 0 :=
    fun s hs c hc => ((ok 3).emits s hs c hc).1
  obtain ⟨n, t1, h1, -⟩ := C26_terminates ((ballTracer argsort .mirror 0 1 100 3).setGenerationLimit 1) (le_refl _)
    (by simp [ballTracer, Tracer.new, Tracer.setGenerationLimit]) h0
  obtain ⟨m, t2, h2, -⟩ := C26_terminates ((ballTracer argsort .mirror 0 1 100 3).setGenerationLimit 3) (by simp [Tracer.setGenerationLimit])
    (by simp [ballTracer, Tracer.new, Tracer.setGenerationLimit]) h0
  obtain ⟨e1, e2⟩ := C93_limit h0 h1 h2 (le_refl _) (Or.inr (by norm_num))
  refine ⟨n, m, t1, t2, h1, h2, e1, ?_⟩
  have h2' : Tracer.Traces m (ballTracer argsort .mirror 0 1 100 3) t2 := h2
  obtain ⟨z', σ', a1, a2, hj⟩ := resonator argsort 0 1 hσ (by simp) 100 3 1
  obtain ⟨r, hr⟩ := segment_exists (axisCol z' σ' 100 1) (1 - σ' * z') 0
  refine ⟨r, (trace_iff (ok 3) h2' r).2 ⟨0, 1, fun _ => ?_, ?_⟩, fun hm => ?_⟩
  · show (1 : ℤ) < 3; norm_num
  · exact ⟨_, _, _, _, ballTracer_emitted argsort _ _ _ _ _, hj, not_extinct_of_unit (axis_norm a1), ball_nearest argsort .mirror a1 a2 0, hr⟩
  · rw [e2, List.mem_filter, decide_eq_true_eq, hr.generation] at hm
    simp [axisCol] at hm

/-! ### C94 components that no ray reaches -/

/-- as `traces_congr`, with the rows up to the limit only -/
theorem traces_congr_upto {n : ℕ} {t1 t2 t1' : Tracer} (h1 : Tracer.Traces n t1 t1') (hs : t2.sources ≠ [])
    (hl : t2.limit = t1.limit) (hr : ∀ k : ℕ, (0 < t1.limit → (k : ℤ) < t1.limit) → t2.rowsAt k = t1.rowsAt k) :
    ∃ t2', Tracer.Traces n t2 t2' ∧ t2'.frame = t1'.frame := by
  obtain ⟨-, G, hd, hne, hlim, hn⟩ := h1.result
  have hG : 0 < t1.limit → (G : ℤ) ≤ t1.limit := by
    intro hp
    by_contra hc
    exact hlim t1.limit.toNat (by omega) (by omega) (by omega)
  have hstop : t2.rowsAt G = [] ∨ (0 < G ∧ (G : ℤ) = t1.limit) := by
    rcases hd.stopped with e | h
    · by_cases hg : 0 < G ∧ (G : ℤ) = t1.limit
      · exact Or.inr hg
      · refine Or.inl ((hr G fun hp => ?_).trans e)
        have := hG hp
        rcases Nat.eq_zero_or_pos G with h | h
        · omega
        · by_contra hc
          exact hg ⟨h, by omega⟩
    · exact Or.inr h
  have hlt : ∀ k < G, t2.rowsAt k = t1.rowsAt k := fun k hk => hr k fun hp => by have := hG hp; omega
  have : ∃ m t', Tracer.Traces m t2 t' := by
    rcases hstop with e | ⟨hp, e⟩
    · exact Tracer.traces_of hs G (Or.inl e)
    · exact Tracer.traces_of hs (G - 1) (Or.inr (by rw [hl, ← e]; congr 1; omega))
  obtain ⟨m, t2', h2⟩ := this
  obtain ⟨-, H, hd', hne', hlim', hn'⟩ := h2.result
  have e : G = H := by
    rcases lt_trichotomy G H with h | h | h
    · rcases hstop with hs | ⟨hp, hs⟩
      · exact absurd hs (hne' G h)
      · exact absurd (hs.trans hl.symm) (hlim' G hp h)
    · exact h
    · rcases hd'.stopped with hs | ⟨hp, hs⟩
      · exact absurd ((hlt H h).symm.trans hs) (hne H h)
      · exact absurd (hs.trans hl) (hlim H hp h)
  subst e
  have em : n = m := by
    rcases hn with ⟨a1, a2, a3⟩ | ⟨a1, a2, a3⟩ <;> rcases hn' with ⟨b1, b2, b3⟩ | ⟨b1, b2, b3⟩
    · omega
    · exact absurd (b2.trans hl) (a3 b1)
    · exact absurd (a2.trans hl.symm) (b3 a1)
    · omega
  subst em
  refine ⟨t2', h2, ?_⟩
  rw [hd'.frame, hd.frame]
  exact List.flatMap_congr fun k hk => hlt k (List.mem_range.1 hk)

/-- a surface id belongs to one position of the component list only -/
theorem surface_position {cs : List Component} (hnd : ((cs.flatMap Component.surfaces).map Prod.fst).Nodup) {k k' : ℕ} {c c' : Component}
    (hc : cs[k]? = some c) (hc' : cs[k']? = some c') {s : ℤ} {f f' : Col → Col} (hs : (s, f) ∈ c.surfaces) (hs' : (s, f') ∈ c'.surfaces) :
    k = k' := by
  rw [List.map_flatMap, List.nodup_flatMap] at hnd
  have hp := hnd.2
  rw [List.pairwise_iff_getElem] at hp
  obtain ⟨hk, rfl⟩ := List.getElem?_eq_some_iff.1 hc
  obtain ⟨hk', rfl⟩ := List.getElem?_eq_some_iff.1 hc'
  rcases lt_trichotomy k k' with h | h | h
  · exact absurd (List.mem_map.2 ⟨_, hs', rfl⟩) (hp k k' hk hk' h (List.mem_map.2 ⟨_, hs, rfl⟩))
  · exact h
  · exact absurd (List.mem_map.2 ⟨_, hs, rfl⟩) (hp k' k hk' hk h (List.mem_map.2 ⟨_, hs', rfl⟩))

theorem Spec.Nearest.sublist {cs cs' : List Component} (hok : ∀ c ∈ cs, ComponentOk c)
    (hnd : ((cs.flatMap Component.surfaces).map Prod.fst).Nodup) (hsub : cs'.Sublist cs) {ray : Ray} {d : ℝ} {s : ℤ}
    (h : Nearest cs ray d s) (hs : ∃ c ∈ cs', ∃ f, (s, f) ∈ c.surfaces) : Nearest cs' ray d s := by
  obtain ⟨p, m, k, c, i, h1, h2, h3, h4, h5⟩ := h
  obtain ⟨c', hc', f', hf'⟩ := hs
  obtain ⟨e, he⟩ := List.sublist_iff_exists_orderEmbedding_getElem?_eq.1 hsub
  obtain ⟨j, hj⟩ := List.mem_iff_getElem?.1 hc'
  obtain ⟨f, hf⟩ := (hok c (List.mem_of_getElem? h1)).labels ray i d s h3 (EReal.coe_ne_top d) h5
  have hk : e j = k := surface_position hnd (by rw [← he, hj]) h1 hf' hf
  refine ⟨p, fun x hx => m x (hsub.subset hx), j, c, i, by rw [he, hk, h1], fun l hl x hx => ?_, h3, h4, h5⟩
  refine h2 (e l) (by rw [← hk]; exact e.lt_iff_lt.2 hl) x ?_
  rw [← he, hx]

/-- **C94.** If all rows of a result end on surfaces of some of the components, a tracer over these components alone (in the same
order) gives the same result: components that no ray reaches have no effect, whatever their shape and material. -/
theorem C94_unreached {n : ℕ} {t t' : Tracer} (ok : TracerOk t) (h : Tracer.Traces n t t') {cs : List Component}
    (hsub : cs.Sublist t.components) (hrows : ∀ r ∈ t'.frame, ∃ c ∈ cs, ∃ f, (r.surface, f) ∈ c.surfaces) :
    ∃ u', Tracer.Traces n { t with components := cs, lut := cs.flatMap Component.surfaces } u' ∧ u'.frame = t'.frame := by
  set u : Tracer := { t with components := cs, lut := cs.flatMap Component.surfaces } with hu
  have hlsub : (cs.flatMap Component.surfaces).Sublist t.lut := by
    rw [ok.lut]; exact hsub.flatMap _
  have oku : TracerOk u := ⟨fun c hc => ok.comps c (hsub.subset hc), rfl, (hlsub.map _).nodup ok.nodup,
    fun e he => ok.materials e (hlsub.subset he), ok.emits⟩
  have hnd : ((t.components.flatMap Component.surfaces).map Prod.fst).Nodup := by rw [← ok.lut]; exact ok.nodup
  have hlen : ∀ c ∈ t.components, ∀ ray, (c.intersect ray).2.length = (c.intersect ray).1.length :=
    fun c hc => (ok.comps c hc).len
  have reached : ∀ {i c0 c d s} {g : ℕ}, (0 < t.limit → (g : ℤ) < t.limit) → Emitted t i c0 → Journey t c0 g c → ¬ Extinct c →
      Nearest t.components c.ray d s → (∃ c ∈ cs, ∃ f, (s, f) ∈ c.surfaces) ∧ Nearest cs c.ray d s := by
    intro i c0 c d s g hg he hj hx hn
    obtain ⟨r, hr⟩ := segment_exists c d s
    obtain ⟨x, hx', f, hf⟩ := hrows r ((trace_iff ok h r).2 ⟨i, g, hg, c0, c, d, s, he, hj, hx, hn, hr⟩)
    rw [hr.surface] at hf
    exact ⟨⟨x, hx', f, hf⟩, hn.sublist ok.comps hnd hsub ⟨x, hx', f, hf⟩⟩
  have back : ∀ {i c0 c d s} {g : ℕ}, (0 < t.limit → (g : ℤ) < t.limit) → Emitted t i c0 → Journey t c0 g c → ¬ Extinct c →
      Nearest cs c.ray d s → Nearest t.components c.ray d s := by
    intro i c0 c d s g hg he hj hx hn
    rcases hitOf_spec hlen c.ray with ⟨hm, -⟩ | ⟨d', s', hn', -⟩
    · exact absurd (fun c hc => hm c (hsub.subset hc)) hn.not_miss
    · obtain ⟨rfl, rfl⟩ := (reached hg he hj hx hn').2.unique hn
      exact hn'
  have lutu : ∀ {s f}, (s, f) ∈ t.lut → (∃ c ∈ cs, ∃ f, (s, f) ∈ c.surfaces) → (s, f) ∈ u.lut := by
    rintro s f hf ⟨c, hc, f', hf'⟩
    have hm : (s, f') ∈ u.lut := List.mem_flatMap.2 ⟨c, hc, hf'⟩
    rwa [lut_unique ok.nodup hf (hlsub.subset hm)]
  have hj1 : ∀ {i c0 c} {g : ℕ}, (0 < t.limit → (g : ℤ) < t.limit) → Emitted t i c0 → Journey t c0 g c → Journey u c0 g c := by
    intro i c0 c g hg he hj
    induction hj with
    | start => exact .start
    | @next g c d s f hj hx hn hf ih =>
      have hg' : 0 < t.limit → (g : ℤ) < t.limit := fun hp => by have := hg hp; push_cast at this; omega
      obtain ⟨a, b⟩ := reached hg' he hj hx hn
      exact (ih hg').next hx b (lutu hf a)
  have hj2 : ∀ {i c0 c} {g : ℕ}, (0 < t.limit → (g : ℤ) < t.limit) → Emitted t i c0 → Journey u c0 g c → Journey t c0 g c := by
    intro i c0 c g hg he hj
    induction hj with
    | start => exact .start
    | @next g c d s f hj hx hn hf ih =>
      have hg' : 0 < t.limit → (g : ℤ) < t.limit := fun hp => by have := hg hp; push_cast at this; omega
      exact (ih hg').next hx (back hg' he (ih hg') hx hn) (hlsub.subset hf)
  refine traces_congr_upto h h.result.1 rfl fun k hk => ?_
  unfold Tracer.rowsAt
  show (sourceRays t.sources t.raysPerSource).filterMap (u.rowAt k) = _
  refine List.filterMap_congr fun c0 hc0 => ?_
  obtain ⟨i, he⟩ := (mem_sourceRays t c0).1 hc0
  apply Option.ext
  intro r
  rw [rowAt_iff oku, rowAt_iff ok]
  constructor
  · rintro ⟨c, d, s, a, b, c', e⟩
    have a' := hj2 hk he a
    exact ⟨c, d, s, a', b, back hk he a' b c', e⟩
  · rintro ⟨c, d, s, a, b, c', e⟩
    exact ⟨c, d, s, hj1 hk he a, b, (reached hk he a b c').2, e⟩

theorem screens_ok : TracerOk (Tracer.new [fun _ => [axisCol 0 1 100 0]] [screen 2 1, screen 1 0] 1 5) := by
  have hσ : (1 : ℝ) ^ 2 = 1 := by norm_num
  refine ⟨fun c hc => ?_, rfl, by simp [Tracer.new, screen], fun e he => ?_, fun s hs c hc => ?_⟩
  · simp only [Tracer.new, List.mem_cons, List.not_mem_nil, or_false] at hc
    rcases hc with rfl | rfl <;> refine ⟨fun _ => rfl, fun ray i v s h1 _ h2 => ?_, fun e he => ?_⟩
    · rcases i with _ | i <;> simp [screen] at h1 h2
      subst h2; exact ⟨_, List.mem_singleton.2 rfl⟩
    · simp [screen] at he; rw [he]; norm_num
    · rcases i with _ | i <;> simp [screen] at h1 h2
      subst h2; exact ⟨_, List.mem_singleton.2 rfl⟩
    · simp [screen] at he; rw [he]
  · simp [Tracer.new, screen] at he
    rcases he with rfl | rfl <;>
      exact ⟨fun _ => rfl, fun _ => rfl, fun _ => rfl, fun _ => rfl, fun _ => rfl, fun _ _ => rfl, fun _ _ _ => Or.inr rfl⟩
  · simp only [Tracer.new, List.mem_singleton] at hs
    subst hs
    simp only [List.mem_singleton] at hc
    subst hc
    exact ⟨by simp [axisCol], rfl, rfl, axis_norm hσ⟩

/-- non-vacuity of C94: of two screens the farther one, which comes first in the list, has no effect; the result is not empty -/
example : ∃ n t' u', Tracer.Traces n (Tracer.new [fun _ => [axisCol 0 1 100 0]] [screen 2 1, screen 1 0] 1 5) t' ∧
    Tracer.Traces n (Tracer.new [fun _ => [axisCol 0 1 100 0]] [screen 1 0] 1 5) u' ∧ u'.frame = t'.frame ∧ t'.frame ≠ [] := by
  have ok := screens_ok
  obtain ⟨n, t', h, -⟩ := C26_terminates (Tracer.new [fun _ => [axisCol 0 1 100 0]] [screen 2 1, screen 1 0] 1 5)
    (by simp [Tracer.new]) (by simp [Tracer.new]) (fun s hs c hc => (ok.emits s hs c hc).1)
  have hnear : ∀ ray, Nearest [screen 2 1, screen 1 0] ray 1 0 := by
    intro ray
    refine ⟨one_pos, fun c hc x hx _ => ?_, 1, screen 1 0, 0, rfl, fun j hj c' hc' hm => ?_, rfl, fun j hj => by omega, rfl⟩
    · simp only [List.mem_cons, List.not_mem_nil, or_false] at hc
      rcases hc with rfl | rfl <;> simp only [screen, List.mem_singleton] at hx <;> subst hx
      · exact EReal.coe_le_coe_iff.2 (by norm_num)
      · exact le_refl _
    · obtain rfl : j = 0 := by omega
      simp only [List.getElem?_cons_zero, Option.some.injEq] at hc'
      subst hc'
      simp only [screen, List.mem_singleton, EReal.coe_eq_coe_iff] at hm
      norm_num at hm
  obtain ⟨u', h1, h2⟩ := C94_unreached ok h (cs := [screen 1 0]) (List.Sublist.cons _ (List.Sublist.refl _)) (by
    intro r hr
    obtain ⟨i, g, -, c0, c, d, s, he, hj, hx, hn, hs⟩ := (trace_iff ok h r).1 hr
    obtain ⟨-, rfl⟩ := (hnear c.ray).unique hn
    exact ⟨screen 1 0, List.mem_singleton.2 rfl, _, by rw [hs.surface]; exact List.mem_singleton.2 rfl⟩)
  refine ⟨n, t', u', h, h1, h2, ?_⟩
  have he : Emitted (Tracer.new [fun _ => [axisCol 0 1 100 0]] [screen 2 1, screen 1 0] 1 5) 0 (axisCol 0 1 100 0) :=
    ⟨axisCol 0 1 100 0, rfl, by simp [axisCol]⟩
  obtain ⟨r, hr⟩ := segment_exists (axisCol 0 1 100 0) 1 0
  exact List.ne_nil_of_mem ((trace_iff ok h r).2 ⟨0, 0, fun _ => by simp [Tracer.new], _, _, _, _, he, .start,
    not_extinct_of_unit (axis_norm (by norm_num)), hnear _, hr⟩)

end PyRayT
