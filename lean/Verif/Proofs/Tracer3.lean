import Verif.Proofs.Tracer2

/-! Invariants along the journey of a ray, and the rows of a finished trace. -/

namespace PyRayT

open Classical Spec

/-! ### emitted rays -/

theorem sourceRays_getElem? (t : Tracer) (i : ℕ) (c : Col) :
    (sourceRays t.sources t.raysPerSource)[i]? = some c ↔ Emitted t i c := by
  unfold sourceRays Emitted
  rw [List.getElem?_map, List.getElem?_zipIdx]
  simp only [Option.map_map, Option.map_eq_some_iff, Function.comp_apply, zero_add]
  constructor
  · rintro ⟨a, h1, h2⟩; exact ⟨a, h1, h2.symm⟩
  · rintro ⟨a, h1, h2⟩; exact ⟨a, h1, h2.symm⟩

theorem mem_sourceRays (t : Tracer) (c : Col) : c ∈ sourceRays t.sources t.raysPerSource ↔ ∃ i, Emitted t i c := by
  rw [List.mem_iff_getElem?]
  simp only [sourceRays_getElem?]

theorem Spec.Emitted.unique {t : Tracer} {i : ℕ} {c c' : Col} (h : Emitted t i c) (h' : Emitted t i c') : c = c' := by
  rw [← sourceRays_getElem?] at h h'
  rw [h] at h'
  exact Option.some.inj h'

theorem Spec.Emitted.id {t : Tracer} {i : ℕ} {c : Col} (h : Emitted t i c) : c.id = i := by
  obtain ⟨c', -, rfl⟩ := h; rfl

theorem Spec.Emitted.index_unique {t : Tracer} {i j : ℕ} {c : Col} (h : Emitted t i c) (h' : Emitted t j c) : i = j := by
  have := h.id.symm.trans h'.id
  exact_mod_cast this

theorem Spec.TracerOk.emitted {t : Tracer} (ok : TracerOk t) {i : ℕ} {c : Col} (h : Emitted t i c) :
    c.generation = 0 ∧ c.ray.o 3 = 1 ∧ c.ray.d 3 = 0 ∧ norm4 c.ray.d = 1 := by
  obtain ⟨c', h1, rfl⟩ := h
  obtain ⟨s, h2, h3⟩ := List.mem_flatMap.1 (List.mem_of_getElem? h1)
  exact ok.emits s h2 c' h3

/-! ### invariants of a journey -/

/-- what stays true of a ray -/
structure OnTheWay (c0 : Col) (g : ℕ) (c : Col) : Prop where
  generation : c.generation = g
  id : c.id = c0.id
  intensity : c.intensity = c0.intensity
  wavelength : c.wavelength = c0.wavelength
  pos : c.ray.o 3 = 1
  dir : c.ray.d 3 = 0
  unit : norm4 c.ray.d = 1 ∨ c.ray.d = 0

theorem Spec.Journey.onTheWay {t : Tracer} (ok : TracerOk t) {i : ℕ} {c0 : Col} (he : Emitted t i c0) {g : ℕ} {c : Col}
    (h : Journey t c0 g c) : OnTheWay c0 g c := by
  induction h with
  | start =>
    obtain ⟨h1, h2, h3, h4⟩ := ok.emitted he
    exact ⟨by rw [h1]; simp, rfl, rfl, rfl, h2, h3, Or.inl h4⟩
  | @next g c d s f hj hx hn hf ih =>
    have m := ok.materials _ hf
    have hu : norm4 c.ray.d = 1 := by
      rcases ih.unit with h | h
      · exact h
      · exact absurd (by unfold Extinct; rw [h]; simp [norm4]; norm_num) hx
    have hd3 : (moved c d).ray.d 3 = 0 := ih.dir
    refine ⟨by simp [moved], ?_, ?_, ?_, ?_, ?_, ?_⟩
    · show (f (moved c d)).id = _
      rw [m.id]; exact ih.id
    · show (f (moved c d)).intensity = _
      rw [m.intensity]; exact ih.intensity
    · show (f (moved c d)).wavelength = _
      rw [m.wavelength]; exact ih.wavelength
    · show (f (moved c d)).ray.o 3 + t.offset * (f (moved c d)).ray.d 3 = 1
      rw [m.origin, m.dir _ hd3]
      show c.ray.o 3 + d * c.ray.d 3 + t.offset * 0 = 1
      rw [ih.pos, ih.dir]; ring
    · exact m.dir _ hd3
    · exact m.unit _ hd3 hu

theorem OnTheWay.unit_of {c0 c : Col} {g : ℕ} (h : OnTheWay c0 g c) (hx : ¬ Extinct c) : norm4 c.ray.d = 1 := by
  rcases h.unit with h | h
  · exact h
  · exact absurd (by unfold Extinct; rw [h]; simp [norm4]; norm_num) hx

theorem extinct_zero {c : Col} (h : c.ray.d = 0) : Extinct c := by
  unfold Extinct; rw [h]; simp [norm4]; norm_num

theorem not_extinct_of_unit {c : Col} (h : norm4 c.ray.d = 1) : ¬ Extinct c := by
  unfold Extinct; rw [h]; norm_num

/-- a ray that sets out for the `g+1`-th time has set out for the `g`-th time before, and left a row -/
theorem Spec.Journey.pred {t : Tracer} {c0 c : Col} {g : ℕ} (h : Journey t c0 (g + 1) c) :
    ∃ c' d s f, Journey t c0 g c' ∧ ¬ Extinct c' ∧ Nearest t.components c'.ray d s ∧ (s, f) ∈ t.lut ∧
      c = moved { f (moved c' d) with generation := (g : ℝ) + 1 } t.offset := by
  cases h with
  | next a b c d => exact ⟨_, _, _, _, a, b, c, d, rfl⟩

theorem Spec.Journey.earlier {t : Tracer} {c0 c : Col} {g : ℕ} (h : Journey t c0 g c) : ∀ k < g, ∃ c' d s f, Journey t c0 k c' ∧
    ¬ Extinct c' ∧ Nearest t.components c'.ray d s ∧ (s, f) ∈ t.lut := by
  induction g generalizing c with
  | zero => intro k hk; omega
  | succ g ih =>
    intro k hk
    obtain ⟨c', d, s, f, h1, h2, h3, h4, -⟩ := h.pred
    by_cases e : k = g
    · subst e; exact ⟨c', d, s, f, h1, h2, h3, h4⟩
    · exact ih h1 k (by omega)

/-! ### rows -/

/-- the row of a segment exists -/
theorem segment_exists (c : Col) (d : ℝ) (s : ℤ) : ∃ r, Segment c d s r :=
  ⟨⟨c.generation, c.intensity, c.wavelength, c.index, c.id, s, fun i => c.ray.o i.castSucc,
    fun i => c.ray.o i.castSucc + d * c.ray.d i.castSucc,
    fun i => c.ray.d i.castSucc / √(c.ray.d 0 ^ 2 + c.ray.d 1 ^ 2 + c.ray.d 2 ^ 2)⟩, rfl, rfl, rfl, rfl, rfl, rfl,
    fun _ => rfl, fun _ => rfl, fun _ => rfl⟩

theorem mem_rowsAt {t : Tracer} (ok : TracerOk t) (g : ℕ) (r : Row) : r ∈ t.rowsAt g ↔ ∃ i, Leaves t i g r := by
  unfold Tracer.rowsAt Leaves
  simp only [List.mem_filterMap, mem_sourceRays, rowAt_iff ok]
  constructor
  · rintro ⟨c0, ⟨i, he⟩, c, d, s, h⟩; exact ⟨i, c0, c, d, s, he, h⟩
  · rintro ⟨i, c0, c, d, s, he, h⟩; exact ⟨c0, ⟨i, he⟩, c, d, s, h⟩

theorem Spec.Leaves.spec {t : Tracer} (ok : TracerOk t) {i g : ℕ} {r : Row} (h : Leaves t i g r) :
    r.generation = g ∧ r.id = i := by
  obtain ⟨c0, c, d, s, he, hj, hx, hn, hs⟩ := h
  have w := hj.onTheWay ok he
  exact ⟨hs.generation.trans w.generation, (hs.id.trans w.id).trans he.id⟩

theorem Spec.Leaves.unique {t : Tracer} (ok : TracerOk t) {i g : ℕ} {r r' : Row} (h : Leaves t i g r) (h' : Leaves t i g r') :
    r = r' := by
  obtain ⟨c0, c, d, s, he, hj, hx, hn, hs⟩ := h
  obtain ⟨c0', c', d', s', he', hj', hx', hn', hs'⟩ := h'
  obtain rfl := he.unique he'
  obtain rfl := hj.unique ok hj'
  obtain ⟨rfl, rfl⟩ := hn.unique hn'
  exact hs.unique hs'

theorem Spec.Leaves.earlier {t : Tracer} {i g : ℕ} {r : Row} (h : Leaves t i g r) {k : ℕ} (hk : k < g) :
    ∃ r', Leaves t i k r' := by
  obtain ⟨c0, c, d, s, he, hj, hx, hn, hs⟩ := h
  obtain ⟨c', d', s', f', h1, h2, h3, h4⟩ := hj.earlier k hk
  obtain ⟨r', hr'⟩ := segment_exists c' d' s'
  exact ⟨r', c0, c', d', s', he, h1, h2, h3, hr'⟩

/-- rows are recorded up to the generation limit, if it is positive -/
theorem trace_iff {n : ℕ} {t t' : Tracer} (ok : TracerOk t) (h : Tracer.Traces n t t') (r : Row) :
    r ∈ t'.frame ↔ ∃ i g : ℕ, (0 < t.limit → (g : ℤ) < t.limit) ∧ Leaves t i g r := by
  obtain ⟨-, G, hd, hne, hlim, -⟩ := h.result
  rw [hd.frame, List.mem_flatMap]
  simp only [List.mem_range, mem_rowsAt ok]
  constructor
  · rintro ⟨g, hg, i, hl⟩
    refine ⟨i, g, fun hp => ?_, hl⟩
    by_contra hc
    refine hlim t.limit.toNat (by omega) (by omega) (by omega)
  · rintro ⟨i, g, hg, hl⟩
    refine ⟨g, ?_, i, hl⟩
    by_contra hc
    rcases hd.stopped with hs | ⟨hp, hs⟩
    · have hG : ∃ r', Leaves t i G r' := by
        by_cases e : G = g
        · subst e; exact ⟨r, hl⟩
        · exact hl.earlier (by omega)
      obtain ⟨r', hr'⟩ := hG
      have : r' ∈ t.rowsAt G := (mem_rowsAt ok G r').2 ⟨i, hr'⟩
      rw [hs] at this
      cases this
    · have := hg (by omega)
      omega

/-- order of the rows of one generation -/
theorem rowsAt_sorted {t : Tracer} (ok : TracerOk t) (g : ℕ) :
    (t.rowsAt g).Pairwise fun r r' => r.id < r'.id := by
  have key : ∀ (l : List Col) (k : ℕ), (∀ (i : ℕ) (c : Col), l[i]? = some c → Emitted t (k + i) c) →
      (l.filterMap (t.rowAt g)).Pairwise (fun r r' => r.id < r'.id) ∧ ∀ r ∈ l.filterMap (t.rowAt g), (k : ℝ) ≤ r.id := by
    intro l
    induction l with
    | nil => intro k _; simp
    | cons c l ih =>
      intro k hl
      have hc := hl 0 c rfl
      obtain ⟨i1, i2⟩ := ih (k + 1) (fun i c' hc' => by
        have := hl (i + 1) c' hc'
        rwa [show k + (i + 1) = k + 1 + i by omega] at this)
      have hrow : ∀ r, t.rowAt g c = some r → r.id = k := by
        intro r hr
        obtain ⟨c1, d, s, h1, h2, h3, h4⟩ := (rowAt_iff ok g c r).1 hr
        rw [h4.id, (h1.onTheWay ok hc).id, hc.id]; simp
      rw [List.filterMap_cons]
      cases hr : t.rowAt g c with
      | none => exact ⟨i1, fun r hm => by have := i2 r hm; push_cast at this; linarith⟩
      | some r0 =>
        have e0 := hrow r0 hr
        refine ⟨List.pairwise_cons.2 ⟨fun r hm => ?_, i1⟩, fun r hm => ?_⟩
        · have := i2 r hm; push_cast at this; rw [e0]; linarith
        · rcases List.mem_cons.1 hm with rfl | hm
          · rw [e0]
          · have := i2 r hm; push_cast at this; linarith
  exact (key _ 0 fun i c hc => by rw [zero_add]; exact (sourceRays_getElem? t i c).1 hc).1

theorem trace_sorted {n : ℕ} {t t' : Tracer} (ok : TracerOk t) (h : Tracer.Traces n t t') :
    t'.frame.Pairwise fun r r' => r.generation < r'.generation ∨ (r.generation = r'.generation ∧ r.id < r'.id) := by
  obtain ⟨-, G, hd, -⟩ := h.result
  rw [hd.frame, List.pairwise_flatMap]
  refine ⟨fun g _ => ?_, ?_⟩
  · refine List.Pairwise.imp_of_mem ?_ (rowsAt_sorted ok g)
    intro r r' hr hr' hlt
    right
    obtain ⟨i, hi⟩ := (mem_rowsAt ok g r).1 hr
    obtain ⟨i', hi'⟩ := (mem_rowsAt ok g r').1 hr'
    exact ⟨(hi.spec ok).1.trans (hi'.spec ok).1.symm, hlt⟩
  · refine List.pairwise_lt_range.imp ?_
    intro g g' hgg r hr r' hr'
    left
    obtain ⟨i, hi⟩ := (mem_rowsAt ok g r).1 hr
    obtain ⟨i', hi'⟩ := (mem_rowsAt ok g' r').1 hr'
    rw [(hi.spec ok).1, (hi'.spec ok).1]
    exact_mod_cast hgg

/-- two traces with the same rows ray by ray -/
theorem frame_eq_of_rowAt {n m : ℕ} {t1 t2 t1' t2' : Tracer} (h1 : Tracer.Traces n t1 t1') (h2 : Tracer.Traces m t2 t2')
    (hl : t2.limit = t1.limit) (hs : sourceRays t2.sources t2.raysPerSource = sourceRays t1.sources t1.raysPerSource)
    (hr : ∀ k, ∀ c ∈ sourceRays t1.sources t1.raysPerSource, t2.rowAt k c = t1.rowAt k c) : t2'.frame = t1'.frame := by
  refine Tracer.frame_eq_of h1 h2 hl fun k => ?_
  unfold Tracer.rowsAt
  rw [hs]
  exact List.filterMap_congr (hr k)

end PyRayT
