import Verif.Proofs.Tracer3
import Verif.Proofs.Resonator
import Verif.Props.Optics

/-!
# Properties C25 - C35, C57, C58, C60: ray tracing

`Tracer.Traces n t t'`: `trace()` called on the tracer `t` ends, after `n` iterations of its loop, in the state `t'`; the result is
`t'.frame`. `TracerOk t` (`Spec/Trace.lean`): `t` was made by the constructor from components whose surfaces have different ids, with
materials that change only direction and index, and sources that emit unit vectors; `scene_tracer_ok` below shows it for tracers
over arbitrary objects with the built-in materials. `Miss`, `Nearest`: what it means that a ray hits nothing, or hits surface `s` first,
at distance `d`.
-/

namespace PyRayT

open Classical Matrix Spec

variable (argsort : List EReal → List ℕ)

/-- Tracers over the objects of any history, with the built-in materials, meet `TracerOk` if no surface occurs twice. -/
theorem scene_tracer_ok (ha : IsArgsort argsort) (fuel : ℕ) (s : Scene) (hr : Reaches argsort fuel Heap.empty s.heap)
    (objs : List ℕ) (hlt : ∀ a ∈ objs, a < s.heap.size) (depth : ℕ)
    (hnd : (objs.flatMap fun a => (surfaceIds depth s.heap a).map Prod.snd).Nodup)
    (sources : List (ℕ → List Col)) (n : ℕ) (limit : ℤ)
    (hem : ∀ f ∈ sources, ∀ c ∈ f n, c.generation = 0 ∧ c.ray.o 3 = 1 ∧ c.ray.d 3 = 0 ∧ norm4 c.ray.d = 1) :
    TracerOk (Tracer.new sources (objs.map (s.component argsort depth)) n limit) :=
  scene_ok argsort ha hr hlt hnd hem

/-! ### C25 nearest hits -/

/-- **C25.** In every propagation step each ray gets the smallest positive distance any component reports, with the surface the
first component reporting it gives for it, or is marked as not hitting (`inf`, `-1`) if no component reports a positive distance. -/
theorem C25_nearest (t : Tracer) (hp : t.phase = .propagate)
    (hlen : ∀ c ∈ t.components, ∀ ray, (c.intersect ray).2.length = (c.intersect ray).1.length) :
    ∃ t', t.step = some t' ∧ t'.rays = t.rays ∧ t'.hits.length = t.rays.length ∧ ∀ (i : ℕ) (c : Col), t.rays[i]? = some c →
      (Miss t.components c.ray ∧ t'.hits[i]? = some (⊤, -1)) ∨
      ∃ (d : ℝ) (s : ℤ), Nearest t.components c.ray d s ∧ t'.hits[i]? = some ((d : EReal), s) := by
  refine ⟨t.stPropagate, Tracer.step_propagate hp, rfl, by simp [Tracer.stPropagate], fun i c hc => ?_⟩
  have e : t.stPropagate.hits[i]? = some (hitOf t.components c.ray) := by
    simp [Tracer.stPropagate, hc]
  rw [e]
  rcases hitOf_spec hlen c.ray with ⟨h1, h2⟩ | ⟨d, s, h1, h2⟩
  · exact Or.inl ⟨h1, by rw [h2]⟩
  · exact Or.inr ⟨d, s, h1, by rw [h2]⟩

/-- **C25, for objects.** If the components are objects of a heap, the nearest hit belongs to a leaf surface of one of them which,
intersected alone, reports this distance. -/
theorem C25_surface (ha : IsArgsort argsort) (s : Scene) (objs : List ℕ) (depth : ℕ) (ray : Ray) (d : ℝ) (k : ℤ)
    (h : Nearest (objs.map (s.component argsort depth)) ray d k) :
    ∃ a ∈ objs, ∃ x id : ℕ, (id, x) ∈ surfaceIds depth s.heap a ∧ k = id ∧
      (d : EReal) ∈ (intersectObj argsort 1 s.heap x ray).1 := by
  obtain ⟨-, -, j, c, i, h1, -, h3, -, h5⟩ := h
  obtain ⟨a, haa, rfl⟩ := List.mem_map.1 (List.mem_of_getElem? h1)
  obtain ⟨x, p, -, hm, hk, e, hmem⟩ := intersectObj_label argsort ha s.heap ray depth a i d k h3 (EReal.coe_ne_top d) h5
  refine ⟨a, haa, x, _, hm, e, ?_⟩
  have : intersectObj argsort 1 s.heap x ray = leafIntersect (s.heap.obj x).objT (s.heap.obj x).oid p ray := by
    simp only [intersectObj, hk]
  rw [this]
  exact hmem

/-! ### C26 termination -/

/-- generations count up -/
theorem rowAt_generation {t : Tracer} {c0 : Col} (h0 : c0.generation = 0) {g : ℕ} {r : Row} (h : t.rowAt g c0 = some r) :
    r.generation = g := by
  have step : ∀ {c : Col} {r : Row} {c' : Col} {k : ℕ}, t.colStep k c = some (r, c') →
      r.generation = c.generation ∧ c'.generation = ((k + 1 : ℕ) : ℝ) := by
    intro c r c' k h
    unfold Tracer.colStep at h
    dsimp only at h
    split at h
    · cases h
    · simp only [Option.some.injEq, Prod.mk.injEq] at h
      obtain ⟨rfl, rfl⟩ := h
      exact ⟨rfl, rfl⟩
  have hc : ∀ (g : ℕ) (c : Col), t.colAt g c0 = some c → c.generation = g := by
    intro g c hc
    cases g with
    | zero => cases hc; rw [h0]; simp
    | succ g =>
      simp only [Tracer.colAt, Option.bind_eq_some_iff, Option.map_eq_some_iff] at hc
      obtain ⟨x, -, ⟨r, y⟩, hy, rfl⟩ := hc
      exact (step hy).2
  simp only [Tracer.rowAt, Option.bind_eq_some_iff, Option.map_eq_some_iff] at h
  obtain ⟨c, h1, ⟨r', y⟩, hy, rfl⟩ := h
  rw [(step hy).1, hc g c h1]

/-- **C26.** With a generation limit of at least 1, `trace()` ends for all components and all materials, after at most `limit`
propagate/interact rounds (and one initialize and one finish step), and all generation numbers of the result are in 0 .. limit - 1. -/
theorem C26_terminates (t : Tracer) (hl : 1 ≤ t.limit) (hs : t.sources ≠ [])
    (h0 : ∀ s ∈ t.sources, ∀ c ∈ s t.raysPerSource, c.generation = 0) :
    ∃ n t', Tracer.Traces n t t' ∧ (n : ℤ) ≤ 1 + 2 * t.limit + 1 ∧ t'.complete = true ∧
      ∀ r ∈ t'.frame, ∃ g : ℕ, r.generation = g ∧ (g : ℤ) < t.limit := by
  obtain ⟨n, t', h⟩ := Tracer.traces_of hs (t.limit - 1).toNat (Or.inr (by push_cast; omega))
  refine ⟨n, t', h, ?_⟩
  obtain ⟨-, G, hd, hne, hlim, hn⟩ := h.result
  have hG : (G : ℤ) ≤ t.limit := by
    by_contra hc
    exact hlim t.limit.toNat (by omega) (by omega) (by omega)
  refine ⟨?_, hd.complete, fun r hr => ?_⟩
  · rcases hn with ⟨e1, e2, e3⟩ | ⟨-, e1, e2⟩
    · have : (G : ℤ) ≠ t.limit := by
        rcases Nat.eq_zero_or_pos G with h | h
        · omega
        · exact e3 h
      omega
    · omega
  · rw [hd.frame, List.mem_flatMap] at hr
    obtain ⟨g, hg, hr⟩ := hr
    obtain ⟨c, hc, hr⟩ := List.mem_filterMap.1 hr
    refine ⟨g, rowAt_generation ?_ hr, ?_⟩
    · obtain ⟨i, c', hc', rfl⟩ := (mem_sourceRays t c).1 hc
      obtain ⟨s, h2, h3⟩ := List.mem_flatMap.1 (List.mem_of_getElem? hc')
      exact h0 s h2 c' h3
    · have := List.mem_range.1 hg
      omega

/-- With a limit below 1 a trace that ends has recorded everything: it stops only when no ray is left. -/
theorem C26_nonpositive_limit (t : Tracer) (hl : t.limit ≤ 0) (ok : TracerOk t) (hs : t.sources ≠ []) :
    (∃ n t', Tracer.Traces n t t') ↔ ∃ g, ∀ i r, ¬ Leaves t i g r := by
  constructor
  · rintro ⟨n, t', h⟩
    obtain ⟨-, G, hd, -⟩ := h.result
    rcases hd.stopped with e | ⟨h1, h2⟩
    · refine ⟨G, fun i r hr => ?_⟩
      have := (mem_rowsAt ok G r).2 ⟨i, hr⟩
      rw [e] at this
      cases this
    · omega
  · rintro ⟨g, hg⟩
    refine Tracer.traces_of hs g (Or.inl ?_)
    rw [List.eq_nil_iff_forall_not_mem]
    intro r hr
    obtain ⟨i, hi⟩ := (mem_rowsAt ok g r).1 hr
    exact hg i r hi

/-- **C26 is false for limits below 1**: a ray in a spherical mirror, with a limit of 0 (or any limit below 1): `trace()` does not
end. -/
theorem C26_limit_zero_false (ha : IsArgsort argsort) (limit : ℤ) (hl : limit ≤ 0) :
    ¬ ∃ n t', Tracer.Traces n (ballTracer argsort .mirror 0 1 100 limit) t' := by
  have hσ : (1 : ℝ) ^ 2 = 1 := by norm_num
  have ok := ballTracer_ok argsort ha .mirror (z := 0) hσ 100 limit
  rw [C26_nonpositive_limit _ hl ok (by simp [ballTracer, Tracer.new])]
  rintro ⟨g, hg⟩
  obtain ⟨z', σ', h1, h2, hj⟩ := resonator argsort 0 1 hσ (by simp) 100 limit g
  obtain ⟨r, hr⟩ := segment_exists (axisCol z' σ' 100 g) (1 - σ' * z') 0
  exact hg 0 r ⟨_, _, _, _, ballTracer_emitted argsort _ _ _ _ _, hj, not_extinct_of_unit (axis_norm h1),
    ball_nearest argsort .mirror h1 h2 0, hr⟩

/-- non-vacuity of C26 (and of all hypotheses `TracerOk`, `Traces` below): the ray in the spherical mirror is traced for exactly
three generations with a limit of 3. -/
theorem resonator_rows (ha : IsArgsort argsort) : ∃ n t', Tracer.Traces n (ballTracer argsort .mirror 0 1 100 3) t' ∧
    TracerOk (ballTracer argsort .mirror 0 1 100 3) ∧ ∀ g : ℕ, (∃ r ∈ t'.frame, r.generation = g ∧ r.id = 0) ↔ g < 3 := by
  have hσ : (1 : ℝ) ^ 2 = 1 := by norm_num
  have ok := ballTracer_ok argsort ha .mirror (z := 0) hσ 100 3
  obtain ⟨n, t', h, -⟩ := C26_terminates (ballTracer argsort .mirror 0 1 100 3) (by simp [ballTracer, Tracer.new])
    (by simp [ballTracer, Tracer.new]) (fun s hs c hc => (ok.emits s hs c hc).1)
  refine ⟨n, t', h, ok, fun g => ⟨?_, fun hg => ?_⟩⟩
  · rintro ⟨r, hr, hgen, -⟩
    obtain ⟨i, g', h1, h2⟩ := (trace_iff ok h r).1 hr
    have := h1 (by simp [ballTracer, Tracer.new])
    rw [(h2.spec ok).1] at hgen
    have e : g' = g := by exact_mod_cast hgen
    subst e
    change (g' : ℤ) < 3 at this
    exact_mod_cast this
  · obtain ⟨z', σ', h1, h2, hj⟩ := resonator argsort 0 1 hσ (by simp) 100 3 g
    obtain ⟨r, hr⟩ := segment_exists (axisCol z' σ' 100 g) (1 - σ' * z') 0
    have hl : Leaves (ballTracer argsort .mirror 0 1 100 3) 0 g r :=
      ⟨_, _, _, _, ballTracer_emitted argsort _ _ _ _ _, hj, not_extinct_of_unit (axis_norm h1),
        ball_nearest argsort .mirror h1 h2 0, hr⟩
    refine ⟨r, (trace_iff ok h r).2 ⟨0, g, fun _ => ?_, hl⟩, (hl.spec ok).1, ?_⟩
    · show (g : ℤ) < 3
      exact_mod_cast hg
    · have := (hl.spec ok).2
      simpa using this

/-! ### C27 chains -/

/-- **C27.** The rows of a result are ordered by generation and within a generation by ray id, strictly, so that no ray occurs
twice in a generation; generations and ids are natural numbers; a ray that occurs in generation `g + 1` occurs in generation `g`. -/
theorem C27_chains {n : ℕ} {t t' : Tracer} (ok : TracerOk t) (h : Tracer.Traces n t t') :
    (t'.frame.Pairwise fun r r' => r.generation < r'.generation ∨ (r.generation = r'.generation ∧ r.id < r'.id)) ∧
    (∀ r ∈ t'.frame, ∃ i g : ℕ, r.id = i ∧ r.generation = g) ∧
    (∀ r ∈ t'.frame, ∀ g : ℕ, r.generation = g + 1 → ∃ r' ∈ t'.frame, r'.generation = g ∧ r'.id = r.id) := by
  refine ⟨trace_sorted ok h, fun r hr => ?_, fun r hr g hg => ?_⟩
  · obtain ⟨i, g, -, hl⟩ := (trace_iff ok h r).1 hr
    exact ⟨i, g, (hl.spec ok).2, (hl.spec ok).1⟩
  · obtain ⟨i, k, hlim, hl⟩ := (trace_iff ok h r).1 hr
    have hk : k = g + 1 := by
      have := (hl.spec ok).1.symm.trans hg
      exact_mod_cast this
    subst hk
    obtain ⟨r', hr'⟩ := hl.earlier (Nat.lt_succ_self g)
    refine ⟨r', (trace_iff ok h r').2 ⟨i, g, fun hp => ?_, hr'⟩, (hr'.spec ok).1, by rw [(hr'.spec ok).2, (hl.spec ok).2]⟩
    have := hlim hp
    push_cast at this
    omega

/-! ### C28, C35 segments -/

/-- the ray of a row: from its start point along its tilt -/
def Spec.rowRay (r : Row) : Ray := ⟨point (r.start 0) (r.start 1) (r.start 2), vector (r.tilt 0) (r.tilt 1) (r.tilt 2)⟩

theorem norm3_of {d : Vec4} (h3 : d 3 = 0) (h1 : norm4 d = 1) : √(d 0 ^ 2 + d 1 ^ 2 + d 2 ^ 2) = 1 := by
  unfold norm4 at h1; rw [h3] at h1; simpa using h1

theorem segment_ray {c0 c : Col} {g : ℕ} {d : ℝ} {s : ℤ} {r : Row} (w : OnTheWay c0 g c) (hx : ¬ Extinct c) (hs : Segment c d s r) :
    rowRay r = c.ray ∧ (∀ i : Fin 3, r.tilt i = c.ray.d i.castSucc) ∧ ∀ i, r.stop i = r.start i + d * r.tilt i := by
  have h1 := norm3_of w.dir (w.unit_of hx)
  have ht : ∀ i : Fin 3, r.tilt i = c.ray.d i.castSucc := fun i => by rw [hs.tilt, h1, div_one]
  refine ⟨?_, ht, fun i => by rw [hs.stop, hs.start, ht]⟩
  have e1 : point (r.start 0) (r.start 1) (r.start 2) = c.ray.o := by
    funext i
    fin_cases i
    · exact hs.start 0
    · exact hs.start 1
    · exact hs.start 2
    · exact w.pos.symm
  have e2 : vector (r.tilt 0) (r.tilt 1) (r.tilt 2) = c.ray.d := by
    funext i
    fin_cases i
    · exact ht 0
    · exact ht 1
    · exact ht 2
    · exact w.dir.symm
  unfold rowRay
  rw [e1, e2]

/-- **C28, first half.** Every row goes from its start point along its tilt to the nearest hit of this ray with the components:
its surface is the surface hit, its end point is the hit point. -/
theorem C28_segment {n : ℕ} {t t' : Tracer} (ok : TracerOk t) (h : Tracer.Traces n t t') (r : Row) (hr : r ∈ t'.frame) :
    ∃ d : ℝ, 0 < d ∧ Nearest t.components (rowRay r) d r.surface ∧ ∀ i, r.stop i = r.start i + d * r.tilt i := by
  obtain ⟨i, g, -, c0, c, d, s, he, hj, hx, hn, hs⟩ := (trace_iff ok h r).1 hr
  obtain ⟨h1, -, h3⟩ := segment_ray (hj.onTheWay ok he) hx hs
  refine ⟨d, hn.1, ?_, h3⟩
  rw [h1, hs.surface]
  exact hn

/-- **C28, second half.** If a ray has rows `r` and `r'` in consecutive generations, `r'` starts at the end of `r` displaced by the
offset along the direction of `r'`; this direction and the index of `r'` are what the material of the surface at the end of `r`
makes of the ray arriving there, and intensity and wavelength are the same. -/
theorem C28_connected {n : ℕ} {t t' : Tracer} (ok : TracerOk t) (h : Tracer.Traces n t t') (r r' : Row) (hr : r ∈ t'.frame)
    (hr' : r' ∈ t'.frame) (hid : r'.id = r.id) (hg : r'.generation = r.generation + 1) :
    (∀ i, r'.start i = r.stop i + t.offset * r'.tilt i) ∧ r'.intensity = r.intensity ∧ r'.wavelength = r.wavelength ∧
    ∃ f, (r.surface, f) ∈ t.lut ∧
      let arriving : Col := { ray := ⟨point (r.stop 0) (r.stop 1) (r.stop 2), vector (r.tilt 0) (r.tilt 1) (r.tilt 2)⟩
                              generation := r.generation, intensity := r.intensity, wavelength := r.wavelength
                              index := r.index, id := r.id }
      vector (r'.tilt 0) (r'.tilt 1) (r'.tilt 2) = (f arriving).ray.d ∧ r'.index = (f arriving).index := by
  obtain ⟨i, g, -, hl⟩ := (trace_iff ok h r).1 hr
  obtain ⟨i', g', -, hl'⟩ := (trace_iff ok h r').1 hr'
  have ei : i' = i := by
    rw [(hl.spec ok).2, (hl'.spec ok).2] at hid
    exact_mod_cast hid
  have eg : g' = g + 1 := by
    rw [(hl.spec ok).1, (hl'.spec ok).1] at hg
    exact_mod_cast hg
  subst ei eg
  obtain ⟨c0, c, d, s, he, hj, hx, hn, hs⟩ := hl
  obtain ⟨c0', c', d', s', he', hj', hx', hn', hs'⟩ := hl'
  obtain rfl := he.unique he'
  have w := hj.onTheWay ok he
  have w' := hj'.onTheWay ok he
  obtain ⟨a1, a2, a3⟩ := segment_ray w hx hs
  obtain ⟨b1, b2, b3⟩ := segment_ray w' hx' hs'
  obtain ⟨c1, d1, s1, f, h1, h2, h3, h4, e⟩ := hj'.pred
  obtain rfl := hj.unique ok h1
  obtain ⟨rfl, rfl⟩ := hn.unique h3
  have m := ok.materials _ h4
  have harr : ({ ray := ⟨point (r.stop 0) (r.stop 1) (r.stop 2), vector (r.tilt 0) (r.tilt 1) (r.tilt 2)⟩
                 generation := r.generation, intensity := r.intensity, wavelength := r.wavelength
                 index := r.index, id := r.id } : Col) = moved c d := by
    have e1 : point (r.stop 0) (r.stop 1) (r.stop 2) = fun i => c.ray.o i + d * c.ray.d i := by
      funext i
      fin_cases i
      · exact hs.stop 0
      · exact hs.stop 1
      · exact hs.stop 2
      · show (1 : ℝ) = c.ray.o 3 + d * c.ray.d 3
        rw [w.pos, w.dir]; ring
    have e2 : vector (r.tilt 0) (r.tilt 1) (r.tilt 2) = c.ray.d := congrArg Ray.d a1
    rw [e1, e2, hs.generation, hs.intensity, hs.wavelength, hs.index, hs.id]
    rfl
  have hd' : c'.ray.d = (f (moved c d)).ray.d := by rw [e]; rfl
  have ho' : c'.ray.o = fun i => (f (moved c d)).ray.o i + t.offset * (f (moved c d)).ray.d i := by rw [e]; rfl
  refine ⟨fun j => ?_, ?_, ?_, f, by rw [hs.surface]; exact h4, ?_⟩
  · rw [hs'.start, b2, hs.stop, ho', hd', m.origin]
    rfl
  · rw [hs'.intensity, hs.intensity, w'.intensity, w.intensity]
  · rw [hs'.wavelength, hs.wavelength, w'.wavelength, w.wavelength]
  · dsimp only
    rw [harr]
    refine ⟨?_, ?_⟩
    · rw [← hd']; exact congrArg Ray.d b1
    · rw [hs'.index, e]; rfl

/-- **C35.** The tilt of every row is a unit vector, and the row goes a positive distance along it. -/
theorem C35_unit_tilts {n : ℕ} {t t' : Tracer} (ok : TracerOk t) (h : Tracer.Traces n t t') (r : Row) (hr : r ∈ t'.frame) :
    r.tilt 0 ^ 2 + r.tilt 1 ^ 2 + r.tilt 2 ^ 2 = 1 ∧ ∃ d : ℝ, 0 < d ∧ ∀ i, r.stop i - r.start i = d * r.tilt i := by
  obtain ⟨i, g, -, c0, c, d, s, he, hj, hx, hn, hs⟩ := (trace_iff ok h r).1 hr
  have w := hj.onTheWay ok he
  obtain ⟨h1, h2, h3⟩ := segment_ray w hx hs
  refine ⟨?_, d, hn.1, fun i => by rw [h3]; ring⟩
  have := norm3_of w.dir (w.unit_of hx)
  rw [h2, h2, h2]
  have h4 := Real.sqrt_eq_one.1 this
  exact h4

/-- **C28 and C30, converse.** What is not in the table does not happen: from a row below the limit the ray goes on to the next
row unless its material has set the direction to (numerically) zero or the new ray hits nothing. -/
theorem C30_continues {n : ℕ} {t t' : Tracer} (ok : TracerOk t) (h : Tracer.Traces n t t') (r : Row) (hr : r ∈ t'.frame)
    (hlast : ∀ r' ∈ t'.frame, r'.id = r.id → r'.generation ≠ r.generation + 1) :
    r.generation + 1 = t.limit ∨ ∃ f, (r.surface, f) ∈ t.lut ∧
      let out := f { ray := ⟨point (r.stop 0) (r.stop 1) (r.stop 2), vector (r.tilt 0) (r.tilt 1) (r.tilt 2)⟩
                     generation := r.generation, intensity := r.intensity, wavelength := r.wavelength
                     index := r.index, id := r.id }
      out.ray.d = 0 ∨ Miss t.components ⟨fun i => out.ray.o i + t.offset * out.ray.d i, out.ray.d⟩ := by
  obtain ⟨i, g, hlim, hl⟩ := (trace_iff ok h r).1 hr
  have hgi := hl.spec ok
  obtain ⟨c0, c, d, s, he, hj, hx, hn, hs⟩ := hl
  have w := hj.onTheWay ok he
  obtain ⟨a1, a2, a3⟩ := segment_ray w hx hs
  by_cases hg : 0 < t.limit → ((g + 1 : ℕ) : ℤ) < t.limit
  swap
  · left
    rw [hgi.1]
    push Not at hg
    have := hlim hg.1
    have e : ((g + 1 : ℕ) : ℤ) = t.limit := by push_cast at hg ⊢; omega
    rw [← e]; push_cast; rfl
  right
  obtain ⟨-, f, hf⟩ := ok.nearest_lut hn
  have m := ok.materials _ hf
  refine ⟨f, by rw [hs.surface]; exact hf, ?_⟩
  have harr : ({ ray := ⟨point (r.stop 0) (r.stop 1) (r.stop 2), vector (r.tilt 0) (r.tilt 1) (r.tilt 2)⟩
                 generation := r.generation, intensity := r.intensity, wavelength := r.wavelength
                 index := r.index, id := r.id } : Col) = moved c d := by
    have e1 : point (r.stop 0) (r.stop 1) (r.stop 2) = fun i => c.ray.o i + d * c.ray.d i := by
      funext i
      fin_cases i
      · exact hs.stop 0
      · exact hs.stop 1
      · exact hs.stop 2
      · show (1 : ℝ) = c.ray.o 3 + d * c.ray.d 3
        rw [w.pos, w.dir]; ring
    have e2 : vector (r.tilt 0) (r.tilt 1) (r.tilt 2) = c.ray.d := congrArg Ray.d a1
    rw [e1, e2, hs.generation, hs.intensity, hs.wavelength, hs.index, hs.id]
    rfl
  intro out
  have hout : out = f (moved c d) := by rw [← harr]
  clear_value out
  subst hout
  by_contra hc
  push Not at hc
  have hj' := hj.next hx hn hf
  have w' := hj'.onTheWay ok he
  have hx' : ¬ Extinct (moved { f (moved c d) with generation := (g : ℝ) + 1 } t.offset) := by
    rcases w'.unit with e | e
    · exact not_extinct_of_unit e
    · exact absurd e hc.1
  have hlen : ∀ c ∈ t.components, ∀ ray, (c.intersect ray).2.length = (c.intersect ray).1.length :=
    fun c hc => (ok.comps c hc).len
  rcases hitOf_spec hlen (moved { f (moved c d) with generation := (g : ℝ) + 1 } t.offset).ray with ⟨hm, -⟩ | ⟨d', s', hn', -⟩
  · exact hc.2 hm
  · obtain ⟨r', hr'⟩ := segment_exists (moved { f (moved c d) with generation := (g : ℝ) + 1 } t.offset) d' s'
    have hl' : Leaves t i (g + 1) r' := ⟨c0, _, d', s', he, hj', hx', hn', hr'⟩
    refine hlast r' ((trace_iff ok h r').2 ⟨i, g + 1, hg, hl'⟩) ?_ ?_
    · rw [(hl'.spec ok).2, hgi.2]
    · rw [(hl'.spec ok).1, hgi.1]; push_cast; rfl

/-! ### C30 absorbed and escaped rays -/

/-- **C30, hits.** A ray whose nearest hit is a surface `s` when it sets out for the `g`-th time, below the limit, gets a row that
ends on `s`. -/
theorem C30_row {n : ℕ} {t t' : Tracer} (ok : TracerOk t) (h : Tracer.Traces n t t') {i g : ℕ} {c0 c : Col} (he : Emitted t i c0)
    (hj : Journey t c0 g c) (hg : 0 < t.limit → (g : ℤ) < t.limit) (hx : c.ray.d ≠ 0) {d : ℝ} {s : ℤ}
    (hn : Nearest t.components c.ray d s) :
    ∃ r ∈ t'.frame, r.id = i ∧ r.generation = g ∧ r.surface = s ∧
      point (r.stop 0) (r.stop 1) (r.stop 2) = fun j => c.ray.o j + d * c.ray.d j := by
  have w := hj.onTheWay ok he
  have hx' : ¬ Extinct c := by
    rcases w.unit with e | e
    · exact not_extinct_of_unit e
    · exact absurd e hx
  obtain ⟨r, hr⟩ := segment_exists c d s
  have hl : Leaves t i g r := ⟨c0, c, d, s, he, hj, hx', hn, hr⟩
  refine ⟨r, (trace_iff ok h r).2 ⟨i, g, hg, hl⟩, (hl.spec ok).2, (hl.spec ok).1, hr.surface, ?_⟩
  funext j
  fin_cases j
  · exact hr.stop 0
  · exact hr.stop 1
  · exact hr.stop 2
  · show (1 : ℝ) = c.ray.o 3 + d * c.ray.d 3
    rw [w.pos, w.dir]; ring

/-- **C30, absorbed.** After a row that ends on a surface whose material sets directions to zero (the absorber), the ray has no
further row. -/
theorem C30_absorbed {n : ℕ} {t t' : Tracer} (ok : TracerOk t) (h : Tracer.Traces n t t') (r : Row) (hr : r ∈ t'.frame)
    (f : Col → Col) (hf : (r.surface, f) ∈ t.lut) (habs : ∀ c, (f c).ray.d = 0) (r' : Row) (hr' : r' ∈ t'.frame)
    (hid : r'.id = r.id) : r'.generation ≤ r.generation := by
  obtain ⟨i, g, -, hl⟩ := (trace_iff ok h r).1 hr
  obtain ⟨i', g', -, hl'⟩ := (trace_iff ok h r').1 hr'
  have ei : i' = i := by
    rw [(hl.spec ok).2, (hl'.spec ok).2] at hid
    exact_mod_cast hid
  rw [(hl.spec ok).1, (hl'.spec ok).1]
  subst ei
  by_contra hc
  have hlt : g < g' := by
    push Not at hc
    exact_mod_cast hc
  obtain ⟨c0, c, d, s, he, hj, hx, hn, hs⟩ := hl
  have key : ∃ c1, Journey t c0 (g + 1) c1 ∧ ¬ Extinct c1 := by
    obtain ⟨c0', c', d', s', he', hj', hx', hn', hs'⟩ := hl'
    obtain rfl := he.unique he'
    by_cases e : g' = g + 1
    · subst e; exact ⟨c', hj', hx'⟩
    · obtain ⟨c1, d1, s1, f1, h1, h2, -⟩ := hj'.earlier (g + 1) (by omega)
      exact ⟨c1, h1, h2⟩
  obtain ⟨c1, hj1, hx1⟩ := key
  obtain ⟨c2, d2, s2, f2, h1, h2, h3, h4, e⟩ := hj1.pred
  obtain rfl := hj.unique ok h1
  obtain ⟨rfl, rfl⟩ := hn.unique h3
  rw [hs.surface] at hf
  obtain rfl := lut_unique ok.nodup hf h4
  apply hx1
  apply extinct_zero
  rw [e]
  exact habs _

/-- the absorber of `materials.py` sets directions to zero -/
theorem absorber_zero (nf : Vec4 → Vec4) (c : Col) : (Material.absorber.trace nf c).ray.d = 0 := rfl

/-- **C30, escaped.** A ray that hits nothing when it sets out for the `g`-th time has no row of generation `g` or later. -/
theorem C30_escaped {n : ℕ} {t t' : Tracer} (ok : TracerOk t) (h : Tracer.Traces n t t') {i g : ℕ} {c0 c : Col}
    (he : Emitted t i c0) (hj : Journey t c0 g c) (hm : Miss t.components c.ray) (r : Row) (hr : r ∈ t'.frame) (hid : r.id = i) :
    r.generation < g := by
  obtain ⟨i', g', -, hl⟩ := (trace_iff ok h r).1 hr
  have ei : i' = i := by
    rw [(hl.spec ok).2] at hid
    exact_mod_cast hid
  subst ei
  rw [(hl.spec ok).1]
  by_contra hc
  have hle : g ≤ g' := by
    push Not at hc
    exact_mod_cast hc
  obtain ⟨c0', c', d', s', he', hj', hx', hn', hs'⟩ := hl
  obtain rfl := he.unique he'
  by_cases e : g' = g
  · subst e
    obtain rfl := hj.unique ok hj'
    exact hn'.not_miss hm
  · obtain ⟨c1, d1, s1, f1, h1, h2, h3, -⟩ := hj'.earlier g (by omega)
    obtain rfl := hj.unique ok h1
    exact h3.not_miss hm

/-- non-vacuity of C30: in an absorbing ball every ray of the axis has exactly one row -/
example (ha : IsArgsort argsort) : ∃ n t', Tracer.Traces n (ballTracer argsort .absorber 0 1 100 5) t' ∧
    (∃ r ∈ t'.frame, r.surface = 0 ∧ r.stop 2 = 1) ∧ ∀ r ∈ t'.frame, r.generation = 0 := by
  have hσ : (1 : ℝ) ^ 2 = 1 := by norm_num
  have ok := ballTracer_ok argsort ha .absorber (z := 0) hσ 100 5
  obtain ⟨n, t', h, -⟩ := C26_terminates (ballTracer argsort .absorber 0 1 100 5) (by simp [ballTracer, Tracer.new])
    (by simp [ballTracer, Tracer.new]) (fun s hs c hc => (ok.emits s hs c hc).1)
  have he := ballTracer_emitted argsort .absorber 0 1 100 5
  have hn := ball_nearest argsort .absorber (z := 0) hσ (by simp) 0
  obtain ⟨r, h1, h2, h3, h4, h5⟩ := C30_row ok h he .start (fun _ => by simp [ballTracer, Tracer.new])
    (fun e => by have := congrFun e 2; simp [axisCol, axisRay, vector] at this) hn
  refine ⟨n, t', h, ⟨r, h1, h4, ?_⟩, fun r' hr' => ?_⟩
  · have := congrFun h5 2
    simpa [point, axisCol, axisRay, vector] using this
  · obtain ⟨i', g', -, hl⟩ := (trace_iff ok h r').1 hr'
    have hid : r'.id = r.id := by
      rw [(hl.spec ok).2, h2]
      obtain ⟨c0, -, -, -, ⟨c', hc', -⟩, -⟩ := hl
      have : i' < 1 := by
        have := (List.getElem?_eq_some_iff.1 hc').1
        simpa [ballTracer, Tracer.new] using this
      have : i' = 0 := by omega
      rw [this]
    have := C30_absorbed ok h r h1 _ (by rw [h4]; exact ballTracer_lut argsort _ _ _ _ _) (absorber_zero _) r' hr' hid
    rw [h3] at this
    rw [(hl.spec ok).1] at this ⊢
    have h0 : g' ≤ 0 := by exact_mod_cast this
    rw [Nat.le_zero.1 h0, Nat.cast_zero]

end PyRayT
