import Verif.Props.Focus

/-!
# Property C89: where rays end

C30 says that absorbed and escaped rays end. Here the converse: a ray ends for no other reason. No light is lost on mirrors and glass, and
every emitted ray appears in the result unless nothing is in front of it.
-/

namespace PyRayT

open Classical Matrix Spec

variable {argsort : List EReal → List ℕ} {fuel : ℕ}

/-- what a material other than the absorber makes of a ray: C21, C22 and C23 in one -/
theorem material_interacts {m : Material} (hm : m ≠ .absorber) {nf : Vec4 → Vec4} {c : Col} (hu : norm4 c.ray.d = 1) (hn : norm4 (nf c.ray.o) = 1)
    (hidx : 0 < c.index) (hgl : ∀ g, m = .glass g → 0 < g.indexAt c.wavelength) :
    Interacts m c.wavelength (nf c.ray.o) c.ray.d c.index (m.trace nf c).ray.d (m.trace nf c).index ∧ norm4 (m.trace nf c).ray.d = 1 := by
  have hu0 : c.ray.d ≠ 0 := by
    intro h; rw [h] at hu; simp [norm4] at hu
  cases m with
  | absorber => exact absurd rfl hm
  | mirror =>
    refine ⟨⟨fun i => ?_, rfl⟩, ?_⟩
    · simp only [Material.trace]; ring
    · simp only [Material.trace]
      rw [reflect_norm (Or.inl hn), hu]
  | glass g =>
    have hgp := hgl g rfl
    have a := C22_snell c.ray.d (nf c.ray.o) c.index (g.indexAt c.wavelength) 1 hu0 hn hidx hgp one_pos
    have b := (C23_total_internal_reflection c.ray.d (nf c.ray.o) c.index (g.indexAt c.wavelength) 1 hu0 hn hidx hgp one_pos).1
    dsimp only at a b
    have e : (fun i => c.ray.d i / norm4 c.ray.d) = c.ray.d := by
      funext i; rw [hu, div_one]
    rw [e] at a b
    simp only [hu, div_one] at a b
    refine ⟨?_, ?_⟩
    · by_cases hlt : c.index * Spec.sinTo c.ray.d (nf c.ray.o) < Spec.farIndex c.ray.d (nf c.ray.o) (g.indexAt c.wavelength) 1
      · obtain ⟨a1, a2, a3, a4, a5, a6⟩ := a hlt
        exact Or.inl ⟨hlt, a1, a2, a3, a4, a5, a6⟩
      · push Not at hlt
        obtain ⟨b1, b2⟩ := b (by rw [mul_one]; exact hlt)
        exact Or.inr ⟨hlt, b1, b2⟩
    · simp only [Material.trace]
      rw [refract_eq hu0 (norm4_eq_one.1 hn)]
      exact norm4_eq_one.2 (refractRaw_unit (dot4_normalize_self hu0) (facing_unit (norm4_eq_one.1 hn)) _)

section
variable {s : Scene} {objs : List ℕ} {depth : ℕ} {sources : List (ℕ → List Col)} {n : ℕ} {limit : ℤ}

theorem Spec.Bench.row_positive (b : Bench argsort fuel s objs depth sources n) (ha : IsArgsort argsort)
    {k : ℕ} {t' : Tracer} (ht : Tracer.Traces k (Tracer.new sources (objs.map (s.component argsort depth)) n limit) t')
    {r : Row} (hr : r ∈ t'.frame) : 0 < r.index := by
  rcases C63_indices argsort ha fuel s b.history.reaches objs b.exist depth b.distinct sources n limit b.emits ht r hr with
    ⟨f, hf, c, hc, -, e⟩ | e | ⟨a, haa, y, id', g, hy, hm, e⟩
  · rw [e]; exact (b.positive f hf c hc).1
  · rw [e]; exact one_pos
  · rw [e]; exact b.glass_pos ha ht hr haa hy hm

/-- **C89.** If a row of a trace on a bench is the last of its ray, it ends on an absorber, or the ray has reached the generation
limit, or the ray, reflected or refracted on the surface by the law of its material, meets nothing any more. -/
theorem C89_endings (b : Bench argsort fuel s objs depth sources n) (ha : IsArgsort argsort)
    {k : ℕ} {t' : Tracer} (ht : Tracer.Traces k (Tracer.new sources (objs.map (s.component argsort depth)) n limit) t')
    {r : Row} (hr : r ∈ t'.frame) (hend : ∀ r' ∈ t'.frame, ¬ Follows r r') :
    ∃ a ∈ objs, ∃ x id : ℕ, (id, x) ∈ surfaceIds depth s.heap a ∧ r.surface = (id : ℤ) ∧
      (s.material x = .absorber ∨ (0 < limit ∧ r.generation + 1 = limit) ∨
        ∃ u n', u 3 = 0 ∧ dot4 u u = 1 ∧ Interacts (s.material x) r.wavelength (surfaceNormal s.heap x r.finish) r.dir r.index u n' ∧
          Miss (objs.map (s.component argsort depth)) ⟨fun i => r.finish i + 1e-6 * u i, u⟩) := by
  have ok := b.ok ha limit
  have hpos := b.row_positive ha ht hr
  set t := Tracer.new sources (objs.map (s.component argsort depth)) n limit with htdef
  obtain ⟨i, g, hlim, c0, c, d, sf, he, hj, hx, hnear, hseg⟩ := (trace_iff ok ht r).1 hr
  have w := hj.onTheWay ok he
  have hu := w.unit_of hx
  obtain ⟨-, f, hf⟩ := ok.nearest_lut hnear
  have hf' : (sf, f) ∈ t.components.flatMap Component.surfaces := by rw [← ok.lut]; exact hf
  obtain ⟨cc, hc, hfc⟩ := List.mem_flatMap.1 hf'
  obtain ⟨a, haa, rfl⟩ := List.mem_map.1 hc
  obtain ⟨⟨id, x⟩, hid, hfe⟩ := List.mem_map.1 hfc
  simp only [Prod.mk.injEq] at hfe
  obtain ⟨hs, hfm⟩ := hfe
  refine ⟨a, haa, x, id, hid, hseg.surface.trans hs.symm, ?_⟩
  by_cases hm : s.material x = .absorber
  · exact Or.inl hm
  refine Or.inr ?_
  by_cases hl : 0 < limit ∧ r.generation + 1 = limit
  · exact Or.inl hl
  refine Or.inr ?_
  have hcd : c.ray = rowRay r := by
    have hs := segment_ray w hx hseg
    exact hs.1.symm
  have hfin : (moved c d).ray.o = r.finish := by
    funext l
    fin_cases l
    · exact (hseg.stop 0).symm
    · exact (hseg.stop 1).symm
    · exact (hseg.stop 2).symm
    · change c.ray.o 3 + d * c.ray.d 3 = 1
      rw [w.pos, w.dir]; ring
  have hdir : c.ray.d = r.dir := by rw [hcd]; rfl
  have hnorm : norm4 (surfaceNormal s.heap x (moved c d).ray.o) = 1 :=
    row_normal argsort ha b.history b.exist b.sized hnear haa hid hs.symm
  obtain ⟨hint, hunit⟩ := material_interacts (c := moved c d) hm hu hnorm (by
      change 0 < c.index
      rw [← hseg.index]; exact hpos) (fun g hg => by
      change 0 < g.indexAt c.wavelength
      rw [← hseg.wavelength]; exact b.glass_pos ha ht hr haa hid hg)
  have hj' := Journey.next hj hx hnear hf
  subst hfm
  set c1 := (s.material x).trace (surfaceNormal s.heap x) (moved c d) with hc1
  set c2 := moved { c1 with generation := (g : ℝ) + 1 } t.offset with hc2
  have w' := hj'.onTheWay ok he
  have horig : c1.ray.o = (moved c d).ray.o := (ok.materials _ hf).origin _
  have hmiss : Miss t.components c2.ray := by
    rcases hitOf_spec (fun c hc => (ok.comps c hc).len) c2.ray with ⟨hmiss, -⟩ | ⟨d', s', hn', -⟩
    · exact hmiss
    · exfalso
      obtain ⟨r', hseg'⟩ := segment_exists c2 d' s'
      refine hend r' ((trace_iff ok ht r').2 ⟨i, g + 1, fun h0 => ?_, c0, c2, d', s', he, hj', not_extinct_of_unit hunit, hn', hseg'⟩)
        ⟨?_, ?_⟩
      · have h1 := hlim h0
        have h2 : ¬ (g : ℤ) + 1 = limit := by
          intro h2
          apply hl
          refine ⟨h0, ?_⟩
          rw [hseg.generation, w.generation, ← h2]
          push_cast; rfl
        have h3 : t.limit = limit := rfl
        rw [h3] at h1 ⊢
        push_cast
        omega
      · rw [hseg'.id, hseg.id, w'.id, w.id]
      · rw [hseg'.generation, hseg.generation, w'.generation, w.generation]; push_cast; rfl
  refine ⟨c1.ray.d, c1.index, w'.dir, norm4_eq_one.1 hunit, ?_, ?_⟩
  · rw [hfin] at hint
    rw [hseg.wavelength, hseg.index, ← hdir]
    exact hint
  · have e : c2.ray = ⟨fun l => r.finish l + 1e-6 * c1.ray.d l, c1.ray.d⟩ := by
      rw [← hfin, ← horig]; rfl
    rw [← e]
    exact hmiss

/-- **C89, the start.** Every emitted ray has a row of generation 0 with its number, or there is nothing in front of it. -/
theorem C89_starts (b : Bench argsort fuel s objs depth sources n) (ha : IsArgsort argsort)
    {k : ℕ} {t' : Tracer} (ht : Tracer.Traces k (Tracer.new sources (objs.map (s.component argsort depth)) n limit) t')
    {i : ℕ} {c : Col} (hc : (sources.flatMap fun f => f n)[i]? = some c) :
    (∃ r ∈ t'.frame, r.generation = 0 ∧ r.id = i ∧ rowRay r = c.ray ∧ r.wavelength = c.wavelength ∧ r.index = c.index) ∨
      Miss (objs.map (s.component argsort depth)) c.ray := by
  have ok := b.ok ha limit
  set t := Tracer.new sources (objs.map (s.component argsort depth)) n limit with htdef
  rcases hitOf_spec (fun c hc => (ok.comps c hc).len) c.ray with ⟨hmiss, -⟩ | ⟨d', s', hn', -⟩
  · exact Or.inr hmiss
  · left
    have he : Emitted t i { c with id := (i : ℝ) } := ⟨c, hc, rfl⟩
    obtain ⟨e1, e2, e3, e4⟩ := ok.emitted he
    obtain ⟨r, hseg⟩ := segment_exists { c with id := (i : ℝ) } d' s'
    have hx : ¬ Extinct { c with id := (i : ℝ) } := not_extinct_of_unit e4
    refine ⟨r, (trace_iff ok ht r).2 ⟨i, 0, fun h => h, _, _, d', s', he, Journey.start, hx, hn', hseg⟩, ?_, ?_, ?_, ?_, ?_⟩
    · rw [hseg.generation]; exact e1
    · rw [hseg.id]
    · exact (segment_ray (Journey.start.onTheWay ok he) hx hseg).1
    · rw [hseg.wavelength]
    · rw [hseg.index]

end

end PyRayT
