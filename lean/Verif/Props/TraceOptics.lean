import Verif.Props.Tracer2

/-!
# Property C63: the law of optics between consecutive rows of a trace

The theorems on `trace()` of `Props/Tracer.lean` leave the materials abstract, those of `Props/Optics.lean` are about
one call of `reflect` or `refract`. Here both are put together for scenes with the built-in materials.
-/

namespace PyRayT

open Classical Matrix Spec

variable (argsort : List EReal → List ℕ)

/-- What happens to direction `u` and index `n1` at a surface with unit normal `n`, becoming `w` and `n2`. -/
def Spec.Interacts (m : Material) (wavelength : ℝ) (n u : Vec4) (n1 : ℝ) (w : Vec4) (n2 : ℝ) : Prop :=
  match m with
  | .absorber => False
  | .mirror => (∀ i, w i = u i - 2 * dot4 u n * n i) ∧ n2 = n1
  | .glass g =>
    let far := if 0 < dot4 u n then 1 else g.indexAt wavelength
    (n1 * Spec.sinTo u n < far ∧ norm4 w = 1 ∧ (∀ i, n1 * (u i - dot4 u n * n i) = far * (w i - dot4 w n * n i)) ∧
      n1 * Spec.sinTo u n = far * Spec.sinTo w n ∧ (0 < dot4 u n → 0 < dot4 w n) ∧ (dot4 u n ≤ 0 → dot4 w n < 0) ∧ n2 = far) ∨
    (far ≤ n1 * Spec.sinTo u n ∧ (∀ i, w i = u i - 2 * dot4 u n * n i) ∧ n2 = n1)

/-- **C63.** Let a tracer have objects of any history with the built-in materials as components. If a ray has rows `r` and `r'` in
consecutive generations, the end of `r` is on a surface x of one of the objects and x's own material is not the absorber: if
it is the mirror, `r'` is the mirror image of `r` about the normal of x there and keeps the index; if it is glass, `r'` obeys Snell's law with
the index of the ray, the index of the glass at the ray's wavelength when entering and 1 when leaving and has the index of the far
side, or it is totally reflected and keeps the index. -/
theorem C63_trace_optics (ha : IsArgsort argsort) (fuel : ℕ) (s : Scene) (hr : Reaches argsort fuel Heap.empty s.heap)
    (objs : List ℕ) (hlt : ∀ a ∈ objs, a < s.heap.size) (depth : ℕ)
    (hnd : (objs.flatMap fun a => (surfaceIds depth s.heap a).map Prod.snd).Nodup)
    (sources : List (ℕ → List Col)) (n : ℕ) (limit : ℤ)
    (hem : ∀ f ∈ sources, ∀ c ∈ f n, c.generation = 0 ∧ c.ray.o 3 = 1 ∧ c.ray.d 3 = 0 ∧ norm4 c.ray.d = 1)
    {k : ℕ} {t' : Tracer} (ht : Tracer.Traces k (Tracer.new sources (objs.map (s.component argsort depth)) n limit) t')
    (r r' : Row) (hrm : r ∈ t'.frame) (hrm' : r' ∈ t'.frame) (hid : r'.id = r.id) (hg : r'.generation = r.generation + 1) :
    ∃ a ∈ objs, ∃ x id : ℕ, (id, x) ∈ surfaceIds depth s.heap a ∧ r.surface = (id : ℤ) ∧
      let n := surfaceNormal s.heap x (point (r.stop 0) (r.stop 1) (r.stop 2))
      (norm4 n = 1 → 0 < r.index → (∀ g, s.material x = .glass g → 0 < g.indexAt r.wavelength) →
        Interacts (s.material x) r.wavelength n (vector (r.tilt 0) (r.tilt 1) (r.tilt 2)) r.index
          (vector (r'.tilt 0) (r'.tilt 1) (r'.tilt 2)) r'.index) := by
  have ok := scene_tracer_ok argsort ha fuel s hr objs hlt depth hnd sources n limit hem
  obtain ⟨-, -, -, f, hf, e1, e2⟩ := C28_connected ok ht r r' hrm hrm' hid hg
  have hu1 : norm4 (vector (r.tilt 0) (r.tilt 1) (r.tilt 2)) = 1 := by
    rw [norm4, Real.sqrt_eq_one, ← (C35_unit_tilts ok ht r hrm).1]
    simp [vector]
  have hu1' : norm4 (vector (r'.tilt 0) (r'.tilt 1) (r'.tilt 2)) = 1 := by
    rw [norm4, Real.sqrt_eq_one, ← (C35_unit_tilts ok ht r' hrm').1]
    simp [vector]
  obtain ⟨c, hc, hfc⟩ := List.mem_flatMap.1 hf
  obtain ⟨a, haa, rfl⟩ := List.mem_map.1 hc
  obtain ⟨e, he, hfe⟩ := List.mem_map.1 hfc
  simp only [Prod.mk.injEq] at hfe
  obtain ⟨hs, rfl⟩ := hfe
  refine ⟨a, haa, e.2, e.1, he, hs.symm, ?_⟩
  intro nn hn hidx hgl
  have hu0 : (vector (r.tilt 0) (r.tilt 1) (r.tilt 2)) ≠ 0 := by
    intro h; rw [h] at hu1; simp [norm4] at hu1
  cases hmat : s.material e.2 with
  | absorber =>
    simp only [hmat, Material.trace] at e1
    rw [e1] at hu1'
    simp [norm4] at hu1'
  | mirror =>
    simp only [hmat, Material.trace] at e1 e2
    refine ⟨fun i => ?_, e2⟩
    rw [e1]
    show _ - 2 * nn i * dot4 _ nn = _
    ring
  | glass g =>
    simp only [hmat, Material.trace] at e1 e2
    have hgp := hgl g hmat
    have a := C22_snell (vector (r.tilt 0) (r.tilt 1) (r.tilt 2)) nn r.index (g.indexAt r.wavelength) 1 hu0 hn hidx hgp one_pos
    have b := (C23_total_internal_reflection (vector (r.tilt 0) (r.tilt 1) (r.tilt 2)) nn r.index (g.indexAt r.wavelength) 1 hu0 hn hidx
      hgp one_pos).1
    dsimp only at a b
    have hu : (fun i => vector (r.tilt 0) (r.tilt 1) (r.tilt 2) i / norm4 (vector (r.tilt 0) (r.tilt 1) (r.tilt 2))) =
        vector (r.tilt 0) (r.tilt 1) (r.tilt 2) := by
      funext i; rw [hu1, div_one]
    rw [hu] at a b
    rw [← e1] at a b
    rw [← e2] at a b
    simp only [hu1, div_one] at a b
    by_cases hlt : r.index * Spec.sinTo (vector (r.tilt 0) (r.tilt 1) (r.tilt 2)) nn <
        Spec.farIndex (vector (r.tilt 0) (r.tilt 1) (r.tilt 2)) nn (g.indexAt r.wavelength) 1
    · obtain ⟨a1, a2, a3, a4, a5, a6⟩ := a hlt
      exact Or.inl ⟨hlt, a1, a2, a3, a4, a5, a6⟩
    · push Not at hlt
      obtain ⟨b1, b2⟩ := b (by rw [mul_one]; exact hlt)
      exact Or.inr ⟨hlt, b1, b2⟩

theorem trace_index (nf : Vec4 → Vec4) (m : Material) (c : Col) :
    (m.trace nf c).index = c.index ∨ (m.trace nf c).index = 1 ∨ ∃ g, m = .glass g ∧ (m.trace nf c).index = g.indexAt c.wavelength := by
  cases m with
  | absorber => exact Or.inl rfl
  | mirror => exact Or.inl rfl
  | glass g =>
    have e : ((Material.glass g).trace nf c).index =
        if 1 - (c.index / refractIndex (normalize c.ray.d) (nf c.ray.o) (g.indexAt c.wavelength) 1) ^ 2 *
            (1 - (if dot4 (normalize c.ray.d) (nf c.ray.o) > 0 then dot4 (normalize c.ray.d) (nf c.ray.o)
              else dot4 (normalize c.ray.d) (-(nf c.ray.o))) ^ 2) > 0
        then refractIndex (normalize c.ray.d) (nf c.ray.o) (g.indexAt c.wavelength) 1 else c.index := rfl
    rw [e]
    generalize dot4 (normalize c.ray.d) (-(nf c.ray.o)) = y
    by_cases h : 1 - (c.index / refractIndex (normalize c.ray.d) (nf c.ray.o) (g.indexAt c.wavelength) 1) ^ 2 *
            (1 - (if dot4 (normalize c.ray.d) (nf c.ray.o) > 0 then dot4 (normalize c.ray.d) (nf c.ray.o) else y) ^ 2) > 0
    · rw [if_pos h]
      right
      unfold refractIndex
      by_cases h' : dot4 (normalize c.ray.d) (nf c.ray.o) > 0
      · rw [if_pos h']; exact Or.inl rfl
      · rw [if_neg h']; exact Or.inr ⟨g, rfl, rfl⟩
    · rw [if_neg h]; exact Or.inl rfl

/-- **C63 (indices).** The index of every row is the one the ray was emitted with, 1, or the index of some glass surface of the
scene at the ray's wavelength. -/
theorem C63_indices (ha : IsArgsort argsort) (fuel : ℕ) (s : Scene) (hr : Reaches argsort fuel Heap.empty s.heap)
    (objs : List ℕ) (hlt : ∀ a ∈ objs, a < s.heap.size) (depth : ℕ)
    (hnd : (objs.flatMap fun a => (surfaceIds depth s.heap a).map Prod.snd).Nodup)
    (sources : List (ℕ → List Col)) (n : ℕ) (limit : ℤ)
    (hem : ∀ f ∈ sources, ∀ c ∈ f n, c.generation = 0 ∧ c.ray.o 3 = 1 ∧ c.ray.d 3 = 0 ∧ norm4 c.ray.d = 1)
    {k : ℕ} {t' : Tracer} (ht : Tracer.Traces k (Tracer.new sources (objs.map (s.component argsort depth)) n limit) t')
    (r : Row) (hrm : r ∈ t'.frame) :
    (∃ f ∈ sources, ∃ c ∈ f n, r.wavelength = c.wavelength ∧ r.index = c.index) ∨ r.index = 1 ∨
      ∃ a ∈ objs, ∃ x id g, (id, x) ∈ surfaceIds depth s.heap a ∧ s.material x = .glass g ∧ r.index = g.indexAt r.wavelength := by
  have ok := scene_tracer_ok argsort ha fuel s hr objs hlt depth hnd sources n limit hem
  obtain ⟨i, g, -, c0, c, d, sf, he, hj, hx, hn, hs⟩ := (trace_iff ok ht r).1 hrm
  have key : ∀ g c, Journey (Tracer.new sources (objs.map (s.component argsort depth)) n limit) c0 g c →
      c.wavelength = c0.wavelength ∧ (c.index = c0.index ∨ c.index = 1 ∨
        ∃ a ∈ objs, ∃ x id g, (id, x) ∈ surfaceIds depth s.heap a ∧ s.material x = .glass g ∧ c.index = g.indexAt c.wavelength) := by
    intro g c hj
    induction hj with
    | start => exact ⟨rfl, Or.inl rfl⟩
    | next hj' hx' hn' hf ih =>
      rename_i g' c' d' s' f
      have w := (Journey.next hj' hx' hn' hf).onTheWay ok he
      refine ⟨w.wavelength, ?_⟩
      obtain ⟨b, hb, hfb⟩ := List.mem_flatMap.1 hf
      obtain ⟨a, haa, rfl⟩ := List.mem_map.1 hb
      obtain ⟨e, hee, hfe⟩ := List.mem_map.1 hfb
      simp only [Prod.mk.injEq] at hfe
      obtain ⟨-, rfl⟩ := hfe
      rcases trace_index (surfaceNormal s.heap e.2) (s.material e.2) (moved c' d') with h1 | h1 | ⟨gl, hg, h1⟩
      · rcases ih.2 with h2 | h2 | ⟨a, h3, x, id, gl, h4, h5, h6⟩
        · exact Or.inl (h1.trans h2)
        · exact Or.inr (Or.inl (h1.trans h2))
        · refine Or.inr (Or.inr ⟨a, h3, x, id, gl, h4, h5, ?_⟩)
          rw [w.wavelength, ← ih.1]
          exact h1.trans h6
      · exact Or.inr (Or.inl h1)
      · refine Or.inr (Or.inr ⟨a, haa, e.2, e.1, gl, hee, hg, ?_⟩)
        rw [w.wavelength, ← ih.1]
        exact h1
  obtain ⟨hw, hidx⟩ := key g c hj
  rw [hs.index, hs.wavelength]
  rcases hidx with h | h
  · left
    obtain ⟨c', hc', rfl⟩ := he
    obtain ⟨f, hf, hcf⟩ := List.mem_flatMap.1 (List.mem_of_getElem? hc')
    exact ⟨f, hf, c', hcf, hw, h⟩
  · exact Or.inr h

/-- non-vacuity of C63: the ray in the spherical mirror has consecutive rows, and its direction is turned round -/
example (ha : IsArgsort argsort) : ∃ (k : ℕ) (t' : Tracer) (r r' : Row), Tracer.Traces k (ballTracer argsort .mirror 0 1 100 3) t' ∧
    r ∈ t'.frame ∧ r' ∈ t'.frame ∧ r'.id = r.id ∧ r'.generation = r.generation + 1 ∧
    Interacts .mirror r.wavelength (vector 0 0 1) (vector 0 0 1) 1 (vector 0 0 (-1)) 1 := by
  obtain ⟨k, t', h, ok, hrows⟩ := resonator_rows argsort ha
  obtain ⟨r, h1, h2, h3⟩ := (hrows 0).2 (by norm_num)
  obtain ⟨r', h1', h2', h3'⟩ := (hrows 1).2 (by norm_num)
  refine ⟨k, t', r, r', h, h1, h1', by rw [h3, h3'], by rw [h2, h2']; norm_num, ?_, rfl⟩
  intro i
  fin_cases i <;> simp [vector, dot4] <;> norm_num

end PyRayT
