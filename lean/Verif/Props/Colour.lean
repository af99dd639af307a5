import Verif.Props.LightGuide

/-!
# Property C106: colour, intensity and number of a ray do not bend it; only the indices of the glasses do
-/

namespace PyRayT

open Classical Matrix Spec

variable {argsort : List EReal → List ℕ} {fuel : ℕ} {s : Scene} {objs : List ℕ} {depth : ℕ} {sources sources' : List (ℕ → List Col)} {m m' : ℕ} {limit : ℤ}
  {k k' : ℕ} {f f' : Tracer}

/-- the ray with the labels (number, colour, intensity) of another one -/
def labelled (l c : Col) : Col := { c with id := l.id, wavelength := l.wavelength, intensity := l.intensity }

/-- The surfaces of glass on which rows of the ray number `i` end have the same index at the two wavelengths. -/
def Spec.SameIndices (s : Scene) (objs : List ℕ) (depth : ℕ) (f : Tracer) (i : ℕ) (w w' : ℝ) : Prop :=
  ∀ r ∈ f.frame, r.id = i → ∀ a ∈ objs, ∀ x id g, (id, x) ∈ surfaceIds depth s.heap a → r.surface = (id : ℤ) → s.material x = .glass g →
    g.indexAt w = g.indexAt w'

theorem Material.trace_labelled {nf : Vec4 → Vec4} {l c : Col} {mat : Material} (h : ∀ g, mat = .glass g → g.indexAt l.wavelength = g.indexAt c.wavelength) :
    mat.trace nf (labelled l c) = labelled l (mat.trace nf c) := by
  cases mat with
  | absorber => rfl
  | mirror => rfl
  | glass g =>
    have := h g rfl
    simp only [Material.trace, labelled, this]

/-- one more interaction of a ray that differs from another one only by its labels -/
theorem labelled_step {t t' : Tracer} (hl : t'.lut = (objs.map (s.component argsort depth)).flatMap Component.surfaces) (hc : t'.components = t.components)
    (ho : t'.offset = t.offset) (hlut : t'.lut = t.lut) {l c : Col} {g : ℕ} {d : ℝ} {sf : ℤ} {fn : Col → Col} (hj : Journey t' l g (labelled l c)) (hne : ¬ Extinct c)
    (hn : Nearest t.components c.ray d sf) (hmem : (sf, fn) ∈ t.lut)
    (hsame : ∀ a ∈ objs, ∀ x id q, (id, x) ∈ surfaceIds depth s.heap a → sf = (id : ℤ) → s.material x = .glass q → q.indexAt l.wavelength = q.indexAt c.wavelength) :
    Journey t' l (g + 1) (labelled l (moved { fn (moved c d) with generation := (g : ℝ) + 1 } t.offset)) := by
  have h := hj.next (t := t') (d := d) (s := sf) (f := fn) hne (by rw [hc]; exact hn) (by rw [hlut]; exact hmem)
  rw [← hlut, hl, List.mem_flatMap] at hmem
  obtain ⟨co, hco, he⟩ := hmem
  obtain ⟨a, haa, rfl⟩ := List.mem_map.1 hco
  obtain ⟨e, hes, hee⟩ := List.mem_map.1 he
  cases hee
  have e1 : moved (labelled l c) d = labelled l (moved c d) := rfl
  have e2 : (s.material e.2).trace (surfaceNormal s.heap e.2) (labelled l (moved c d)) = labelled l ((s.material e.2).trace (surfaceNormal s.heap e.2) (moved c d)) :=
    Material.trace_labelled fun q hq => hsame a haa e.2 e.1 q hes rfl hq
  simp only [e1, e2, ho] at h
  exact h

/-- **C106.** Two rays of two traces through the same scene, with the same start, direction and index, but any numbers, intensities and wavelengths. If the
glasses that the first one meets have the same index at both wavelengths, the two rays go the same way: each row of one is, but for number, intensity and wavelength, a row of the other. -/
theorem C106_labels (ha : IsArgsort argsort) (hr : Reaches argsort fuel Heap.empty s.heap) (hlt : ∀ a ∈ objs, a < s.heap.size)
    (hnd : (objs.flatMap fun a => (surfaceIds depth s.heap a).map Prod.snd).Nodup)
    (hem : ∀ f ∈ sources, ∀ c ∈ f m, c.generation = 0 ∧ c.ray.o 3 = 1 ∧ c.ray.d 3 = 0 ∧ norm4 c.ray.d = 1)
    (hem' : ∀ f ∈ sources', ∀ c ∈ f m', c.generation = 0 ∧ c.ray.o 3 = 1 ∧ c.ray.d 3 = 0 ∧ norm4 c.ray.d = 1)
    (ht : Tracer.Traces k (Tracer.new sources (objs.map (s.component argsort depth)) m limit) f)
    (ht' : Tracer.Traces k' (Tracer.new sources' (objs.map (s.component argsort depth)) m' limit) f') {i j : ℕ} {c c' : Col}
    (hc : (sources.flatMap fun q => q m)[i]? = some c) (hc' : (sources'.flatMap fun q => q m')[j]? = some c') (hray : c'.ray = c.ray) (hidx : c'.index = c.index)
    (hsame : SameIndices s objs depth f i c.wavelength c'.wavelength) :
    (∀ r ∈ f.frame, r.id = i → { r with id := (j : ℝ), wavelength := c'.wavelength, intensity := c'.intensity } ∈ f'.frame) ∧
    ∀ r ∈ f'.frame, r.id = j → { r with id := (i : ℝ), wavelength := c.wavelength, intensity := c.intensity } ∈ f.frame := by
  have ok := scene_tracer_ok argsort ha fuel s hr objs hlt depth hnd sources m limit hem
  have ok' := scene_tracer_ok argsort ha fuel s hr objs hlt depth hnd sources' m' limit hem'
  set t := Tracer.new sources (objs.map (s.component argsort depth)) m limit with htd
  set t' := Tracer.new sources' (objs.map (s.component argsort depth)) m' limit with htd'
  set l : Col := { c with id := (i : ℝ) } with hl
  set l' : Col := { c' with id := (j : ℝ) } with hl'
  have he : Emitted t i l := ⟨c, hc, rfl⟩
  have he' : Emitted t' j l' := ⟨c', hc', rfl⟩
  have hgen : c.generation = 0 := (ok.emitted he).1
  have hgen' : c'.generation = 0 := (ok'.emitted he').1
  have h1 : labelled l' l = l' := by
    obtain ⟨_, _, _, _, _, _⟩ := c
    obtain ⟨_, _, _, _, _, _⟩ := c'
    simp only at hray hidx hgen hgen'
    subst hray hidx hgen hgen'
    rfl
  have h2 : labelled l l' = l := by
    obtain ⟨_, _, _, _, _, _⟩ := c
    obtain ⟨_, _, _, _, _, _⟩ := c'
    simp only at hray hidx hgen hgen'
    subst hray hidx hgen hgen'
    rfl
  -- a row of the first ray at a given stage
  have hrow : ∀ (g : ℕ) q d sf, (0 < limit → (g : ℤ) < limit) → Journey t l g q → ¬ Extinct q → Nearest t.components q.ray d sf →
      ∀ a ∈ objs, ∀ x id p, (id, x) ∈ surfaceIds depth s.heap a → sf = (id : ℤ) → s.material x = .glass p → p.indexAt c.wavelength = p.indexAt c'.wavelength := by
    intro g q d sf hg hj hne hn a haa x id p hx hsf hp
    obtain ⟨r, hseg⟩ := segment_exists q d sf
    refine hsame r ((trace_iff ok ht r).2 ⟨i, g, hg, l, q, d, sf, he, hj, hne, hn, hseg⟩) ?_ a haa x id p hx (by rw [hseg.surface, hsf]) hp
    rw [hseg.id, (hj.onTheWay ok he).id]
  have fwd : ∀ (g : ℕ) q, (0 < limit → (g : ℤ) ≤ limit) → Journey t l g q → Journey t' l' g (labelled l' q) := by
    intro g q hg hj
    induction hj with
    | start => rw [h1]; exact .start
    | @next g q d sf fn hj hne hn hmem ih =>
      have hg' : 0 < limit → (g : ℤ) < limit := fun h => by have := hg h; push_cast at this; omega
      refine labelled_step (t := t) (t' := t') rfl rfl rfl rfl (ih (fun h => (hg' h).le)) hne hn hmem fun a haa x id p hx hsf hp => ?_
      rw [(hj.onTheWay ok he).wavelength]
      exact (hrow g q d sf hg' hj hne hn a haa x id p hx hsf hp).symm
  have bwd : ∀ (g : ℕ) q, (0 < limit → (g : ℤ) ≤ limit) → Journey t' l' g q → Journey t l g (labelled l q) := by
    intro g q hg hj
    induction hj with
    | start => rw [h2]; exact .start
    | @next g q d sf fn hj hne hn hmem ih =>
      have hg' : 0 < limit → (g : ℤ) < limit := fun h => by have := hg h; push_cast at this; omega
      have hj' := ih (fun h => (hg' h).le)
      refine labelled_step (t := t') (t' := t) rfl rfl rfl rfl hj' hne hn hmem fun a haa x id p hx hsf hp => ?_
      rw [(hj.onTheWay ok' he').wavelength]
      exact hrow g (labelled l q) d sf hg' hj' hne hn a haa x id p hx hsf hp
  refine ⟨fun r hrm hid => ?_, fun r hrm hid => ?_⟩
  · obtain ⟨i', g, hg, c0, q, d, sf, he0, hj, hne, hn, hseg⟩ := (trace_iff ok ht r).1 hrm
    have hii : i' = i := by
      have := hseg.id
      rw [(hj.onTheWay ok he0).id, hid] at this
      obtain ⟨c1, -, rfl⟩ := he0
      simp only at this
      exact_mod_cast this.symm
    subst hii
    obtain rfl : c0 = l := by
      obtain ⟨c1, hc1, rfl⟩ := he0
      rw [show ((t.sources.flatMap fun s => s t.raysPerSource)[i']? = some c) from hc] at hc1
      cases hc1; rfl
    refine (trace_iff ok' ht' _).2 ⟨j, g, hg, l', labelled l' q, d, sf, he', fwd g q (fun h => (hg h).le) hj, hne, hn, ?_⟩
    exact ⟨hseg.generation, rfl, rfl, hseg.index, rfl, hseg.surface, hseg.start, hseg.stop, hseg.tilt⟩
  · obtain ⟨i', g, hg, c0, q, d, sf, he0, hj, hne, hn, hseg⟩ := (trace_iff ok' ht' r).1 hrm
    have hii : i' = j := by
      have := hseg.id
      rw [(hj.onTheWay ok' he0).id, hid] at this
      obtain ⟨c1, -, rfl⟩ := he0
      simp only at this
      exact_mod_cast this.symm
    subst hii
    obtain rfl : c0 = l' := by
      obtain ⟨c1, hc1, rfl⟩ := he0
      rw [show ((t'.sources.flatMap fun s => s t'.raysPerSource)[i']? = some c') from hc'] at hc1
      cases hc1; rfl
    refine (trace_iff ok ht _).2 ⟨i, g, hg, l, labelled l q, d, sf, he, bwd g q (fun h => (hg h).le) hj, hne, hn, ?_⟩
    exact ⟨hseg.generation, rfl, rfl, hseg.index, rfl, hseg.surface, hseg.start, hseg.stop, hseg.tilt⟩

/-- **C106, no dispersion.** The condition of `C106_labels` holds for all rays and wavelengths in a system without glass, and where all glasses are
`BasicRefractor`s (of constant index); and for all systems if the wavelengths are equal. -/
theorem C106_achromatic {i : ℕ} {w w' : ℝ}
    (h : w = w' ∨ ∀ a ∈ objs, ∀ x id g, (id, x) ∈ surfaceIds depth s.heap a → s.material x = .glass g → ∃ v, g = .basic v) : SameIndices s objs depth f i w w' := by
  intro r _ _ a haa x id g hx _ hg
  rcases h with rfl | h
  · rfl
  · obtain ⟨v, rfl⟩ := h a haa x id g hx hg
    rfl

/-- **C106, dispersion.** Two rays in air that come to the same point of a surface of glass from outside, in the same oblique direction, at wavelengths at which the
glass has the indices N < N' (both at least 1), part there: the second one is nearer to the normal inside. -/
theorem C106_dispersion (ha : IsArgsort argsort) (b : Bench argsort fuel s objs depth sources m) (b' : Bench argsort fuel s objs depth sources' m')
    (ht : Tracer.Traces k (Tracer.new sources (objs.map (s.component argsort depth)) m limit) f)
    (ht' : Tracer.Traces k' (Tracer.new sources' (objs.map (s.component argsort depth)) m' limit) f')
    {r q r' q' : Row} (hr : r ∈ f.frame) (hr' : r' ∈ f.frame) (hf : Follows r r') (hq : q ∈ f'.frame) (hq' : q' ∈ f'.frame) (hf' : Follows q q')
    (hdir : q.dir = r.dir) (hfin : q.finish = r.finish) (hsf : q.surface = r.surface) {x : ℕ} {g : IndexModel} (hx : EndsOn s objs depth x r)
    (hg : s.material x = .glass g) (h1 : r.index = 1) (h1' : q.index = 1) (hN : 1 ≤ g.indexAt r.wavelength) (hlt : g.indexAt r.wavelength < g.indexAt q.wavelength)
    (hin : dot4 r.dir (surfaceNormal s.heap x r.finish) < 0) (hob : 0 < Spec.sinTo r.dir (surfaceNormal s.heap x r.finish)) :
    r'.index = g.indexAt r.wavelength ∧ q'.index = g.indexAt q.wavelength ∧
      Spec.sinTo q'.dir (surfaceNormal s.heap x r.finish) < Spec.sinTo r'.dir (surfaceNormal s.heap x r.finish) ∧ r'.dir ≠ q'.dir := by
  obtain ⟨a, haa, id, hid, hs⟩ := hx
  obtain ⟨n1, -, o⟩ := b.optics ha ht hr hr' hf haa hid hs
  obtain ⟨-, -, o'⟩ := b'.optics ha ht' hq hq' hf' haa hid (hsf.trans hs)
  rw [hfin, hdir, h1', hg] at o'
  rw [h1, hg] at o
  set n := surfaceNormal s.heap x r.finish
  have hone : Spec.sinTo r.dir n < 1 := by
    show √(1 - dot4 r.dir n ^ 2) < 1
    rw [Real.sqrt_lt' one_pos]
    have := sq_pos_of_neg hin
    linarith
  simp only [Interacts] at o o'
  rw [if_neg (not_lt.2 hin.le), one_mul] at o o'
  rcases o with ⟨-, -, -, e1, -, -, e2⟩ | ⟨hle, -⟩
  · rcases o' with ⟨-, -, -, e1', -, -, e2'⟩ | ⟨hle, -⟩
    · have hlt' : Spec.sinTo q'.dir n < Spec.sinTo r'.dir n := by
        rw [e1] at e1' hob
        have h0 : 0 < Spec.sinTo r'.dir n := (mul_pos_iff_of_pos_left (show 0 < g.indexAt r.wavelength by linarith)).1 hob
        by_contra h
        have := mul_le_mul_of_nonneg_left (not_lt.1 h) (show 0 ≤ g.indexAt q.wavelength by linarith)
        have := mul_lt_mul_of_pos_right hlt h0
        linarith
      exact ⟨e2, e2', hlt', fun h => by rw [h] at hlt'; exact lt_irrefl _ hlt'⟩
    · exfalso; linarith
  · exfalso; linarith

/-! ### Examples -/

/-- non-vacuity of `C106_labels` and `C106_achromatic`: a ray of another colour and intensity behind another ray, through the rod of C105 -/
example (ha : IsArgsort argsort) : ∃ (k : ℕ) (f : Tracer) (r : ℕ → Row) (c0 c : Col),
    Tracer.Traces k (Tracer.new [fun _ => [c0, c]] ([0, 1].map ((rodBox (.glass (.basic (4 / 3)))).component argsort 1)) 1 4) f ∧ c.wavelength = 0.4 ∧ c.intensity = 7 ∧
      ∀ j ≤ 3, r j ∈ f.frame ∧ (r j).id = 1 ∧ (r j).wavelength = 0.4 ∧ (r j).intensity = 7 ∧ (j = 2 → (r j).finish = point 0 0.5 1 ∧ (r j).dir = vector 0 (-0.6) 0.8) := by
  obtain ⟨k, t', r, h, hr, hf, hs, hi, hw, d0, d1, d2, d3, p0, p1, p2⟩ := rodBox_rows ha
  set mat : Material := .glass (.basic (4 / 3)) with hmat
  have b : Bench argsort 1 (rodBox mat) [0, 1] 1 [fun _ => [plateCol (-0.8) (-1.6) 0.8 0.6 1 0]] 1 :=
    rodBox_bench argsort (fun g hg => by rw [hmat] at hg; cases hg; simp [IndexModel.indexAt]) (by norm_num)
  set c : Col := { plateCol (-0.8) (-1.6) 0.8 0.6 1 0 with wavelength := 0.4, intensity := 7 } with hc
  set c0 : Col := plateCol 5 0 1 0 1 0 with hc0
  have hem' : ∀ f ∈ [fun _ : ℕ => [c0, c]], ∀ c ∈ f 1, c.generation = 0 ∧ c.ray.o 3 = 1 ∧ c.ray.d 3 = 0 ∧ norm4 c.ray.d = 1 := by
    intro q hq x hx
    simp only [List.mem_singleton] at hq
    subst hq
    simp only [List.mem_cons, List.not_mem_nil, or_false] at hx
    rcases hx with rfl | rfl
    · exact ⟨by simp [hc0, plateCol], rfl, rfl, by simp [hc0, plateCol, planeRay, norm4, vector]⟩
    · exact ⟨by simp [hc, plateCol], rfl, rfl, by simp [hc, plateCol, planeRay, norm4, vector]; norm_num⟩
  have ok := scene_tracer_ok argsort ha 1 (rodBox mat) b.history.reaches [0, 1] b.exist 1 b.distinct [fun _ => [c0, c]] 1 4 hem'
  obtain ⟨k', f', h', -⟩ := C26_terminates (Tracer.new [fun _ => [c0, c]] ([0, 1].map ((rodBox mat).component argsort 1)) 1 4)
    (by simp [Tracer.new]) (by simp [Tracer.new]) (fun s hs c hc => (ok.emits s hs c hc).1)
  have key := (C106_labels ha b.history.reaches b.exist b.distinct b.emits hem' h h' (i := 0) (j := 1) (c := plateCol (-0.8) (-1.6) 0.8 0.6 1 0) (c' := c) rfl rfl rfl rfl
    (C106_achromatic (Or.inr fun a _ x id g _ hg => by
      simp only [rodBox, pair] at hg
      split at hg
      · cases hg
      · rw [hmat] at hg; cases hg; exact ⟨_, rfl⟩))).1
  have hid : ∀ j ≤ 3, (r j).id = ((0 : ℕ) : ℝ) := by
    have h0 : (r 0).id = ((0 : ℕ) : ℝ) := by
      obtain ⟨i, g, -, c0, q, d, sf, he, hj, -, -, hseg⟩ := (trace_iff (b.ok ha 4) h (r 0)).1 (hr 0 (by omega))
      rw [hseg.id, (hj.onTheWay (b.ok ha 4) he).id]
      obtain ⟨c', hc', rfl⟩ := he
      have : i < 1 := by
        have := (List.getElem?_eq_some_iff.1 hc').1
        simpa [Tracer.new] using this
      simp only [Nat.lt_one_iff] at this
      rw [this]
    intro j
    induction j with
    | zero => intro _; exact h0
    | succ j ih => intro hj; rw [(hf j (by omega)).1]; exact ih (by omega)
  exact ⟨k', f', fun j => { r j with id := ((1 : ℕ) : ℝ), wavelength := c.wavelength, intensity := c.intensity }, c0, c, h', rfl, rfl, fun j hj =>
    ⟨key (r j) (hr j hj) (hid j hj), by simp, rfl, rfl, fun e => by subst e; exact ⟨p2, d2⟩⟩⟩

/-- a glass with the index 1.16 at 633 nm and 4/3 at half this wavelength -/
noncomputable def flint : IndexModel := .sellmeier (1134 / 3889) 0 0 (0.633 ^ 2 * 2431 / 15556) 0 0

theorem flint_index : flint.indexAt 0.633 = 1.16 ∧ flint.indexAt 0.3165 = 4 / 3 := by
  constructor <;> (simp only [flint, IndexModel.indexAt]; rw [Real.sqrt_eq_iff_mul_self_eq (by norm_num) (by norm_num)]; norm_num)

theorem flint_first (ha : IsArgsort argsort) {w N dy dz : ℝ} (hN : flint.indexAt w = N) (hN1 : 1 ≤ N) (hd : dy ^ 2 + dz ^ 2 = 1) (hdz : 0 < dz) (hsn : 0.8 = N * dy)
    {d : ℝ} (hn : Nearest ([0, 1].map ((rodBox (.glass flint)).component argsort 1)) (planeRay (0 + 1e-6 * dy) (-1 + 1e-6 * dz) dy dz) d 1)
    (hb : ∀ w', w' = w → 0 < flint.indexAt w') :
    ∃ (c : Col), Bench argsort 1 (rodBox (.glass flint)) [0, 1] 1 [fun _ => [c]] 1 ∧ ∃ (k : ℕ) (f : Tracer) (r r' : Row),
      Tracer.Traces k (Tracer.new [fun _ => [c]] ([0, 1].map ((rodBox (.glass flint)).component argsort 1)) 1 4) f ∧ r ∈ f.frame ∧ r' ∈ f.frame ∧ Follows r r' ∧
      r.dir = vector 0 0.8 0.6 ∧ r.finish = point 0 0 (-1) ∧ r.surface = 1 ∧ r.index = 1 ∧ r.wavelength = w := by
  set mat : Material := .glass flint with hmat
  set l : Col := { plateCol (-0.8) (-1.6) 0.8 0.6 1 0 with wavelength := w } with hl
  have b0 : Bench argsort 1 (rodBox mat) [0, 1] 1 [fun _ => [plateCol (-0.8) (-1.6) 0.8 0.6 1 0]] 1 :=
    rodBox_bench argsort (fun g hg => by rw [hmat] at hg; cases hg; rw [flint_index.1]; norm_num) (by norm_num)
  have b : Bench argsort 1 (rodBox mat) [0, 1] 1 [fun _ => [l]] 1 :=
    { b0 with
      emits := fun q hq c hc => by
        simp only [List.mem_singleton] at hq
        subst hq
        simp only [List.mem_singleton] at hc
        subst hc
        exact ⟨by simp [hl, plateCol], rfl, rfl, by simp [hl, plateCol, planeRay, norm4, vector]; norm_num⟩
      positive := fun q hq c hc => by
        simp only [List.mem_singleton] at hq
        subst hq
        simp only [List.mem_singleton] at hc
        subst hc
        refine ⟨by simp [hl, plateCol], fun a _ x id g _ hg => ?_⟩
        simp only [rodBox, pair] at hg
        split at hg
        · cases hg
        · rw [hmat] at hg; cases hg; exact hb w rfl }
  refine ⟨l, b, ?_⟩
  have ok := b.ok ha 4
  obtain ⟨k, t', h, -⟩ := C26_terminates (Tracer.new [fun _ => [l]] ([0, 1].map ((rodBox mat).component argsort 1)) 1 4)
    (by simp [Tracer.new]) (by simp [Tracer.new]) (fun s hs c hc => (ok.emits s hs c hc).1)
  have n0 : Nearest ([0, 1].map ((rodBox mat).component argsort 1)) (planeRay (-0.8) (-1.6) (0.8) (0.6)) (1) 1 := by
    have hK1 : (9.9 : ℝ) < √(99.36) := by rw [Real.lt_sqrt (by norm_num)]; norm_num
    have hK2 : √(99.36) < (10 : ℝ) := by rw [Real.sqrt_lt' (by norm_num)]; norm_num
    refine (rodBox_nearest argsort mat (K := √(99.36)) (a := 1) (b := 2.25) (by norm_num) (by positivity)
      (by rw [Real.sq_sqrt (by norm_num)]; norm_num) (by norm_num at hK1 ⊢; try linarith) (by norm_num) (by norm_num) (by norm_num)
      (fun t => by rw [abs_le, abs_le]; constructor <;> (intro h; refine ⟨?_, ?_⟩ <;> norm_num at h ⊢ <;> (try constructor) <;> linarith [h.1, h.2]))
      (by norm_num at hK1 ⊢; linarith) (by norm_num at hK1 ⊢; try linarith) (Or.inr (by norm_num)) (Or.inr (by norm_num))).2 (by norm_num at hK1 ⊢; linarith) (Or.inl (by norm_num))
  have hE : surfaceNormal (rodBox mat).heap 1 (point 0 0 (-1)) = vector 0 0 (-1) := by simpa using rodBox_end mat (y := 0) (by norm_num) false
  have j1 := (Journey.start (t := Tracer.new [fun _ => [l]] ([0, 1].map ((rodBox mat).component argsort 1)) 1 4) (c0 := l)).next
    (not_extinct_of_unit (by simp [hl, plateCol, planeRay, norm4, vector]; norm_num)) (s := 1) (d := 1) n0
    (f := fun c => ((rodBox mat).material 1).trace (surfaceNormal (rodBox mat).heap 1) c)
    (by simp [Tracer.new, Scene.component, rodBox_surfaces])
  have e0 : moved l 1 = labelled l (plateCol 0 (-1) 0.8 0.6 1 0) := by
    have := moved_plateCol (-0.8) (-1.6) 0.8 0.6 1 0 1
    have e1 : moved l 1 = labelled l (moved (plateCol (-0.8) (-1.6) 0.8 0.6 1 0) 1) := rfl
    rw [e1, this]; norm_num
  have em : (rodBox mat).material 1 = mat := by simp [rodBox, pair]
  have hrf : (refract (vector 0 0.8 0.6) (vector 0 0 (-1)) 1 N 1).2.1 = vector 0 dy dz ∧ (refract (vector 0 0.8 0.6) (vector 0 0 (-1)) 1 N 1).2.2 = N := by
    apply refract_value
    · simp [dot4, vector]; norm_num
    · simp [dot4, vector]
    · norm_num
    · linarith
    · norm_num
    · rw [if_neg]; simp [dot4, vector]; norm_num
    · simp [dot4, vector]; nlinarith
    · rw [one_mul, Spec.sinTo]
      refine lt_of_lt_of_le ((Real.sqrt_lt' one_pos).2 ?_) hN1
      simp [dot4, vector]; norm_num
    · intro i; fin_cases i <;> simp [dot4, vector]
      exact hsn
    · simp [dot4, vector]; intro h; norm_num at h
    · simp [dot4, vector]; intro; exact hdz
  have e2 : { mat.trace (surfaceNormal (rodBox mat).heap 1) (labelled l (plateCol 0 (-1) 0.8 0.6 1 0)) with generation := ((0 : ℕ) : ℝ) + 1 } =
      labelled l (plateCol 0 (-1) dy dz N 1) := by
    have : (labelled l (plateCol 0 (-1) 0.8 0.6 1 0)).ray = ⟨point 0 0 (-1), vector 0 0.8 0.6⟩ := rfl
    simp only [hmat, Material.trace, this]
    rw [← hmat, hE]
    have hwl : (labelled l (plateCol 0 (-1) 0.8 0.6 1 0)).wavelength = w := rfl
    have hix : (labelled l (plateCol 0 (-1) 0.8 0.6 1 0)).index = 1 := rfl
    rw [hwl, hix, hN, hrf.1, hrf.2]
    simp [labelled, plateCol, planeRay, hl]
  have j2 : Journey (Tracer.new [fun _ => [l]] ([0, 1].map ((rodBox mat).component argsort 1)) 1 4) l 1 (labelled l (plateCol (0 + 1e-6 * dy) (-1 + 1e-6 * dz) dy dz N 1)) := by
    rw [e0] at j1
    simp only [em] at j1
    rw [e2] at j1
    have e3 : ∀ o, moved (labelled l (plateCol 0 (-1) dy dz N 1)) o = labelled l (moved (plateCol 0 (-1) dy dz N 1) o) := fun _ => rfl
    rw [e3, moved_plateCol] at j1
    exact j1
  obtain ⟨r, hr⟩ := segment_exists l 1 1
  obtain ⟨r', hr'⟩ := segment_exists (labelled l (plateCol (0 + 1e-6 * dy) (-1 + 1e-6 * dz) dy dz N 1)) d 1
  have he : Emitted (Tracer.new [fun _ => [l]] ([0, 1].map ((rodBox mat).component argsort 1)) 1 4) 0 l := ⟨l, rfl, by simp [hl, plateCol]⟩
  refine ⟨k, t', r, r', h, (trace_iff ok h r).2 ⟨0, 0, fun _ => by show ((0 : ℕ) : ℤ) < 4; norm_num, l, l, 1, 1, he, .start, not_extinct_of_unit (by
    simp [hl, plateCol, planeRay, norm4, vector]; norm_num), n0, hr⟩,
    (trace_iff ok h r').2 ⟨0, 1, fun _ => by show ((1 : ℕ) : ℤ) < 4; norm_num, l, _, d, 1, he, j2, not_extinct_of_unit (by
    simp [labelled, plateCol, planeRay, norm4, vector, hd]), hn, hr'⟩, ⟨by rw [hr.id, hr'.id]; rfl, by rw [hr.generation, hr'.generation]; simp [hl, labelled, plateCol]⟩, ?_, ?_,
    hr.surface, hr.index, hr.wavelength⟩
  · have e : √((0.8 : ℝ) ^ 2 + 0.6 ^ 2) = 1 := by rw [show (0.8 : ℝ) ^ 2 + 0.6 ^ 2 = 1 by norm_num, Real.sqrt_one]
    funext i
    fin_cases i <;> simp only [Row.dir, vector, hr.tilt] <;> simp [hl, plateCol, planeRay, vector, e]
  · funext i
    fin_cases i <;> simp only [Row.finish, point, hr.stop] <;> simp [hl, plateCol, planeRay, vector, point] <;> norm_num

/-- non-vacuity of `C106_dispersion`: red and blue part at the end of a rod of this glass -/
example (ha : IsArgsort argsort) : ∃ (c c' : Col) (k k' : ℕ) (f f' : Tracer) (r q r' q' : Row),
    Tracer.Traces k (Tracer.new [fun _ => [c]] ([0, 1].map ((rodBox (.glass flint)).component argsort 1)) 1 4) f ∧
    Tracer.Traces k' (Tracer.new [fun _ => [c']] ([0, 1].map ((rodBox (.glass flint)).component argsort 1)) 1 4) f' ∧ r ∈ f.frame ∧ r' ∈ f.frame ∧ q ∈ f'.frame ∧ q' ∈ f'.frame ∧
    r.dir = q.dir ∧ r'.index = 1.16 ∧ q'.index = 4 / 3 ∧ r'.dir ≠ q'.dir := by
  set mat : Material := .glass flint with hmat
  have n1 : Nearest ([0, 1].map ((rodBox mat).component argsort 1)) (planeRay (0 + 1e-6 * (20 / 29)) (-1 + 1e-6 * (21 / 29)) (20 / 29) (21 / 29)) (1.45 - 1e-6) 1 := by
    have hK1 : (9.9 : ℝ) < √(83700 / 841) := by rw [Real.lt_sqrt (by norm_num)]; norm_num
    have hK2 : √(83700 / 841) < (10 : ℝ) := by rw [Real.sqrt_lt' (by norm_num)]; norm_num
    refine (rodBox_nearest argsort mat (K := √(83700 / 841)) (a := -1e-6) (b := 1.45 - 1e-6) (by norm_num) (by positivity)
      (by rw [Real.sq_sqrt (by norm_num)]; norm_num) (by norm_num at hK1 ⊢; try linarith) (by norm_num) (by norm_num) (by norm_num)
      (fun t => by rw [abs_le, abs_le]; constructor <;> (intro h; refine ⟨?_, ?_⟩ <;> norm_num at h ⊢ <;> (try constructor) <;> linarith [h.1, h.2]))
      (by norm_num at hK1 ⊢; linarith) (by norm_num at hK1 ⊢; try linarith) (Or.inl (by norm_num)) (Or.inr (by norm_num))).2 (by norm_num at hK1 ⊢; linarith) (Or.inr (by norm_num))
  have n2 : Nearest ([0, 1].map ((rodBox mat).component argsort 1)) (planeRay (0 + 1e-6 * 0.6) (-1 + 1e-6 * 0.8) (0.6) (0.8)) (5 / 3 - 1e-6) 1 := by
    have hK1 : (9.9 : ℝ) < √(99.64) := by rw [Real.lt_sqrt (by norm_num)]; norm_num
    have hK2 : √(99.64) < (10 : ℝ) := by rw [Real.sqrt_lt' (by norm_num)]; norm_num
    refine (rodBox_nearest argsort mat (K := √(99.64)) (a := -1e-6) (b := 5 / 3 - 1e-6) (by norm_num) (by positivity)
      (by rw [Real.sq_sqrt (by norm_num)]; norm_num) (by norm_num at hK1 ⊢; try linarith) (by norm_num) (by norm_num) (by norm_num)
      (fun t => by rw [abs_le, abs_le]; constructor <;> (intro h; refine ⟨?_, ?_⟩ <;> norm_num at h ⊢ <;> (try constructor) <;> linarith [h.1, h.2]))
      (by norm_num at hK1 ⊢; linarith) (by norm_num at hK1 ⊢; try linarith) (Or.inl (by norm_num)) (Or.inr (by norm_num))).2 (by norm_num at hK1 ⊢; linarith) (Or.inr (by norm_num))
  obtain ⟨c, b, k, f, r, r', h, hr, hr', hf, d1, p1, s1, i1, w1⟩ := flint_first ha (w := 0.633) flint_index.1 (by norm_num) (by norm_num) (by norm_num) (by norm_num) n1
    (fun w h => by rw [h, flint_index.1]; norm_num)
  obtain ⟨c', b', k', f', q, q', h', hq, hq', hf', d2, p2, s2, i2, w2⟩ := flint_first ha (w := 0.3165) flint_index.2 (by norm_num) (by norm_num) (by norm_num) (by norm_num) n2
    (fun w h => by rw [h, flint_index.2]; norm_num)
  have hE : surfaceNormal (rodBox mat).heap 1 (point 0 0 (-1)) = vector 0 0 (-1) := by simpa using rodBox_end mat (y := 0) (by norm_num) false
  obtain ⟨e1, e2, -, e4⟩ := C106_dispersion ha b b' h h' hr hr' hf hq hq' hf' (by rw [d1, d2]) (by rw [p1, p2]) (by rw [s1, s2]) (rodBox_ends _ s1) (g := flint)
    (by simp [rodBox, pair]) i1 i2 (by rw [w1, flint_index.1]; norm_num) (by rw [w1, w2, flint_index.1, flint_index.2]; norm_num)
    (by rw [p1, hE, d1]; simp [dot4, vector]; norm_num)
    (by rw [p1, hE, d1]
        refine Real.sqrt_pos.2 ?_
        simp [dot4, vector]; norm_num)
  rw [w1, flint_index.1] at e1
  rw [w2, flint_index.2] at e2
  exact ⟨c, c', k, k', f, f', r, q, r', q', h, h', hr, hr', hq, hq', by rw [d1, d2], e1, e2, e4⟩

end PyRayT
