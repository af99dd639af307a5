import Verif.Model.Show
import Verif.Props.Tracer2
import Verif.Props.Utils
import Mathlib.Tactic.NormNum.RealSqrt

/-!
# Properties C82-C84: Abbe numbers, plotted rays, scalar wavelengths
-/

namespace PyRayT

open Spec

/-! ### C82 Abbe numbers -/

namespace Spec

/-- `v` is the Abbe number of a glass: `v (n_F - n_C) = n_D - 1` with the F, D and C lines in microns -/
def IsAbbe (m : IndexModel) (v : ℝ) : Prop := v * (m.indexAt 0.4861 - m.indexAt 0.6563) = m.indexAt 0.5893 - 1

/-- the index differs at the two ends of the spectrum -/
def Disperses (m : IndexModel) : Prop := m.indexAt 0.4861 ≠ m.indexAt 0.6563

end Spec

theorem abbe_isAbbe {m : IndexModel} (h : Disperses m) : ∃ v, m.abbeCall = some v ∧ IsAbbe m v := by
  cases m with
  | basic n => exact absurd rfl h
  | sellmeier b1 b2 b3 c1 c2 c3 =>
    refine ⟨_, rfl, ?_⟩
    unfold IsAbbe IndexModel.abbe
    rw [div_mul_cancel₀]
    exact sub_ne_zero.2 h

/-- every cached value was computed when its glass was as it was at some moment; `unedited` glasses are still so -/
def AbbeCacheOk (s : GlassWorld) (clean : ℕ → Prop) : Prop :=
  ∀ e ∈ s.cache, clean e.1 → (s.model e.1).abbeCall = some e.2

theorem abbe_model (s : GlassWorld) (g : ℕ) : (s.abbe g).1.model = s.model := by
  unfold GlassWorld.abbe
  split
  · rfl
  · split <;> rfl

theorem abbe_ok {s : GlassWorld} {clean : ℕ → Prop} (ok : AbbeCacheOk s clean) (g : ℕ) : AbbeCacheOk (s.abbe g).1 clean := by
  intro e he hc
  rw [abbe_model]
  unfold GlassWorld.abbe at he
  split at he
  · rename_i e' hf
    simp only [List.mem_cons] at he
    rcases he with rfl | he
    · exact ok _ (List.mem_of_find?_eq_some hf) hc
    · exact ok _ (List.mem_filter.1 he).1 hc
  · split at he
    · exact ok e he hc
    · rename_i v hv
      have := List.mem_of_mem_take he
      simp only [List.mem_cons] at this
      rcases this with rfl | he
      · exact hv
      · exact ok e he hc

theorem abbe_value {s : GlassWorld} {clean : ℕ → Prop} (ok : AbbeCacheOk s clean) (g : ℕ) (hc : clean g) :
    (s.abbe g).2 = (s.model g).abbeCall := by
  unfold GlassWorld.abbe
  split
  · rename_i e hf
    have h1 := List.mem_of_find?_eq_some hf
    have h2 : e.1 = g := by simpa using List.find?_some hf
    have := ok e h1 (by rw [h2]; exact hc)
    rw [← h2, this]
  · split
    · rename_i h; rw [h]
    · rename_i v h; rw [h]

theorem run_abbe_ok {s : GlassWorld} {g : ℕ} (ok : AbbeCacheOk s (· = g)) (ops : List GlassOp) (h : ∀ m, .edit g m ∉ ops) :
    AbbeCacheOk (s.run ops) (· = g) ∧ (s.run ops).model g = s.model g := by
  induction ops generalizing s with
  | nil => exact ⟨ok, rfl⟩
  | cons o ops ih =>
    have ok' : AbbeCacheOk (s.step o) (· = g) ∧ (s.step o).model g = s.model g := by
      cases o with
      | abbe g' => exact ⟨abbe_ok ok g', by show (s.abbe g').1.model g = _; rw [abbe_model]⟩
      | edit g' m =>
        have hne : g ≠ g' := fun e => h m (by rw [e]; simp)
        have hm : (s.step (.edit g' m)).model g = s.model g := by simp [GlassWorld.step, hne]
        refine ⟨fun e he hc => ?_, hm⟩
        rw [hc, hm]
        have := ok e he hc
        rw [hc] at this
        exact this
    obtain ⟨h1, h2⟩ := ih ok'.1 (fun m hm => h m (by simp [hm]))
    exact ⟨h1, h2.trans ok'.2⟩

/-- glasses whose `abbe()` was not called have no entry -/
theorem run_no_entry {s : GlassWorld} {g : ℕ} (h0 : ∀ e ∈ s.cache, e.1 ≠ g) (ops : List GlassOp) (h : .abbe g ∉ ops) :
    ∀ e ∈ (s.run ops).cache, e.1 ≠ g := by
  induction ops generalizing s with
  | nil => exact h0
  | cons o ops ih =>
    refine ih (s := s.step o) ?_ (fun hm => h (by simp [hm]))
    cases o with
    | edit g' m => exact h0
    | abbe g' =>
      have hne : g' ≠ g := fun e => h (by rw [e]; simp)
      intro e he
      simp only [GlassWorld.step, GlassWorld.abbe] at he
      split at he
      · rename_i e' hf
        simp only [List.mem_cons] at he
        rcases he with rfl | he
        · exact h0 _ (List.mem_of_find?_eq_some hf)
        · exact h0 _ (List.mem_filter.1 he).1
      · split at he
        · exact h0 e he
        · have := List.mem_of_mem_take he
          simp only [List.mem_cons] at this
          rcases this with rfl | he
          · exact hne
          · exact h0 e he

/-- **C82, partial.** Starting with an empty cache: whatever calls and edits of any glasses came before, if the coefficients of a
dispersive glass have not been assigned since its first `abbe()` call, `abbe()` returns the Abbe number of its current coefficients.
Missing: edited glasses (`C82_edited_false`), non-dispersive glasses (`C82_basic_false`). -/
theorem C82_abbe_partial (s : GlassWorld) (hs : s.cache = []) (before after : List GlassOp) (g : ℕ)
    (hb : .abbe g ∉ before) (ha : ∀ m, .edit g m ∉ after) (hd : Disperses ((s.run (before ++ after)).model g)) :
    ∃ v, ((s.run (before ++ after)).abbe g).2 = some v ∧ IsAbbe ((s.run (before ++ after)).model g) v := by
  have h1 := run_no_entry (s := s) (g := g) (by simp [hs]) before hb
  have e : s.run (before ++ after) = (s.run before).run after := by unfold GlassWorld.run; rw [List.foldl_append]
  rw [e] at hd ⊢
  obtain ⟨h2, -⟩ := run_abbe_ok (s := s.run before) (g := g) (fun e he hc => absurd hc (h1 e he)) after ha
  obtain ⟨v, hv, hv'⟩ := abbe_isAbbe hd
  exact ⟨v, by rw [abbe_value h2 g rfl]; exact hv, hv'⟩

/-- bounds of a Sellmeier index from bounds of its square -/
theorem sqrt_between {q lo hi : ℝ} (hlo : 0 ≤ lo) (h1 : lo ^ 2 < q) (h2 : q < hi ^ 2) (hhi : 0 < hi) : lo < √q ∧ √q < hi :=
  ⟨(Real.lt_sqrt hlo).2 h1, (Real.sqrt_lt' hhi).2 h2⟩

theorem abbe_between {m : IndexModel} {f d c f' d' c' lo hi : ℝ} (hf : f < m.indexAt 0.4861 ∧ m.indexAt 0.4861 < f')
    (hd : d < m.indexAt 0.5893 ∧ m.indexAt 0.5893 < d') (hc : c < m.indexAt 0.6563 ∧ m.indexAt 0.6563 < c') (hpos : c' < f)
    (hlo0 : 0 < lo) (hhi0 : 0 < hi) (hlo : lo * (f' - c) < d - 1) (hhi : d' - 1 < hi * (f - c')) : lo < m.abbe ∧ m.abbe < hi := by
  unfold IndexModel.abbe
  have hden : 0 < m.indexAt 0.4861 - m.indexAt 0.6563 := by linarith
  rw [lt_div_iff₀ hden, div_lt_iff₀ hden]
  constructor <;> nlinarith

/-- **C82, catalogue.** The Abbe numbers of the glasses that come with the package are those of the catalogue (to two decimals:
64.13, 32.23 and 33.83 for the D line at 589.3 nm). -/
theorem C82_catalogue : (64.13 < glassBK7.abbe ∧ glassBK7.abbe < 64.14) ∧ (32.22 < glassSF5.abbe ∧ glassSF5.abbe < 32.23) ∧
    (33.82 < glassSF2.abbe ∧ glassSF2.abbe < 33.83) := by
  refine ⟨?_, ?_, ?_⟩
  · refine abbe_between (f := 1.5223786) (f' := 1.5223787) (d := 1.5167276) (d' := 1.5167277) (c := 1.5143214) (c' := 1.5143215)
      ?_ ?_ ?_ ?_ ?_ ?_ ?_ ?_
    all_goals first
      | (unfold glassBK7 IndexModel.indexAt; exact sqrt_between (by norm_num) (by norm_num) (by norm_num) (by norm_num))
      | norm_num
  · refine abbe_between (f := 1.6875028) (f' := 1.6875029) (d := 1.6725251) (d' := 1.6725252) (c := 1.6666358) (c' := 1.6666359)
      ?_ ?_ ?_ ?_ ?_ ?_ ?_ ?_
    all_goals first
      | (unfold glassSF5 IndexModel.indexAt; exact sqrt_between (by norm_num) (by norm_num) (by norm_num) (by norm_num))
      | norm_num
  · refine abbe_between (f := 1.6612372) (f' := 1.6612373) (d := 1.6475216) (d' := 1.6475217) (c := 1.6420943) (c' := 1.6420944)
      ?_ ?_ ?_ ?_ ?_ ?_ ?_ ?_
    all_goals first
      | (unfold glassSF2 IndexModel.indexAt; exact sqrt_between (by norm_num) (by norm_num) (by norm_num) (by norm_num))
      | norm_num

theorem bk7_disperses : Disperses glassBK7 := by
  intro h
  have := C82_catalogue.1.1
  unfold IndexModel.abbe at this
  rw [h, sub_self, div_zero] at this
  norm_num at this

theorem sf5_disperses : Disperses glassSF5 := by
  intro h
  have := C82_catalogue.2.1.1
  unfold IndexModel.abbe at this
  rw [h, sub_self, div_zero] at this
  norm_num at this

/-- **C82 is false for edited glasses.** A glass with the coefficients of BK7 is asked for its Abbe number, then given the
coefficients of SF5: `abbe()` still returns that of BK7, about twice the right value. -/
theorem C82_edited_false : ∃ s : GlassWorld, s.cache = [] ∧
    let s' := s.run [.abbe 0, .edit 0 glassSF5]
    Disperses (s'.model 0) ∧ ∃ v, (s'.abbe 0).2 = some v ∧ 64 < v ∧ ¬ IsAbbe (s'.model 0) v := by
  refine ⟨⟨fun _ => glassBK7, []⟩, rfl, ?_⟩
  have hm : ((⟨fun _ => glassBK7, []⟩ : GlassWorld).run [.abbe 0, .edit 0 glassSF5]).model 0 = glassSF5 := by
    simp [GlassWorld.run, GlassWorld.step]
  have hc : ((⟨fun _ => glassBK7, []⟩ : GlassWorld).run [.abbe 0, .edit 0 glassSF5]).cache = [(0, glassBK7.abbe)] := by
    simp [GlassWorld.run, GlassWorld.step, GlassWorld.abbe, IndexModel.abbeCall, glassBK7]
  simp only
  rw [hm]
  refine ⟨sf5_disperses, glassBK7.abbe, ?_, by linarith [C82_catalogue.1.1], ?_⟩
  · unfold GlassWorld.abbe
    rw [hc]
    simp
  · intro h
    obtain ⟨v, hv, hv'⟩ := abbe_isAbbe sf5_disperses
    have e : v = glassSF5.abbe := by
      unfold IndexModel.abbeCall glassSF5 at hv
      exact (Option.some.inj hv).symm
    unfold IsAbbe at h hv'
    have := mul_right_cancel₀ (sub_ne_zero.2 sf5_disperses) (h.trans hv'.symm)
    rw [e] at this
    linarith [C82_catalogue.1.1, C82_catalogue.2.1.2]

/-- **C82 is false for ideal glasses**: `abbe()` of a `BasicRefractor` raises `ZeroDivisionError` (its dispersion is zero). -/
theorem C82_basic_false (n : ℝ) (s : GlassWorld) (hs : s.cache = []) (g : ℕ) (hm : s.model g = .basic n) : (s.abbe g).2 = none := by
  unfold GlassWorld.abbe
  rw [hs, hm]
  rfl

/-- Non-vacuity of `C82_abbe_partial`: BK7 asked twice while another glass is edited in between. -/
example : ∃ v, (((⟨fun _ => glassBK7, []⟩ : GlassWorld).run ([] ++ [.abbe 0, .abbe 1, .edit 1 glassSF5])).abbe 0).2 = some v := by
  obtain ⟨v, h, -⟩ := C82_abbe_partial ⟨fun _ => glassBK7, []⟩ rfl [] [.abbe 0, .abbe 1, .edit 1 glassSF5] 0 (by simp)
    (by simp) (by simpa [GlassWorld.run, GlassWorld.step, abbe_model] using bk7_disperses)
  exact ⟨v, h⟩

/-! ### C83 plotted rays -/

namespace Spec

/-- the second axis of a projection -/
def vertical : ShowView → Fin 3
  | .xz => 2
  | _ => 1

/-- the arrow of a row: from the projected start to the projected end -/
def ArrowOf (view : ShowView) (r : Row) (a : Arrow) : Prop :=
  a.x = r.start 0 ∧ a.y = r.start (vertical view) ∧ a.x + a.u = r.stop 0 ∧ a.y + a.v = r.stop (vertical view)

/-- the colour of the `j`-th of `n` sources: that of the `j`-th of `n` equally spaced wavelengths from 0.45 to 0.65 microns -/
noncomputable def colorOfSource (n j : ℕ) : Option (Fin 3 → ℝ) :=
  wavelengthToRgb 0.8 (if n = 1 then 0.45 else 0.45 + 0.2 * (j / ((n : ℝ) - 1)))

end Spec

theorem foldl_pick {α : Type} (N j : ℕ) (hj : j < N) (P : ℕ → Prop) [DecidablePred P] (f : ℕ → Option α) (h : ∀ n, P n ↔ n = j) :
    (List.range N).foldl (fun (c : Option α) n => if P n then f n else c) none = f j := by
  induction N with
  | zero => omega
  | succ N ih =>
    rw [List.range_succ, List.foldl_append]
    simp only [List.foldl_cons, List.foldl_nil]
    by_cases hP : P N
    · rw [if_pos hP, (h N).1 hP]
    · rw [if_neg hP]
      exact ih (by have : N ≠ j := fun e => hP ((h N).2 e); omega)

theorem sourceColor_eq (t : Tracer) (j k : ℕ) (hj : j < t.sources.length) (hk : k < t.raysPerSource) :
    t.sourceColor ((j * t.raysPerSource + k : ℕ) : ℝ) = colorOfSource t.sources.length j := by
  classical
  unfold Tracer.sourceColor
  rw [foldl_pick t.sources.length j hj _ _ (fun n => ?_)]
  · unfold colorOfSource linspace
    congr 1
    split
    · rfl
    · ring
  · constructor
    · rintro ⟨h1, h2⟩
      have h1' : n * t.raysPerSource ≤ j * t.raysPerSource + k := by exact_mod_cast h1
      have h2' : j * t.raysPerSource + k < (n + 1) * t.raysPerSource := by exact_mod_cast h2
      rcases Nat.lt_trichotomy n j with hlt | heq | hgt
      · have := Nat.mul_le_mul_right t.raysPerSource (Nat.succ_le_of_lt hlt)
        rw [Nat.succ_eq_add_one] at this
        omega
      · exact heq
      · have := Nat.mul_le_mul_right t.raysPerSource (Nat.succ_le_of_lt hgt)
        rw [Nat.succ_eq_add_one, Nat.add_mul] at this
        omega
    · rintro rfl
      constructor
      · exact_mod_cast Nat.le_add_right _ _
      · have : n * t.raysPerSource + k < (n + 1) * t.raysPerSource := by rw [Nat.add_mul]; omega
        exact_mod_cast this

theorem showRays_complete {t : Tracer} (hc : t.complete = true) (view : ShowView) (hv : view = .xy ∨ view = .xz) (c : ColorBy) :
    ∃ arrows, t.showRays view c = .quiver arrows ∧ arrows.length = t.frame.length ∧
      ∀ (p : ℕ) (r : Row), t.frame[p]? = some r → ∃ a, arrows[p]? = some a ∧ ArrowOf view r a ∧ a.color = t.arrowColor c r := by
  rcases hv with rfl | rfl
  · refine ⟨_, by simp only [Tracer.showRays, hc, if_true]; rfl, by simp, fun p r hr => ⟨_, by rw [List.getElem?_map, hr]; rfl, ?_, rfl⟩⟩
    simp [ArrowOf, vertical]
  · refine ⟨_, by simp only [Tracer.showRays, hc, if_true]; rfl, by simp, fun p r hr => ⟨_, by rw [List.getElem?_map, hr]; rfl, ?_, rfl⟩⟩
    simp [ArrowOf, vertical]

theorem traces_complete {m : ℕ} {t t' : Tracer} (h : Tracer.Traces m t t') : t'.complete = true := by
  have key : ∀ {m : ℕ} {s s' : Tracer}, Tracer.Runs m s s' → s.phase ≠ .idle → s'.complete = true := by
    intro m s s' hr
    induction hr with
    | stop h => intro hn; exact absurd h hn
    | @step n s u s' hp hs hrun ih =>
      intro _
      by_cases hu : u.phase = .idle
      · have hsf : s.phase = .finish := by
          unfold Tracer.step at hs
          split at hs
          · unfold Tracer.stInitialize at hs
            simp only at hs
            split at hs
            · cases hs
            · cases hs; cases hu
          · cases hs; cases hu
          · cases hs
            unfold Tracer.stInteract at hu
            simp only at hu
            split at hu
            · cases hu
            · split at hu <;> cases hu
          · assumption
          · cases hs
        unfold Tracer.step at hs
        rw [hsf] at hs
        simp only [Option.some.injEq] at hs
        cases hrun with
        | stop _ => rw [← hs]; rfl
        | step hp' _ _ => exact absurd hu hp'
      · exact ih hu
  exact key h (by simp)

/-- **C83, partial.** After a trace, and whatever the two views, `show` draws one arrow per row of the results, from the projected
start to the projected end of the segment. Coloured by wavelength, each arrow has the colour of its row's wavelength; coloured by
source (if every source emits as many rays as it is asked for), each arrow has the colour of the source that emitted the ray. Before
any trace and after `reset()` no arrow is drawn. Missing: a number of rays per source that is changed between tracing and showing
(`C83_changed_false`). -/
theorem C83_show_partial {m : ℕ} {t t' : Tracer} (ok : TracerOk t) (h : Tracer.Traces m t t') (view : ShowView)
    (hv : view = .xy ∨ view = .xz) (c : ColorBy) :
    (∃ arrows, t'.showRays view c = .quiver arrows ∧ arrows.length = t'.frame.length ∧
      ∀ (p : ℕ) (r : Row), t'.frame[p]? = some r → ∃ a, arrows[p]? = some a ∧ ArrowOf view r a ∧
        (c = .uniform → a.color = .c0) ∧
        (c = .wavelength → a.color = .rgb (wavelengthToRgb 0.8 r.wavelength)) ∧
        (c = .source → (∀ s ∈ t.sources, (s t.raysPerSource).length = t.raysPerSource) →
          ∃ (j k g : ℕ) (s : ℕ → List Col) (c0 : Col), t.sources[j]? = some s ∧ (s t.raysPerSource)[k]? = some c0 ∧
            Emitted t (j * t.raysPerSource + k) { c0 with id := r.id } ∧ Leaves t (j * t.raysPerSource + k) g r ∧
            a.color = .rgb (colorOfSource t.sources.length j))) ∧
    t'.reset.showRays view c = .nothing := by
  refine ⟨?_, by rcases hv with rfl | rfl <;> rfl⟩
  obtain ⟨arrows, h1, h2, h3⟩ := showRays_complete (traces_complete h) view hv c
  refine ⟨arrows, h1, h2, fun p r hr => ?_⟩
  obtain ⟨a, ha, hav, hac⟩ := h3 p r hr
  refine ⟨a, ha, hav, ?_, ?_, ?_⟩
  · rintro rfl; exact hac
  · rintro rfl; exact hac
  · rintro rfl hn
    obtain ⟨j, k, g, s, c0, e1, e2, e3, e4, e5, -⟩ := C34_source_ids ok h hn p r hr
    refine ⟨j, k, g, s, c0, e1, e2, e3, e4, ?_⟩
    obtain ⟨-, G, hd, -⟩ := h.result
    have hs : t'.sources = t.sources := hd.same.sources
    have hrps : t'.raysPerSource = t.raysPerSource := hd.same.raysPerSource
    have hj := (List.getElem?_eq_some_iff.1 e1).1
    have hk : k < t.raysPerSource := by
      have := (List.getElem?_eq_some_iff.1 e2).1
      rwa [hn s (List.mem_of_getElem? e1)] at this
    rw [hac]
    show ArrowColor.rgb (t'.sourceColor r.id) = _
    have := sourceColor_eq t' j k (by rw [hs]; exact hj) (by rw [hrps]; exact hk)
    rw [hrps, hs] at this
    rw [e5, this]

variable (argsort : List EReal → List ℕ)

/-- **C83 is false if the number of rays per source is changed before showing.** Two sources with one ray each; after
`set_rays_per_source(2)` the ray of the second source (it travels along -z) is drawn in the colour of the first. (Non-vacuity of
`C83_show_partial`, too: `C34_changed_rays_per_source` provides a trace with two sources that emit what they are asked for.) -/
theorem C83_changed_false (ha : IsArgsort argsort) : ∃ n t', Tracer.Traces n (twoSources argsort) t' ∧
    ∃ (p : ℕ) (r : Row), t'.frame[p]? = some r ∧ r.tilt 2 = -1 ∧
      t'.sourceColor r.id = colorOfSource 2 1 ∧ (t'.setRaysPerSource 2).sourceColor r.id = colorOfSource 2 0 ∧
      colorOfSource 2 0 ≠ colorOfSource 2 1 := by
  obtain ⟨n, t', h, hn, p, r, hp, ht, h1, h2⟩ := C34_changed_rays_per_source argsort ha
  have ok := twoSources_ok argsort ha
  obtain ⟨-, G, hd, -⟩ := h.result
  have hs : t'.sources.length = 2 := by rw [hd.same.sources]; rfl
  have hrps : t'.raysPerSource = 1 := by rw [hd.same.raysPerSource]; rfl
  have hid : r.id = 1 := by
    obtain ⟨j, k, g, s, c0, e1, e2, e3, e4, e5, e6⟩ := C34_source_ids ok h hn p r hp
    rw [h1] at e6
    have hj : (1 : ℤ) = j := Option.some.inj e6
    have hj' : j = 1 := by exact_mod_cast hj.symm
    have hk : k < 1 := by
      have := (List.getElem?_eq_some_iff.1 e2).1
      rw [hn s (List.mem_of_getElem? e1)] at this
      exact this
    have hk0 : k = 0 := by omega
    rw [e5, hj', hk0]
    have : (twoSources argsort).raysPerSource = 1 := rfl
    rw [this]
    norm_num
  refine ⟨n, t', h, p, r, hp, ht, ?_, ?_, ?_⟩
  · have := sourceColor_eq t' 1 0 (by omega) (by omega)
    rw [hrps, hs] at this
    rw [hid]
    simpa using this
  · have := sourceColor_eq (t'.setRaysPerSource 2) 0 1 (by show 0 < t'.sources.length; omega) (by show 1 < 2; omega)
    rw [show (t'.setRaysPerSource 2).sources.length = 2 from hs] at this
    rw [hid]
    simpa using this
  · intro e
    unfold colorOfSource at e
    norm_num [wavelengthToRgb, paint] at e

/-- **C84, partial.** For an array of wavelengths `wavelength_to_rgb` returns one colour per entry, in order. Missing: a single number,
which the documentation allows too (`C84_scalar_false`). -/
theorem C84_array_partial (gamma : ℝ) (ws : List ℝ) : ∃ cs, wavelengthToRgbCall gamma (.inl ws) = some cs ∧ cs.length = ws.length ∧
    ∀ (i : ℕ) (w : ℝ), ws[i]? = some w → ∃ c : Fin 3 → ℝ, cs[i]? = some (some c) ∧
      (wavelengthToRgbCall gamma (.inl [w]) = some [some c]) := by
  refine ⟨_, rfl, by simp, fun i w hw => ?_⟩
  have hsome : ∃ c, wavelengthToRgb gamma w = some c := by
    rcases lt_or_ge w 0.44 with h | h <;> rcases lt_or_ge w 0.49 with h2 | h2 <;> rcases lt_or_ge w 0.51 with h3 | h3 <;>
      rcases lt_or_ge w 0.58 with h4 | h4 <;> rcases lt_or_ge w 0.645 with h5 | h5 <;>
      simp [wavelengthToRgb, paint, h, h2, h3, h4, h5, not_lt.2, not_le.2] <;> linarith
  obtain ⟨c, hc⟩ := hsome
  exact ⟨c, by rw [List.getElem?_map, hw]; simp [hc], by simp [wavelengthToRgbCall, hc]⟩

/-- **C84 is false for a single number**: `wavelength_to_rgb(0.5)` raises `IndexError`. -/
theorem C84_scalar_false (gamma w : ℝ) : wavelengthToRgbCall gamma (.inr w) = none := rfl

/-- non-vacuity of `C84_array_partial` -/
example : ([0.5, 0.6] : List ℝ)[1]? = some (0.6 : ℝ) := rfl

end PyRayT
