import Verif.Proofs.Bundles3

/-!
# The array-level tracer and the tracer on columns run in step
-/

namespace PyRayT

open Classical

/-- the columns of a table, from left to right -/
def colsOf (x : AnyTable) : List Col := List.ofFn x.2.col

/-- state of the array-level tracer and state of the tracer on columns with the same contents -/
structure TracerA.Sim (ta : TracerA) (t : Tracer) : Prop where
  sources : List.Forall₂ (fun sa s => ∀ k, colsOf (sa k) = s k) ta.sources t.sources
  components : List.Forall₂ ComponentA.Refines ta.components t.components
  raysPerSource : ta.raysPerSource = t.raysPerSource
  limit : ta.limit = t.limit
  lut : List.Forall₂ (fun ea e => ea.1 = e.1 ∧ ∀ {n : ℕ} (t : RayTable n) (j : Fin n), (ea.2 t).col j = e.2 (t.col j)) ta.lut t.lut
  offset : ta.offset = t.offset
  threshold : ta.threshold = t.threshold
  phase : ta.phase = t.phase
  frame : ta.frame = t.frame.map Row.cells
  gen : ta.gen = t.gen
  complete : ta.complete = t.complete
  rays : colsOf ta.rays = t.rays
  hits : List.ofFn (fun j => (ta.hits.2.1 j, ta.hits.2.2 j)) = t.hits
  ready : ta.phase = .interact → ta.hits.1 = ta.rays.1

section
variable {α β : Type*} {n : ℕ}

theorem ofFn_picked (mask : Fin n → Prop) (g : Fin n → β) : (List.ofFn fun p => g ((picked mask).get p)) = (picked mask).map g := by
  apply List.ext_getElem
  · simp
  · intro i h1 h2
    simp

theorem filter_ofFn (f : Fin n → α) (q : α → Prop) [DecidablePred q] : (List.ofFn f).filter (fun x => decide (q x)) = (picked fun j => q (f j)).map f := by
  rw [List.ofFn_eq_map, List.filter_map, picked]
  congr 2
  funext j
  simp only [Function.comp_apply]
  congr

theorem zip_ofFn (f : Fin n → α) (g : Fin n → β) : (List.ofFn f).zip (List.ofFn g) = List.ofFn fun j => (f j, g j) := by
  apply List.ext_getElem
  · simp
  · intro i h1 h2
    simp

theorem picked_eq_nil (mask : Fin n → Prop) : picked mask = [] ↔ ∀ j, ¬ mask j := by
  rw [List.eq_nil_iff_forall_not_mem]
  simp only [mem_picked]

theorem colsOf_hstackAll (ts : List AnyTable) : colsOf (hstackAll ts) = ts.flatMap colsOf := by
  induction ts with
  | nil => simp [colsOf, hstackAll]
  | cons t ts ih =>
    rw [List.flatMap_cons, ← ih]
    have h : (RayTable.col (hstack t.2 (hstackAll ts).2)) = Fin.append t.2.col (hstackAll ts).2.col := by
      funext j
      refine Fin.addCases (fun j => ?_) (fun j => ?_) j
      · simp only [Fin.append_left, RayTable.col, RayTable.rays, RayTable.generation, RayTable.intensity, RayTable.wavelength, RayTable.index, RayTable.id, RayTable.metadata,
          hstack]
      · simp only [Fin.append_right, RayTable.col, RayTable.rays, RayTable.generation, RayTable.intensity, RayTable.wavelength, RayTable.index, RayTable.id, RayTable.metadata,
          hstack]
    have h' := congrArg List.ofFn h
    rw [List.ofFn_fin_append] at h'
    exact h'

end

theorem colsOf_sources {sas : List (ℕ → AnyTable)} {ss : List (ℕ → List Col)} (h : List.Forall₂ (fun sa s => ∀ k, colsOf (sa k) = s k) sas ss) (k : ℕ) :
    (sas.map fun s => s k).flatMap colsOf = ss.flatMap fun s => s k := by
  induction h with
  | nil => rfl
  | cons h1 _ ih =>
    simp only [List.map_cons, List.flatMap_cons]
    rw [ih, h1]

theorem TracerA.Sim.init {ta : TracerA} {t : Tracer} (h : ta.Sim t) : Option.Rel TracerA.Sim ta.stInitialize t.stInitialize := by
  have he : ta.sources = [] ↔ t.sources = [] := by
    have := h.sources.length_eq
    constructor
    · intro hh
      rw [hh] at this
      exact List.length_eq_zero_iff.1 this.symm
    · intro hh
      rw [hh] at this
      exact List.length_eq_zero_iff.1 this
  by_cases h0 : t.sources = []
  · have e1 : t.stInitialize = none := if_pos h0
    have e2 : ta.stInitialize = none := if_pos (he.2 h0)
    rw [e1, e2]
    exact .none
  · set all := hstackAll (ta.sources.map fun s => s ta.raysPerSource) with hall
    have e1 : t.stInitialize = some { t.reset with rays := sourceRays t.sources t.raysPerSource, phase := .propagate } := if_neg h0
    have e2 : ta.stInitialize = some { ta with complete := false, frame := [], gen := 0, rays := ⟨all.1, all.2.write (.id fun j => (j.val : ℝ))⟩, phase := .propagate } :=
      if_neg fun hh => h0 (he.1 hh)
    rw [e1, e2]
    refine .some ⟨h.sources, h.components, h.raysPerSource, h.limit, h.lut, h.offset, h.threshold, rfl, rfl, rfl, rfl, ?_, h.hits, fun hh => by cases hh⟩
    have hf : colsOf all = t.sources.flatMap fun s => s t.raysPerSource := by
      rw [hall, colsOf_hstackAll, colsOf_sources h.sources, h.raysPerSource]
    simp only [sourceRays]
    rw [← hf]
    apply List.ext_getElem
    · simp [colsOf]
    · intro i h1 h2
      simp only [colsOf, List.getElem_ofFn, List.getElem_map, List.getElem_zipIdx, col_setId, zero_add]

theorem TracerA.Sim.propagate {ta : TracerA} {t : Tracer} (h : ta.Sim t) : ta.stPropagate.Sim t.stPropagate := by
  refine ⟨h.sources, h.components, h.raysPerSource, h.limit, h.lut, h.offset, h.threshold, rfl, h.frame, h.gen, h.complete, h.rays, ?_, fun _ => rfl⟩
  simp only [TracerA.stPropagate, Tracer.stPropagate]
  rw [← h.rays, colsOf, List.map_ofFn]
  congr 1
  funext j
  exact propagateA_col h.components _ j

set_option maxHeartbeats 1000000 in
theorem TracerA.Sim.interact {ta : TracerA} {t : Tracer} (h : ta.Sim t) (hp : ta.phase = .interact) : ∃ ta', ta.stInteract = some ta' ∧ ta'.Sim t.stInteract := by
  obtain ⟨sources, components, raysPerSource, limit, lut, offset, threshold, phase, frame, gen, complete, ⟨n, table⟩, ⟨m, dist, surf⟩⟩ := ta
  obtain rfl : m = n := h.ready hp
  have hz : t.rays.zip t.hits = List.ofFn fun j => (table.col j, (dist j, surf j)) := by
    rw [← h.rays, ← h.hits, colsOf, zip_ofFn]
  set dead : Fin m → Prop := fun j => npLogicalOr (close0 (colNorm (table.rays 1)) j) (surf j = -1) (table.intensity j < threshold) with hdead
  set living : Fin m → Prop := fun j => ¬ dead j with hliving
  have hd : ∀ j, deadCol t.threshold (table.col j) (dist j, surf j) = dead j := by
    intro j
    have hth : threshold = t.threshold := h.threshold
    simp only [hdead, deadCol, close0, colNorm_four, ← hth]
    rfl
  have hl : (t.rays.zip t.hits).filter (fun z => decide ¬ deadCol t.threshold z.1 z.2) = (picked living).map fun j => (table.col j, (dist j, surf j)) := by
    rw [hz, filter_ofFn _ fun z : Col × (EReal × ℤ) => ¬ deadCol t.threshold z.1 z.2]
    simp only [hd]
    rfl
  have hfr : frame = t.frame.map Row.cells := h.frame
  have hgen : gen = t.gen := h.gen
  have hlim : limit = t.limit := h.limit
  have hoff : offset = t.offset := h.offset
  by_cases hall : ∀ j, dead j
  · have hnil : (t.rays.zip t.hits).filter (fun z => decide ¬ deadCol t.threshold z.1 z.2) = [] := by
      rw [hl, (picked_eq_nil living).2 (fun j => not_not.2 (hall j)), List.map_nil]
    have e1 : t.stInteract = { t with phase := .finish } := if_pos hnil
    refine ⟨_, (dif_pos rfl).trans (if_pos hall), ?_⟩
    rw [e1]
    exact ⟨h.sources, h.components, h.raysPerSource, h.limit, h.lut, h.offset, h.threshold, rfl, h.frame, h.gen, h.complete, h.rays, h.hits, fun hh => by cases hh⟩
  · have hne : ¬ (t.rays.zip t.hits).filter (fun z => decide ¬ deadCol t.threshold z.1 z.2) = [] := by
      rw [hl]
      intro hh
      exact hall fun j => not_not.1 ((picked_eq_nil living).1 (List.map_eq_nil_iff.1 hh) j)
    have hint : ∀ j, (interactA lut dist surf table).col j = interactCol t.lut (dist j, surf j) (table.col j) := interactA_col h.lut dist surf table
    have hcol : ∀ p, RayTable.col (compress living (interactA lut dist surf table)) p =
        interactCol t.lut (dist ((picked living).get p), surf ((picked living).get p)) (table.col ((picked living).get p)) := by
      intro p
      rw [col_compress, hint]
    obtain ⟨next, hnext⟩ : ∃ next : RayTable (picked living).length, next = compress living (interactA lut dist surf table) := ⟨_, rfl⟩
    rw [← hnext] at hcol
    have hframe : frame ++ insertA (compress living table) next (compress1 living surf) =
        (t.frame ++ ((t.rays.zip t.hits).filter (fun z => decide ¬ deadCol t.threshold z.1 z.2)).map fun z => mkRow z.1 (interactCol t.lut z.2 z.1) z.2.2).map Row.cells := by
      rw [hl, List.map_append, ← hfr, insertA_eq, List.map_map, List.map_map, ← ofFn_picked]
      refine congrArg (frame ++ ·) (congrArg List.ofFn (funext fun p => ?_))
      rw [hcol, col_compress]
      rfl
    have hrays : colsOf ⟨_, next.write (.generation (npFull ((gen + 1 : ℕ) : ℝ)))⟩ =
        (((t.rays.zip t.hits).filter (fun z => decide ¬ deadCol t.threshold z.1 z.2)).map fun z => interactCol t.lut z.2 z.1).map
          fun c => { c with generation := ((t.gen + 1 : ℕ) : ℝ) } := by
      rw [hl, List.map_map, List.map_map, ← ofFn_picked, colsOf]
      refine congrArg List.ofFn (funext fun p => ?_)
      rw [col_setGeneration, hcol, hgen]
      rfl
    obtain ⟨next', hnext'⟩ : ∃ next' : RayTable (picked living).length, next' = next.write (.generation (npFull ((gen + 1 : ℕ) : ℝ))) := ⟨_, rfl⟩
    rw [← hnext'] at hrays
    by_cases hlast : ((gen + 1 : ℕ) : ℤ) = limit
    · have e1 : t.stInteract = { t with
          frame := t.frame ++ ((t.rays.zip t.hits).filter fun z => decide ¬ deadCol t.threshold z.1 z.2).map fun z => mkRow z.1 (interactCol t.lut z.2 z.1) z.2.2
          gen := t.gen + 1
          rays := (((t.rays.zip t.hits).filter fun z => decide ¬ deadCol t.threshold z.1 z.2).map fun z => interactCol t.lut z.2 z.1).map fun c => { c with generation := ((t.gen + 1 : ℕ) : ℝ) }
          phase := .finish } := (if_neg hne).trans (if_pos (by rw [← hgen, hlast, hlim]))
      have e2 : TracerA.stInteract ⟨sources, components, raysPerSource, limit, lut, offset, threshold, phase, frame, gen, complete, ⟨m, table⟩, ⟨m, dist, surf⟩⟩ =
          some ⟨sources, components, raysPerSource, limit, lut, offset, threshold, .finish, frame ++ insertA (compress living table) next (compress1 living surf), gen + 1, complete,
            ⟨_, next'⟩, ⟨m, dist, surf⟩⟩ := by
        rw [hnext', hnext]
        exact (dif_pos rfl).trans ((if_neg hall).trans (if_pos hlast))
      refine ⟨_, e2, ?_⟩
      rw [e1]
      exact ⟨h.sources, h.components, h.raysPerSource, h.limit, h.lut, h.offset, h.threshold, rfl, hframe, congrArg (· + 1) hgen, h.complete, hrays, h.hits, fun hh => by cases hh⟩
    · have e1 : t.stInteract = { t with
          frame := t.frame ++ ((t.rays.zip t.hits).filter fun z => decide ¬ deadCol t.threshold z.1 z.2).map fun z => mkRow z.1 (interactCol t.lut z.2 z.1) z.2.2
          gen := t.gen + 1
          rays := ((((t.rays.zip t.hits).filter fun z => decide ¬ deadCol t.threshold z.1 z.2).map fun z => interactCol t.lut z.2 z.1).map fun c => { c with generation := ((t.gen + 1 : ℕ) : ℝ) }).map fun c => { c with ray := ⟨c.ray.at t.offset, c.ray.d⟩ }
          phase := .propagate } := (if_neg hne).trans (if_neg (by rw [← hgen, ← hlim]; exact hlast))
      have e2 : TracerA.stInteract ⟨sources, components, raysPerSource, limit, lut, offset, threshold, phase, frame, gen, complete, ⟨m, table⟩, ⟨m, dist, surf⟩⟩ =
          some ⟨sources, components, raysPerSource, limit, lut, offset, threshold, .propagate, frame ++ insertA (compress living table) next (compress1 living surf), gen + 1, complete,
            ⟨_, next'.setPart 0 fun i => next'.rays 0 i + npFull offset * next'.rays 1 i⟩, ⟨m, dist, surf⟩⟩ := by
        rw [hnext', hnext]
        exact (dif_pos rfl).trans ((if_neg hall).trans (if_neg hlast))
      refine ⟨_, e2, ?_⟩
      rw [e1]
      refine ⟨h.sources, h.components, h.raysPerSource, h.limit, h.lut, h.offset, h.threshold, rfl, hframe, congrArg (· + 1) hgen, h.complete, ?_, h.hits, fun hh => by cases hh⟩
      show colsOf _ = List.map _ _
      rw [← hrays, colsOf, colsOf, List.map_ofFn]
      refine congrArg List.ofFn (funext fun p => ?_)
      rw [col_setOrigin, Function.comp_apply, ← hoff]
      rfl

theorem TracerA.Sim.finish {ta : TracerA} {t : Tracer} (h : ta.Sim t) : ta.stFinish.Sim t.stFinish :=
  ⟨h.sources, h.components, h.raysPerSource, h.limit, h.lut, h.offset, h.threshold, rfl, h.frame, h.gen, rfl, h.rays, h.hits, fun hh => by cases hh⟩

theorem TracerA.Sim.step {ta : TracerA} {t : Tracer} (h : ta.Sim t) : Option.Rel TracerA.Sim ta.step t.step := by
  unfold TracerA.step Tracer.step
  rw [← h.phase]
  cases hp : ta.phase with
  | «initialize» => exact h.init
  | propagate => exact .some h.propagate
  | interact =>
    obtain ⟨ta', h1, h2⟩ := h.interact hp
    simp only
    rw [h1]
    exact .some h2
  | finish => exact .some h.finish
  | idle => exact .none

theorem TracerA.Sim.runs {k : ℕ} {ta ta' : TracerA} (hr : TracerA.Runs k ta ta') : ∀ {t : Tracer}, ta.Sim t → ∃ t', Tracer.Runs k t t' ∧ ta'.Sim t' := by
  induction hr with
  | stop hp => exact fun h => ⟨_, .stop (by rw [← h.phase]; exact hp), h⟩
  | step hp hs _ ih =>
    intro t h
    have hst := h.step
    rw [hs] at hst
    cases ht : t.step with
    | none => rw [ht] at hst; cases hst
    | some t1 =>
      rw [ht] at hst
      cases hst with
      | some h1 =>
        obtain ⟨t2, hr2, h2⟩ := ih h1
        exact ⟨t2, .step (by rw [← h.phase]; exact hp) ht hr2, h2⟩

theorem TracerA.Sim.runs_back {k : ℕ} {t t' : Tracer} (hr : Tracer.Runs k t t') : ∀ {ta : TracerA}, ta.Sim t → ∃ ta', TracerA.Runs k ta ta' ∧ ta'.Sim t' := by
  induction hr with
  | stop hp => exact fun h => ⟨_, .stop (by rw [h.phase]; exact hp), h⟩
  | step hp hs _ ih =>
    intro ta h
    have hst := h.step
    rw [hs] at hst
    cases ht : ta.step with
    | none => rw [ht] at hst; cases hst
    | some t1 =>
      rw [ht] at hst
      cases hst with
      | some h1 =>
        obtain ⟨t2, hr2, h2⟩ := ih h1
        exact ⟨t2, .step (by rw [h.phase]; exact hp) ht hr2, h2⟩

end PyRayT
