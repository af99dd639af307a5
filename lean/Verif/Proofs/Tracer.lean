import Verif.Model.Tracer

/-! The state machine of the tracer: the result is determined ray by ray. -/

namespace PyRayT

open Classical

/-- one round for one ray: the recorded row and the column for the next round -/
noncomputable def Tracer.colStep (t : Tracer) (g : ℕ) (c : Col) : Option (Row × Col) :=
  let hit := hitOf t.components c.ray
  if deadCol t.threshold c hit then none
  else
    let n := interactCol t.lut hit c
    some (mkRow c n hit.2, { n with generation := ((g + 1 : ℕ) : ℝ), ray := ⟨n.ray.at t.offset, n.ray.d⟩ })

/-- the column of a ray at the start of round `g`, if it lives so long -/
noncomputable def Tracer.colAt (t : Tracer) : ℕ → Col → Option Col
  | 0, c => some c
  | g + 1, c => (t.colAt g c).bind fun c => (t.colStep g c).map Prod.snd

/-- the row a ray leaves in round `g` -/
noncomputable def Tracer.rowAt (t : Tracer) (g : ℕ) (c : Col) : Option Row :=
  (t.colAt g c).bind fun c => (t.colStep g c).map Prod.fst

/-- the attributes that a trace does not change -/
structure Tracer.Same (t t' : Tracer) : Prop where
  sources : t'.sources = t.sources
  components : t'.components = t.components
  raysPerSource : t'.raysPerSource = t.raysPerSource
  limit : t'.limit = t.limit
  lut : t'.lut = t.lut
  offset : t'.offset = t.offset
  threshold : t'.threshold = t.threshold

theorem Tracer.Same.refl (t : Tracer) : t.Same t := ⟨rfl, rfl, rfl, rfl, rfl, rfl, rfl⟩

theorem Tracer.Same.trans {a b c : Tracer} (h : a.Same b) (h' : b.Same c) : a.Same c :=
  ⟨h'.1.trans h.1, h'.2.trans h.2, h'.3.trans h.3, h'.4.trans h.4, h'.5.trans h.5, h'.6.trans h.6, h'.7.trans h.7⟩

theorem Tracer.Same.symm {a b : Tracer} (h : a.Same b) : b.Same a :=
  ⟨h.1.symm, h.2.symm, h.3.symm, h.4.symm, h.5.symm, h.6.symm, h.7.symm⟩

theorem Tracer.Same.colStep {t t' : Tracer} (h : t.Same t') : t'.colStep = t.colStep := by
  funext g c
  unfold Tracer.colStep
  rw [h.components, h.threshold, h.lut, h.offset]

theorem Tracer.Same.colAt {t t' : Tracer} (h : t.Same t') : t'.colAt = t.colAt := by
  funext g
  induction g with
  | zero => rfl
  | succ g ih => funext c; unfold Tracer.colAt; rw [ih, h.colStep]

theorem Tracer.Same.rowAt {t t' : Tracer} (h : t.Same t') : t'.rowAt = t.rowAt := by
  funext g c; unfold Tracer.rowAt; rw [h.colAt, h.colStep]

theorem zip_map_self {α β : Type*} (l : List α) (f : α → β) : l.zip (l.map f) = l.map fun a => (a, f a) := by
  induction l with
  | nil => rfl
  | cons a l ih => simp [ih]

theorem filter_map_filterMap {α β : Type*} (l : List α) (p : α → Prop) (f : α → β) :
    (l.filter fun a => decide ¬ p a).map f = l.filterMap fun a => if p a then none else some (f a) := by
  induction l with
  | nil => rfl
  | cons a l ih =>
    by_cases h : p a
    · simp [h] at ih ⊢; exact ih
    · simp [h] at ih ⊢; exact ih

/-- one propagate/interact round -/
theorem Tracer.round_eq (t : Tracer) : t.stPropagate.stInteract =
    let t1 := t.stPropagate
    let rows := t.rays.filterMap fun c => (t.colStep t.gen c).map Prod.fst
    if rows = [] then { t1 with phase := .finish }
    else if ((t.gen + 1 : ℕ) : ℤ) = t.limit then
      { t1 with
        frame := t.frame ++ rows
        gen := t.gen + 1
        rays := t.rays.filterMap fun c => if deadCol t.threshold c (hitOf t.components c.ray) then none
          else some { interactCol t.lut (hitOf t.components c.ray) c with generation := ((t.gen + 1 : ℕ) : ℝ) }
        phase := .finish }
    else
      { t1 with
        frame := t.frame ++ rows
        gen := t.gen + 1
        rays := t.rays.filterMap fun c => (t.colStep t.gen c).map Prod.snd
        phase := .propagate } := by
  have hz : t.stPropagate.rays.zip t.stPropagate.hits = t.rays.map fun c => (c, hitOf t.components c.ray) := zip_map_self _ _
  have hl : ((t.rays.map fun c => (c, hitOf t.components c.ray)).filter fun z => decide ¬ deadCol t.threshold z.1 z.2) =
      (t.rays.filter fun c => decide ¬ deadCol t.threshold c (hitOf t.components c.ray)).map
        fun c => (c, hitOf t.components c.ray) := by
    rw [List.filter_map]; rfl
  have hrows : ((t.rays.filter fun c => decide ¬ deadCol t.threshold c (hitOf t.components c.ray)).map fun c =>
      mkRow c (interactCol t.lut (hitOf t.components c.ray) c) (hitOf t.components c.ray).2) =
      t.rays.filterMap fun c => (t.colStep t.gen c).map Prod.fst := by
    rw [filter_map_filterMap]
    congr 1
    funext c
    unfold Tracer.colStep
    dsimp only
    split <;> simp
  have hnil : ((t.rays.filter fun c => decide ¬ deadCol t.threshold c (hitOf t.components c.ray)).map
        fun c => (c, hitOf t.components c.ray)) = [] ↔
      (t.rays.filterMap fun c => (t.colStep t.gen c).map Prod.fst) = [] := by
    rw [← hrows, List.map_eq_nil_iff, List.map_eq_nil_iff]
  unfold Tracer.stInteract
  dsimp only
  rw [hz, show t.stPropagate.threshold = t.threshold from rfl, hl]
  by_cases he : (t.rays.filterMap fun c => (t.colStep t.gen c).map Prod.fst) = []
  · rw [if_pos (hnil.2 he), if_pos he]
  · rw [if_neg (fun h => he (hnil.1 h)), if_neg he]
    rw [show t.stPropagate.limit = t.limit from rfl, show t.stPropagate.gen = t.gen from rfl,
      show t.stPropagate.frame = t.frame from rfl, show t.stPropagate.lut = t.lut from rfl,
      show t.stPropagate.offset = t.offset from rfl]
    simp only [List.map_map, Function.comp_def]
    rw [hrows]
    by_cases hg : ((t.gen + 1 : ℕ) : ℤ) = t.limit
    · rw [if_pos hg, if_pos hg, filter_map_filterMap]
    · rw [if_neg hg, if_neg hg, filter_map_filterMap]
      congr 2
      funext c
      unfold Tracer.colStep
      dsimp only
      split <;> simp

theorem filterMap_filterMap_bind {α β γ : Type*} (l : List α) (f : α → Option β) (g : β → Option γ) :
    (l.filterMap f).filterMap g = l.filterMap fun a => (f a).bind g := List.filterMap_filterMap

/-- the state at the start of round `g` of a trace of `t0` -/
structure Tracer.AtRound (t0 : Tracer) (g : ℕ) (t : Tracer) : Prop where
  same : t0.Same t
  phase : t.phase = .propagate
  gen : t.gen = g
  rays : t.rays = (sourceRays t0.sources t0.raysPerSource).filterMap (t0.colAt g)
  frame : t.frame = (List.range g).flatMap fun k => (sourceRays t0.sources t0.raysPerSource).filterMap (t0.rowAt k)

/-- the rows of round `g` -/
noncomputable def Tracer.rowsAt (t : Tracer) (g : ℕ) : List Row :=
  (sourceRays t.sources t.raysPerSource).filterMap (t.rowAt g)

theorem Tracer.AtRound.rows {t0 t : Tracer} {g : ℕ} (h : t0.AtRound g t) :
    (t.rays.filterMap fun c => (t.colStep t.gen c).map Prod.fst) = t0.rowsAt g := by
  rw [h.rays, filterMap_filterMap_bind, h.same.colStep, h.gen]
  rfl

/-- what a finished trace looks like -/
structure Tracer.Done (t0 : Tracer) (G : ℕ) (t : Tracer) : Prop where
  same : t0.Same t
  phase : t.phase = .idle
  complete : t.complete = true
  frame : t.frame = (List.range G).flatMap t0.rowsAt
  stopped : t0.rowsAt G = [] ∨ (0 < G ∧ (G : ℤ) = t0.limit)

theorem Tracer.AtRound.next {t0 t : Tracer} {g : ℕ} (h : t0.AtRound g t) :
    (t0.rowsAt g = [] ∧ t0.Done g t.stPropagate.stInteract.stFinish ∧ t.stPropagate.stInteract.phase = .finish) ∨
    (t0.rowsAt g ≠ [] ∧ ((g + 1 : ℕ) : ℤ) = t0.limit ∧ t0.Done (g + 1) t.stPropagate.stInteract.stFinish ∧
      t.stPropagate.stInteract.phase = .finish) ∨
    (t0.rowsAt g ≠ [] ∧ ((g + 1 : ℕ) : ℤ) ≠ t0.limit ∧ t0.AtRound (g + 1) t.stPropagate.stInteract) := by
  have e := t.round_eq
  dsimp only at e
  rw [h.rows] at e
  have fr : t.frame ++ t0.rowsAt g = (List.range (g + 1)).flatMap t0.rowsAt := by
    rw [List.range_succ, List.flatMap_append, h.frame]
    rw [List.flatMap_cons, List.flatMap_nil, List.append_nil]
    rfl
  have hs : t0.Same t.stPropagate := ⟨h.same.1, h.same.2, h.same.3, h.same.4, h.same.5, h.same.6, h.same.7⟩
  by_cases he : t0.rowsAt g = []
  · left
    rw [if_pos he] at e
    rw [e]
    exact ⟨he, ⟨⟨hs.1, hs.2, hs.3, hs.4, hs.5, hs.6, hs.7⟩, rfl, rfl, h.frame, Or.inl he⟩, rfl⟩
  · right
    rw [if_neg he] at e
    by_cases hl : ((g + 1 : ℕ) : ℤ) = t0.limit
    · left
      rw [if_pos (by rw [h.gen, h.same.limit]; exact hl)] at e
      rw [e]
      exact ⟨he, hl, ⟨⟨hs.1, hs.2, hs.3, hs.4, hs.5, hs.6, hs.7⟩, rfl, rfl, fr, Or.inr ⟨by omega, hl⟩⟩, rfl⟩
    · right
      rw [if_neg (by rw [h.gen, h.same.limit]; exact hl)] at e
      rw [e]
      refine ⟨he, hl, ⟨⟨hs.1, hs.2, hs.3, hs.4, hs.5, hs.6, hs.7⟩, rfl, by rw [← h.gen], ?_, fr⟩⟩
      rw [h.gen, h.rays, filterMap_filterMap_bind, h.same.colStep]
      rfl

theorem Tracer.initial (t : Tracer) (hs : t.sources ≠ []) :
    ∃ t1, ({ t with phase := .initialize } : Tracer).step = some t1 ∧ t.AtRound 0 t1 := by
  refine ⟨{ t.reset with rays := sourceRays t.sources t.raysPerSource, phase := .propagate }, ?_, ?_⟩
  · simp only [Tracer.step, Tracer.stInitialize]
    rw [if_neg (show ¬ (Tracer.reset { t with phase := .initialize }).sources = [] from hs)]
    rfl
  · refine ⟨⟨rfl, rfl, rfl, rfl, rfl, rfl, rfl⟩, rfl, rfl, ?_, rfl⟩
    show sourceRays t.sources t.raysPerSource = _
    rw [show t.colAt 0 = some from rfl, List.filterMap_some]

theorem Tracer.step_propagate {t : Tracer} (h : t.phase = .propagate) : t.step = some t.stPropagate := by
  simp only [Tracer.step, h]

theorem Tracer.step_interact (t : Tracer) : t.stPropagate.step = some t.stPropagate.stInteract := by
  simp only [Tracer.step, Tracer.stPropagate]

theorem Tracer.step_finish {t : Tracer} (h : t.phase = .finish) : t.step = some t.stFinish := by
  simp only [Tracer.step, h]

/-- runs are deterministic -/
theorem Tracer.Runs.det {n m : ℕ} {t a b : Tracer} (h1 : Tracer.Runs n t a) (h2 : Tracer.Runs m t b) : n = m ∧ a = b := by
  induction h1 generalizing m with
  | stop hp =>
    cases h2 with
    | stop => exact ⟨rfl, rfl⟩
    | step hp' => exact absurd hp hp'
  | step hp hs _ ih =>
    cases h2 with
    | stop hp' => exact absurd hp' hp
    | step _ hs' h2' =>
      rw [hs] at hs'
      cases hs'
      obtain ⟨e1, e2⟩ := ih h2'
      exact ⟨by omega, e2⟩

/-- a run from the start of round `g` ends after some full rounds -/
theorem Tracer.AtRound.runs {t0 : Tracer} (n : ℕ) : ∀ {g : ℕ} {t t' : Tracer}, t0.AtRound g t → Tracer.Runs n t t' →
    ∃ G, g ≤ G ∧ t0.Done G t' ∧ (∀ k, g ≤ k → k < G → t0.rowsAt k ≠ []) ∧
      (∀ k : ℕ, g < k → k < G → (k : ℤ) ≠ t0.limit) ∧
      ((t0.rowsAt G = [] ∧ n = 2 * (G - g) + 3 ∧ (g < G → (G : ℤ) ≠ t0.limit)) ∨ (0 < G ∧ (G : ℤ) = t0.limit ∧ n = 2 * (G - g) + 1)) := by
  induction n using Nat.strong_induction_on with
  | _ n ih =>
  intro g t t' h hr
  cases hr with
  | stop hp => rw [h.phase] at hp; cases hp
  | @step n1 _ t1 _ hp hs hr =>
  rw [Tracer.step_propagate h.phase] at hs
  cases hs
  cases hr with
  | stop hp => cases hp
  | @step n2 _ t2 _ hp hs hr =>
  rw [Tracer.step_interact] at hs
  cases hs
  rcases h.next with ⟨he, hd, hf⟩ | ⟨he, hl, hd, hf⟩ | ⟨he, hl, ha⟩
  · cases hr with
    | stop hp => rw [hf] at hp; cases hp
    | @step n3 _ t3 _ hp hs hr =>
    rw [Tracer.step_finish hf] at hs
    cases hs
    cases hr with
    | stop hp => exact ⟨g, le_refl _, hd, fun k h1 h2 => absurd h1 (by omega), fun k h1 h2 => absurd h1 (by omega),
        Or.inl ⟨he, by omega, fun h => absurd h (by omega)⟩⟩
    | step hp => exact absurd hd.phase hp
  · cases hr with
    | stop hp => rw [hf] at hp; cases hp
    | @step n3 _ t3 _ hp hs hr =>
    rw [Tracer.step_finish hf] at hs
    cases hs
    cases hr with
    | stop hp =>
      refine ⟨g + 1, by omega, hd, fun k h1 h2 => ?_, fun k h1 h2 => absurd h1 (by omega), Or.inr ⟨by omega, hl, by omega⟩⟩
      rw [show k = g by omega]; exact he
    | step hp => exact absurd hd.phase hp
  · obtain ⟨G, h1, h2, h3, h4, h5⟩ := ih n2 (by omega) ha hr
    refine ⟨G, by omega, h2, fun k k1 k2 => ?_, fun k k1 k2 => ?_, ?_⟩
    · by_cases hk : k = g
      · rw [hk]; exact he
      · exact h3 k (by omega) k2
    · by_cases hk : k = g + 1
      · rw [hk]; exact hl
      · exact h4 k (by omega) k2
    · rcases h5 with ⟨e1, e2, e3⟩ | ⟨e1, e2, e3⟩
      · refine Or.inl ⟨e1, by omega, fun _ => ?_⟩
        by_cases hG : G = g + 1
        · rw [hG]; exact hl
        · exact e3 (by omega)
      · exact Or.inr ⟨e1, e2, by omega⟩

/-- **the result of a trace** -/
theorem Tracer.Traces.result {n : ℕ} {t t' : Tracer} (h : Tracer.Traces n t t') :
    t.sources ≠ [] ∧ ∃ G, t.Done G t' ∧ (∀ k < G, t.rowsAt k ≠ []) ∧ (∀ k : ℕ, 0 < k → k < G → (k : ℤ) ≠ t.limit) ∧
      ((t.rowsAt G = [] ∧ n = 2 * G + 4 ∧ (0 < G → (G : ℤ) ≠ t.limit)) ∨ (0 < G ∧ (G : ℤ) = t.limit ∧ n = 2 * G + 2)) := by
  have hs : t.sources ≠ [] := by
    intro hs
    cases h with
    | stop hp => cases hp
    | step _ hst _ =>
      simp only [Tracer.step, Tracer.stInitialize] at hst
      rw [if_pos (show (Tracer.reset { t with phase := .initialize }).sources = [] from hs)] at hst
      cases hst
  refine ⟨hs, ?_⟩
  obtain ⟨t1, e1, a1⟩ := t.initial hs
  cases h with
  | stop hp => cases hp
  | @step n1 _ t2 _ hp hst hr =>
  rw [e1] at hst
  cases hst
  obtain ⟨G, -, h2, h3, h4, h5⟩ := a1.runs n1 hr
  refine ⟨G, h2, fun k hk => h3 k (Nat.zero_le _) hk, fun k k1 k2 => h4 k k1 k2, ?_⟩
  rcases h5 with ⟨e1, e2, e3⟩ | ⟨e1, e2, e3⟩
  · exact Or.inl ⟨e1, by omega, e3⟩
  · exact Or.inr ⟨e1, e2, by omega⟩

theorem Tracer.Done.idle_run {t0 t : Tracer} {G : ℕ} (h : t0.Done G t) : Tracer.Runs 0 t t := .stop h.phase

/-- a trace ends if the limit is reached or no ray is left -/
theorem Tracer.AtRound.finishes {t0 : Tracer} (G : ℕ) (hG : t0.rowsAt G = [] ∨ ((G + 1 : ℕ) : ℤ) = t0.limit) : ∀ (k : ℕ) {g : ℕ} {t : Tracer},
    t0.AtRound g t → g + k = G → ∃ n t', Tracer.Runs n t t' := by
  intro k
  induction k with
  | zero =>
    intro g t h hk
    rw [show g = G by omega] at h
    rcases h.next with ⟨he, hd, hf⟩ | ⟨he, hl, hd, hf⟩ | ⟨he, hl, ha⟩
    · exact ⟨_, _, .step (by rw [h.phase]; decide) (step_propagate h.phase) (.step (by simp [stPropagate]) (step_interact t)
        (.step (by rw [hf]; decide) (step_finish hf) hd.idle_run))⟩
    · exact ⟨_, _, .step (by rw [h.phase]; decide) (step_propagate h.phase) (.step (by simp [stPropagate]) (step_interact t)
        (.step (by rw [hf]; decide) (step_finish hf) hd.idle_run))⟩
    · rcases hG with hG | hG
      · exact absurd hG he
      · exact absurd hG hl
  | succ k ih =>
    intro g t h hk
    rcases h.next with ⟨he, hd, hf⟩ | ⟨he, hl, hd, hf⟩ | ⟨he, hl, ha⟩
    · exact ⟨_, _, .step (by rw [h.phase]; decide) (step_propagate h.phase) (.step (by simp [stPropagate]) (step_interact t)
        (.step (by rw [hf]; decide) (step_finish hf) hd.idle_run))⟩
    · exact ⟨_, _, .step (by rw [h.phase]; decide) (step_propagate h.phase) (.step (by simp [stPropagate]) (step_interact t)
        (.step (by rw [hf]; decide) (step_finish hf) hd.idle_run))⟩
    · obtain ⟨n, t', hr⟩ := ih ha (by omega)
      exact ⟨_, _, .step (by rw [h.phase]; decide) (step_propagate h.phase) (.step (by simp [stPropagate]) (step_interact t) hr)⟩

theorem Tracer.traces_of {t : Tracer} (hs : t.sources ≠ []) (G : ℕ)
    (hG : t.rowsAt G = [] ∨ ((G + 1 : ℕ) : ℤ) = t.limit) : ∃ n t', Tracer.Traces n t t' := by
  obtain ⟨t1, e1, a1⟩ := t.initial hs
  obtain ⟨n, t', hr⟩ := a1.finishes G hG G (by omega)
  exact ⟨n + 1, t', .step (by simp) e1 hr⟩

/-- the same rows ray by ray give the same result -/
theorem Tracer.frame_eq_of {n m : ℕ} {t1 t2 t1' t2' : Tracer} (h1 : Tracer.Traces n t1 t1') (h2 : Tracer.Traces m t2 t2')
    (hl : t2.limit = t1.limit) (hr : ∀ k, t2.rowsAt k = t1.rowsAt k) : t2'.frame = t1'.frame := by
  obtain ⟨-, G, d1, n1, l1, -⟩ := h1.result
  obtain ⟨-, H, d2, n2, l2, -⟩ := h2.result
  have e : G = H := by
    rcases lt_trichotomy G H with h | h | h
    · rcases d1.stopped with hs | ⟨hp, hs⟩
      · exact absurd ((hr G).trans hs) (n2 G h)
      · exact absurd (hs.trans hl.symm) (l2 G hp h)
    · exact h
    · rcases d2.stopped with hs | ⟨hp, hs⟩
      · exact absurd ((hr H).symm.trans hs) (n1 H h)
      · exact absurd (hs.trans hl) (l1 H hp h)
  rw [d1.frame, d2.frame, e]
  congr 1
  funext k
  exact hr k

end PyRayT
