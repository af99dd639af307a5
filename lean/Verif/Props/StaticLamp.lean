import Verif.Props.Sources

/-!
# Property C39: `StaticLamp`
-/

namespace PyRayT

open Matrix Spec

variable (rng : Rng)

/-- a sequence of operations -/
noncomputable def LampWorld.run (s : LampWorld) (ops : List LampOp) : LampWorld := ops.foldl (LampWorld.step rng) s

/-- the rays `generate_rays` returns -/
noncomputable def LampWorld.rays (s : LampWorld) (k : LampKey) : List Col := (s.call rng k).1.sets (s.call rng k).2

/-- the keys called in a sequence of operations -/
def Spec.calledKeys (ops : List LampOp) : Finset LampKey := (ops.filterMap fun | .call k => some k | _ => none).toFinset

/-- The rays a lamp with these parameters can generate at a placement. -/
def Spec.RaysOfLamp (p : LampParams) (w : Mat4) (n : ℕ) (cols : List Col) : Prop := ∃ s : Samples n, cols = (p.generate w s).cols

/-- Invariant of the cache. -/
structure CacheOk (s : LampWorld) : Prop where
  nodup : (s.cache.map Prod.fst).Nodup
  size : s.cache.length ≤ 10
  old : ∀ e ∈ s.cache, e.2 < s.draws

theorem call_hit {s : LampWorld} {k : LampKey} {e : LampKey × ℕ} (h : s.cache.find? (fun e => e.1 = k) = some e) :
    s.call rng k = ({ s with cache := e :: s.cache.filter fun e => e.1 ≠ k }, e.2) := by
  unfold LampWorld.call
  rw [h]

theorem call_miss {s : LampWorld} {k : LampKey} (h : s.cache.find? (fun e => e.1 = k) = none) :
    s.call rng k = ({ s with draws := s.draws + 1
                             sets := Function.update s.sets s.draws (s.fresh rng k)
                             cache := ((k, s.draws) :: s.cache).take 10 }, s.draws) := by
  unfold LampWorld.call
  rw [h]

theorem find_mem {s : LampWorld} {k : LampKey} {e : LampKey × ℕ} (h : s.cache.find? (fun e => e.1 = k) = some e) :
    e ∈ s.cache ∧ e.1 = k := ⟨List.mem_of_find?_eq_some h, by simpa using List.find?_some h⟩

theorem find_of_mem {s : LampWorld} (ok : CacheOk s) {e : LampKey × ℕ} (he : e ∈ s.cache) : s.cache.find? (fun x => x.1 = e.1) = some e := by
  cases h : s.cache.find? (fun x => x.1 = e.1) with
  | none =>
    rw [List.find?_eq_none] at h
    exact absurd (h e he) (by simp)
  | some x =>
    obtain ⟨h1, h2⟩ := find_mem h
    rw [List.inj_on_of_nodup_map ok.nodup h1 he h2]

theorem call_ok {s : LampWorld} (ok : CacheOk s) (k : LampKey) : CacheOk (s.call rng k).1 := by
  cases h : s.cache.find? (fun e => e.1 = k) with
  | some e =>
    rw [call_hit rng h]
    obtain ⟨h1, h2⟩ := find_mem h
    refine ⟨?_, ?_, ?_⟩
    · simp only [List.map_cons, List.nodup_cons]
      refine ⟨?_, (ok.nodup.sublist (List.filter_sublist.map _))⟩
      intro hm
      obtain ⟨x, hx, hxe⟩ := List.mem_map.1 hm
      have := (List.mem_filter.1 hx).2
      rw [hxe, h2] at this
      simp at this
    · simp only [List.length_cons]
      have : (s.cache.filter fun e => decide (e.1 ≠ k)).length < s.cache.length := by
        rw [List.length_filter_lt_length_iff_exists]
        exact ⟨e, h1, by simp [h2]⟩
      have := ok.size
      omega
    · intro x hx
      simp only [List.mem_cons] at hx
      rcases hx with rfl | hx
      · exact ok.old _ h1
      · exact ok.old _ (List.mem_filter.1 hx).1
  | none =>
    rw [call_miss rng h]
    rw [List.find?_eq_none] at h
    refine ⟨?_, ?_, ?_⟩
    · simp only
      refine List.Nodup.sublist ((List.take_sublist _ _).map _) ?_
      simp only [List.map_cons, List.nodup_cons]
      refine ⟨fun hm => ?_, ok.nodup⟩
      obtain ⟨x, hx, hxe⟩ := List.mem_map.1 hm
      exact h x hx (by simpa using hxe)
    · simp only; exact List.length_take_le 10 _
    · intro x hx
      have hx := List.mem_of_mem_take hx
      simp only [List.mem_cons] at hx
      rcases hx with rfl | hx
      · exact Nat.lt_succ_self _
      · exact (ok.old _ hx).trans (Nat.lt_succ_self _)

theorem step_ok {s : LampWorld} (ok : CacheOk s) (o : LampOp) : CacheOk (s.step rng o) := by
  cases o with
  | call k => exact call_ok rng ok k
  | move l w => exact ⟨ok.nodup, ok.size, ok.old⟩
  | edit r f => exact ⟨ok.nodup, ok.size, ok.old⟩

theorem run_ok {s : LampWorld} (ok : CacheOk s) (ops : List LampOp) : CacheOk (s.run rng ops) := by
  induction ops generalizing s with
  | nil => exact ok
  | cons o ops ih => exact ih (step_ok rng ok o)

/-- what is in the cache before the entry of `k` has been called since -/
structure Kept (k : LampKey) (ref : ℕ) (S : Finset LampKey) (s : LampWorld) : Prop where
  ok : CacheOk s
  split : ∃ pre post, s.cache = pre ++ (k, ref) :: post ∧ ∀ e ∈ pre, e.1 ∈ S.erase k

theorem kept_step {k : LampKey} {ref : ℕ} {S : Finset LampKey} {s : LampWorld} (h : Kept k ref S s) (o : LampOp)
    (hS : (S.erase k).card ≤ 9) (ho : ∀ k', o = .call k' → k' ∈ S) :
    Kept k ref S (s.step rng o) ∧ (s.step rng o).draws ≥ s.draws ∧
      ((∀ f, o ≠ .edit ref f) → (s.step rng o).sets ref = s.sets ref) := by
  obtain ⟨ok, pre, post, hc, hp⟩ := h
  have hmem : (k, ref) ∈ s.cache := by rw [hc]; simp
  cases o with
  | move l w => exact ⟨⟨⟨ok.nodup, ok.size, ok.old⟩, pre, post, hc, hp⟩, le_refl _, fun _ => rfl⟩
  | edit r f =>
    refine ⟨⟨⟨ok.nodup, ok.size, ok.old⟩, pre, post, hc, hp⟩, le_refl _, fun hne => ?_⟩
    have : ref ≠ r := fun e => hne f (by rw [e])
    simp [LampWorld.step, this]
  | call k' =>
    have hk' := ho k' rfl
    have ok' := call_ok rng ok k'
    show Kept k ref S (s.call rng k').1 ∧ (s.call rng k').1.draws ≥ s.draws ∧ (_ → (s.call rng k').1.sets ref = s.sets ref)
    cases hf : s.cache.find? (fun e => e.1 = k') with
    | some e =>
      obtain ⟨h1, h2⟩ := find_mem hf
      rw [call_hit rng hf] at ok' ⊢
      refine ⟨⟨ok', ?_⟩, le_refl _, fun _ => rfl⟩
      by_cases hkk : k' = k
      · subst hkk
        have e' : e = (k', ref) := List.inj_on_of_nodup_map ok.nodup h1 hmem h2
        exact ⟨[], _, by rw [e']; rfl, by simp⟩
      · refine ⟨e :: pre.filter (fun e => e.1 ≠ k'), post.filter (fun e => e.1 ≠ k'), ?_, ?_⟩
        · simp only
          rw [hc, List.filter_append, List.filter_cons_of_pos (by simp; exact fun e => hkk e.symm)]
          rfl
        · intro x hx
          simp only [List.mem_cons] at hx
          rcases hx with rfl | hx
          · rw [h2]; exact Finset.mem_erase.2 ⟨hkk, hk'⟩
          · exact hp x (List.mem_filter.1 hx).1
    | none =>
      rw [call_miss rng hf] at ok' ⊢
      have hkk : k' ≠ k := by
        rintro rfl
        rw [List.find?_eq_none] at hf
        exact hf _ hmem (by simp)
      refine ⟨⟨ok', ?_⟩, Nat.le_succ _, fun _ => ?_⟩
      · have hpre : (((k', s.draws) :: pre).map Prod.fst).Nodup := by
          have hn := ok.nodup
          rw [hc, List.map_append, List.nodup_append] at hn
          simp only [List.map_cons, List.nodup_cons]
          refine ⟨fun hm => ?_, hn.1⟩
          obtain ⟨x, hx, hxe⟩ := List.mem_map.1 hm
          rw [List.find?_eq_none] at hf
          exact hf x (by rw [hc]; simp [hx]) (by simpa using hxe)
        have hsub : ∀ e ∈ (k', s.draws) :: pre, e.1 ∈ S.erase k := by
          intro e he
          simp only [List.mem_cons] at he
          rcases he with rfl | he
          · exact Finset.mem_erase.2 ⟨hkk, hk'⟩
          · exact hp e he
        have hlen : ((k', s.draws) :: pre).length ≤ 9 := by
          have : (((k', s.draws) :: pre).map Prod.fst).toFinset ⊆ S.erase k := by
            intro x hx
            obtain ⟨e, he, rfl⟩ := List.mem_map.1 (List.mem_toFinset.1 hx)
            exact hsub e he
          have h2 := Finset.card_le_card this
          rw [List.toFinset_card_of_nodup hpre, List.length_map] at h2
          exact h2.trans hS
        refine ⟨(k', s.draws) :: pre, post.take (9 - ((k', s.draws) :: pre).length), ?_, hsub⟩
        simp only
        rw [hc, ← List.cons_append, List.take_append, List.take_of_length_le (by omega)]
        rw [show 10 - ((k', s.draws) :: pre).length = (9 - ((k', s.draws) :: pre).length) + 1 by omega, List.take_succ_cons]
      · have : ref ≠ s.draws := (ok.old _ hmem).ne
        simp [this]

theorem kept_run {k : LampKey} {ref : ℕ} {S : Finset LampKey} (hS : (S.erase k).card ≤ 9) (ops : List LampOp) :
    ∀ {s : LampWorld}, Kept k ref S s → (∀ k', .call k' ∈ ops → k' ∈ S) →
    Kept k ref S (s.run rng ops) ∧ ((∀ f, .edit ref f ∉ ops) → (s.run rng ops).sets ref = s.sets ref) := by
  induction ops with
  | nil => intro s h _; exact ⟨h, fun _ => rfl⟩
  | cons o ops ih =>
    intro s h hk
    obtain ⟨h1, -, h3⟩ := kept_step rng h o hS (fun k' e => hk k' (by rw [e]; simp))
    obtain ⟨h4, h5⟩ := ih h1 (fun k' hm => hk k' (by simp [hm]))
    refine ⟨h4, fun he => ?_⟩
    show (LampWorld.run rng (s.step rng o) ops).sets ref = _
    rw [h5 (fun f hm => he f (by simp [hm])), h3 (fun f e => he f (by rw [e]; simp))]

theorem kept_call {s : LampWorld} (ok : CacheOk s) (k : LampKey) (S : Finset LampKey) : Kept k (s.call rng k).2 S (s.call rng k).1 := by
  refine ⟨call_ok rng ok k, ?_⟩
  cases h : s.cache.find? (fun e => e.1 = k) with
  | some e =>
    rw [call_hit rng h]
    refine ⟨[], s.cache.filter fun e => e.1 ≠ k, ?_, by simp⟩
    have e2 : (k, e.2) = e := by rw [← (find_mem h).2]
    show e :: _ = (k, e.2) :: _
    rw [e2]
  | none =>
    rw [call_miss rng h]
    exact ⟨[], s.cache.take 9, rfl, by simp⟩

/-- **C39 (same rays), as far as it holds.** From any state of the cache: if, after a call with some key, calls with at most nine other
keys (of any lamps, in any number and order, moves in between) are made, the next call with the key returns the same set, with the same
rays unless the caller overwrote it. The full claim has no bound on the other keys: see `C39_evicted_false`. -/
theorem C39_same_partial (s : LampWorld) (ok : CacheOk s) (k : LampKey) (ops : List LampOp)
    (hfew : ((calledKeys ops).erase k).card ≤ 9) :
    (((s.call rng k).1.run rng ops).call rng k).2 = (s.call rng k).2 ∧
    ((∀ f, .edit (s.call rng k).2 f ∉ ops) → ((s.call rng k).1.run rng ops).rays rng k = s.rays rng k) := by
  have hkey : ∀ k', LampOp.call k' ∈ ops → k' ∈ calledKeys ops := by
    intro k' hk'
    simp only [calledKeys, List.mem_toFinset, List.mem_filterMap]
    exact ⟨_, hk', rfl⟩
  obtain ⟨⟨ok', pre, post, hc, -⟩, hsets⟩ := kept_run rng hfew ops (kept_call rng ok k (calledKeys ops)) hkey
  have hf := find_of_mem ok' (e := (k, (s.call rng k).2)) (by rw [hc]; simp)
  refine ⟨by rw [call_hit rng hf], fun hne => ?_⟩
  unfold LampWorld.rays
  rw [call_hit rng hf]
  exact hsets hne

/-- the cached sets of a lamp that has not been moved are rays of this lamp as it is placed -/
structure LampFresh (l : ℕ) (s : LampWorld) : Prop where
  ok : CacheOk s
  rays : ∀ e ∈ s.cache, e.1.lamp = l → RaysOfLamp (s.params l) (s.world l) e.1.n (s.sets e.2)

theorem fresh_call {l : ℕ} {s : LampWorld} (h : LampFresh l s) (k : LampKey) : LampFresh l (s.call rng k).1 := by
  refine ⟨call_ok rng h.ok k, ?_⟩
  cases hf : s.cache.find? (fun e => e.1 = k) with
  | some e =>
    rw [call_hit rng hf]
    intro x hx
    simp only [List.mem_cons] at hx
    rcases hx with rfl | hx
    · exact h.rays _ (find_mem hf).1
    · exact h.rays _ (List.mem_filter.1 hx).1
  | none =>
    rw [call_miss rng hf]
    intro x hx hl
    have hx := List.mem_of_mem_take hx
    simp only [List.mem_cons] at hx
    rcases hx with rfl | hx
    · simp only [Function.update_self]
      subst hl
      exact ⟨_, rfl⟩
    · simp only
      rw [Function.update_of_ne (h.ok.old x hx).ne]
      exact h.rays x hx hl

/-- **C39 (current rays), as far as it holds.** If neither the lamp is moved nor any returned set overwritten, every call on the lamp
returns rays of the lamp as it is placed. The full claim allows movements: see `C39_stale_false`. -/
theorem C39_current_partial (s : LampWorld) (hempty : s.cache = []) (k : LampKey) (ops : List LampOp)
    (hmove : ∀ w, .move k.lamp w ∉ ops) (hedit : ∀ r f, .edit r f ∉ ops) :
    RaysOfLamp ((s.run rng ops).params k.lamp) ((s.run rng ops).world k.lamp) k.n ((s.run rng ops).rays rng k) := by
  have h0 : LampFresh k.lamp s := ⟨⟨by simp [hempty], by simp [hempty], by simp [hempty]⟩, by simp [hempty]⟩
  have key : ∀ (ops : List LampOp) (s : LampWorld), LampFresh k.lamp s → (∀ w, .move k.lamp w ∉ ops) → (∀ r f, .edit r f ∉ ops) →
      LampFresh k.lamp (s.run rng ops) := by
    intro ops
    induction ops with
    | nil => intro s h _ _; exact h
    | cons o ops ih =>
      intro s h hm he
      refine ih _ ?_ (fun w hw => hm w (by simp [hw])) (fun r f hw => he r f (by simp [hw]))
      cases o with
      | call k' => exact fresh_call rng h k'
      | move l w =>
        have hl : k.lamp ≠ l := fun e => hm w (by rw [e]; simp)
        refine ⟨⟨h.ok.nodup, h.ok.size, h.ok.old⟩, fun e he' hl' => ?_⟩
        have := h.rays e he' hl'
        simpa [LampWorld.step, hl] using this
      | edit r f => exact absurd (by simp) (he r f)
  have h1 := key ops s h0 hmove hedit
  have h2 := fresh_call rng h1 k
  have hk := kept_call rng h1.ok k ∅
  obtain ⟨-, pre, post, hc, -⟩ := hk
  have := h2.rays (k, ((s.run rng ops).call rng k).2) (by rw [hc]; simp) rfl
  have e1 : ((s.run rng ops).call rng k).1.params = (s.run rng ops).params := by
    unfold LampWorld.call; split <;> rfl
  have e2 : ((s.run rng ops).call rng k).1.world = (s.run rng ops).world := by
    unfold LampWorld.call; split <;> rfl
  rw [e1, e2] at this
  exact this

/-! ### counterexamples -/

/-- one kind of lamp: a square hemispherical lamp at the origin; nothing cached -/
noncomputable def newLamps : LampWorld :=
  { params := fun _ => ⟨1, 1, 90, 0.633⟩, world := fun _ => 1, draws := 0, sets := fun _ => [], cache := [] }

theorem newLamps_ok : CacheOk newLamps := ⟨by simp [newLamps], by simp [newLamps], by simp [newLamps]⟩

/-- a generator whose first draws are 0 and all others 1/2 -/
noncomputable def demoRng : Rng := fun i _ => ⟨fun _ => if i = 0 then 0 else 1 / 2, fun _ => 0, fun _ => 0, fun _ => 0⟩

/-- references and cache do not depend on the rays -/
def cacheCall (d : ℕ) (c : List (LampKey × ℕ)) (k : LampKey) : ℕ × List (LampKey × ℕ) × ℕ :=
  match c.find? fun e => e.1 = k with
  | some e => (d, e :: c.filter fun e => e.1 ≠ k, e.2)
  | none => (d + 1, ((k, d) :: c).take 10, d)

theorem cacheCall_eq (s : LampWorld) (k : LampKey) :
    cacheCall s.draws s.cache k = ((s.call rng k).1.draws, (s.call rng k).1.cache, (s.call rng k).2) := by
  unfold cacheCall
  cases h : s.cache.find? (fun e => e.1 = k) with
  | some e => rw [call_hit rng h]
  | none => rw [call_miss rng h]

/-- the cache after a list of calls -/
def cacheRun (d : ℕ) (c : List (LampKey × ℕ)) : List LampKey → ℕ × List (LampKey × ℕ)
  | [] => (d, c)
  | k :: ks => cacheRun (cacheCall d c k).1 (cacheCall d c k).2.1 ks

theorem cacheRun_eq (ks : List LampKey) : ∀ s : LampWorld,
    cacheRun s.draws s.cache ks = ((s.run rng (ks.map LampOp.call)).draws, (s.run rng (ks.map LampOp.call)).cache) := by
  induction ks with
  | nil => intro s; rfl
  | cons k ks ih =>
    intro s
    have h := cacheCall_eq rng s k
    simp only [cacheRun, h]
    exact ih (s.call rng k).1

theorem run_params (ks : List LampKey) : ∀ s : LampWorld,
    (s.run rng (ks.map LampOp.call)).params = s.params ∧ (s.run rng (ks.map LampOp.call)).world = s.world := by
  induction ks with
  | nil => intro s; exact ⟨rfl, rfl⟩
  | cons k ks ih =>
    intro s
    have h := ih (s.call rng k).1
    have e1 : (s.call rng k).1.params = s.params := by unfold LampWorld.call; split <;> rfl
    have e2 : (s.call rng k).1.world = s.world := by unfold LampWorld.call; split <;> rfl
    exact ⟨h.1.trans e1, h.2.trans e2⟩

/-- intensity of the rays of a new lamp for given draws -/
theorem demo_intensity (w : Mat4) {n : ℕ} (s : Samples n) (j : Fin n) (h0 : 0 ≤ s.u j) (h1 : s.u j ≤ 1) :
    (((LampParams.mk 1 1 90 0.633).generate w s).col j).intensity = 100 * (1 - s.u j) := by
  have e : (((LampParams.mk 1 1 90 0.633).generate w s).col j).intensity =
      100 * Real.cos (sampleTheta (90 * Real.pi / 180) (s.u j)) := by
    show ((placeRays w _).col j).intensity = _
    rw [place_col, lamp_col]
    rfl
  rw [e, cos_sampleTheta h0 h1, show 90 * Real.pi / 180 = Real.pi / 2 by ring, Real.cos_pi_div_two]
  ring

/-- **C39 is false (eviction).** After ten calls with other arguments the same call on the same, unmoved lamp returns
different rays. -/
theorem C39_evicted_false : ∃ (rng : Rng) (k : LampKey) (ks : List LampKey), (∀ k' ∈ ks, k'.lamp = k.lamp) ∧ ks.length = 10 ∧
    (((newLamps.call rng k).1.run rng (ks.map LampOp.call)).rays rng k) ≠ newLamps.rays rng k := by
  refine ⟨demoRng, ⟨0, 1, false⟩, (List.range 10).map fun i => ⟨0, i + 2, false⟩, by simp, by simp, ?_⟩
  set k : LampKey := ⟨0, 1, false⟩ with hk
  set ks : List LampKey := (List.range 10).map fun i => ⟨0, i + 2, false⟩ with hks
  have h0 : newLamps.cache.find? (fun e => e.1 = k) = none := rfl
  have h1 : newLamps.rays demoRng k = newLamps.fresh demoRng k := by
    unfold LampWorld.rays
    rw [call_miss demoRng h0]
    simp
  set s1 := (newLamps.call demoRng k).1 with hs1
  have hr := cacheRun_eq demoRng ks s1
  have hd : s1.draws = 1 ∧ s1.cache = [(k, 0)] := by rw [hs1, call_miss demoRng h0]; exact ⟨rfl, rfl⟩
  rw [hd.1, hd.2] at hr
  have hrun : cacheRun 1 [(k, 0)] ks = (11, ((List.range 10).map fun i => ((⟨0, i + 2, false⟩ : LampKey), i + 1)).reverse) := by
    rw [hks, hk]; decide
  rw [hrun] at hr
  obtain ⟨e1, e2⟩ := Prod.mk.inj hr
  have hp := run_params demoRng ks s1
  have hp1 : s1.params = newLamps.params ∧ s1.world = newLamps.world := by
    rw [hs1, call_miss demoRng h0]; exact ⟨rfl, rfl⟩
  set s2 := s1.run demoRng (ks.map LampOp.call) with hs2
  have h2 : s2.cache.find? (fun e => e.1 = k) = none := by rw [← e2, hk]; decide
  have h3 : s2.rays demoRng k = s2.fresh demoRng k := by
    unfold LampWorld.rays
    rw [call_miss demoRng h2]
    simp
  rw [h3, h1]
  intro h
  have hi := congrArg (fun l : List Col => l.map Col.intensity) h
  simp only [LampWorld.fresh, hp.1, hp.2, hp1.1, hp1.2, ← e1, RayTable.cols, List.map_ofFn] at hi
  have hj := congrFun (List.ofFn_injective hi) ⟨0, by simp [hk]⟩
  simp only [Function.comp_apply, newLamps] at hj
  rw [demo_intensity _ _ _ (by simp [demoRng]) (by norm_num [demoRng]), demo_intensity _ _ _ (by simp [demoRng]) (by simp [demoRng])] at hj
  norm_num [demoRng] at hj

/-- **C39 is false (keyword).** `generate_rays(n)` and `generate_rays(n_rays=n)` are different keys: successive calls return different
rays. -/
theorem C39_keyword_false : ∃ (rng : Rng) (k k' : LampKey), k'.lamp = k.lamp ∧ k'.n = k.n ∧
    (newLamps.call rng k).1.rays rng k' ≠ newLamps.rays rng k := by
  refine ⟨demoRng, ⟨0, 1, false⟩, ⟨0, 1, true⟩, rfl, rfl, ?_⟩
  set k : LampKey := ⟨0, 1, false⟩ with hk
  set k' : LampKey := ⟨0, 1, true⟩ with hk'
  have h0 : newLamps.cache.find? (fun e => e.1 = k) = none := rfl
  have h1 : newLamps.rays demoRng k = newLamps.fresh demoRng k := by
    unfold LampWorld.rays
    rw [call_miss demoRng h0]
    simp
  have hs1 : (newLamps.call demoRng k).1 = _ := congrArg Prod.fst (call_miss demoRng h0)
  have h2 : (newLamps.call demoRng k).1.cache.find? (fun e => e.1 = k') = none := by rw [hs1, hk, hk']; rfl
  have h3 : (newLamps.call demoRng k).1.rays demoRng k' = (newLamps.call demoRng k).1.fresh demoRng k' := by
    unfold LampWorld.rays
    rw [call_miss demoRng h2]
    simp
  rw [h3, h1, hs1]
  intro h
  have hi := congrArg (fun l : List Col => l.map Col.intensity) h
  simp only [LampWorld.fresh, RayTable.cols, List.map_ofFn] at hi
  have hj := congrFun (List.ofFn_injective hi) ⟨0, Nat.zero_lt_one⟩
  simp only [Function.comp_apply, newLamps] at hj
  rw [demo_intensity _ _ _ (by simp [demoRng]) (by norm_num [demoRng]), demo_intensity _ _ _ (by simp [demoRng]) (by simp [demoRng])] at hj
  norm_num [demoRng] at hj

/-- **C39 is false (moved lamps).** A lamp that is moved after a call still returns the rays of its old place, which it cannot emit at
the new one. -/
theorem C39_stale_false (rng : Rng) : ∃ (k : LampKey) (w : Mat4), Rigid w ∧
    ¬ RaysOfLamp (((newLamps.call rng k).1.step rng (.move k.lamp w)).params k.lamp)
      (((newLamps.call rng k).1.step rng (.move k.lamp w)).world k.lamp) k.n
      (((newLamps.call rng k).1.step rng (.move k.lamp w)).rays rng k) := by
  refine ⟨⟨0, 1, false⟩, moveMatrix 1 0 0, move_rigid _ _ _, ?_⟩
  set k : LampKey := ⟨0, 1, false⟩ with hk
  have h0 : newLamps.cache.find? (fun e => e.1 = k) = none := rfl
  have hsame := (C39_same_partial rng newLamps newLamps_ok k [.move k.lamp (moveMatrix 1 0 0)]
    (by rw [show calledKeys [.move k.lamp (moveMatrix 1 0 0)] = ∅ from rfl]; simp)).2 (by simp)
  have h1 : newLamps.rays rng k = newLamps.fresh rng k := by
    unfold LampWorld.rays
    rw [call_miss rng h0]
    simp
  rintro ⟨s, hs⟩
  have hs2 : newLamps.fresh rng k = _ := h1.symm.trans (hsame.symm.trans hs)
  have hi := congrArg (fun l : List Col => l.map fun c => c.ray.o 0) hs2
  simp only [LampWorld.fresh, RayTable.cols, List.map_ofFn] at hi
  have hj := congrFun (List.ofFn_injective hi) ⟨0, by simp [hk]⟩
  have hw : ((newLamps.call rng k).1.step rng (.move k.lamp (moveMatrix 1 0 0))).world k.lamp = moveMatrix 1 0 0 := by
    simp [LampWorld.step]
  rw [hw] at hj
  simp only [Function.comp_apply, LampParams.generate] at hj
  rw [place_col, place_col, lamp_col, lamp_col] at hj
  simp only [freshCol, newLamps, one_mulVec] at hj
  rw [mulVec4] at hj
  simp [moveMatrix, point] at hj

/-- **C39 is false (aliasing).** The returned set is the cached object: what a caller writes to it is what the next call returns. -/
theorem C39_edited_false (rng : Rng) (s : LampWorld) (ok : CacheOk s) (k : LampKey) (f : List Col → List Col) :
    ((s.call rng k).1.step rng (.edit (s.call rng k).2 f)).rays rng k = f (s.rays rng k) := by
  have hk := (kept_step rng (kept_call rng ok k ∅) (.edit (s.call rng k).2 f) (by simp) (fun _ h => nomatch h)).1
  obtain ⟨ok', pre, post, hc, -⟩ := hk
  have hf := find_of_mem ok' (e := (k, (s.call rng k).2)) (by rw [hc]; simp)
  unfold LampWorld.rays
  rw [call_hit rng hf]
  simp [LampWorld.step]

/-- non-vacuity of C39: a second lamp and another number of rays in between do not disturb the cache -/
example : ((newLamps.call rng ⟨0, 5, false⟩).1.run rng [.call ⟨1, 5, false⟩, .move 0 1, .call ⟨0, 7, false⟩]).rays rng ⟨0, 5, false⟩ =
    newLamps.rays rng ⟨0, 5, false⟩ :=
  (C39_same_partial rng newLamps newLamps_ok _ _ (by decide)).2 (by simp)

end PyRayT
