import Verif.Proofs.Moved2
import Verif.Props.Sources
import Verif.Props.Tracer

/-!
# Property C75: the result of a trace does not depend on where the system stands

If every surface and every ray of the sources is carried along by one isometry of space, so is every row of the result.
`carried`, `carriedRow`, `Isometry`: `Spec/Moved.lean`.
-/

namespace PyRayT

open Classical Matrix Spec

variable (argsort : List EReal → List ℕ)

theorem surfaceIds_static {h h' : Heap} (hs : Static h h') : ∀ depth a, surfaceIds depth h' a = surfaceIds depth h a := by
  intro depth
  induction depth with
  | zero => intro a; rfl
  | succ depth ih =>
    intro a
    rw [surfaceIds, surfaceIds, (hs.2.2 a).1, (hs.2.2 a).2.1]
    simp only [ih]

/-- movements lead to a reachable state -/
theorem reaches_runMovements {fuel : ℕ} (ops : List (ℕ × Movement)) : ∀ {h h' : Heap}, Reaches argsort fuel Heap.empty h →
    (∀ p ∈ ops, p.1 < h.size) → runMovements argsort fuel h ops = (h', none) → Reaches argsort fuel Heap.empty h' := by
  induction ops with
  | nil =>
    intro h h' hr _ he
    simp only [runMovements, Prod.mk.injEq, and_true] at he
    subst he; exact hr
  | cons p tl ih =>
    obtain ⟨a, mv⟩ := p
    intro h h' hr hlt he
    obtain ⟨h1, e1, e2⟩ := Res.andThen_ok he
    obtain ⟨m, hm, et⟩ := callMovement_ok argsort e1
    have hs := transform_static argsort m fuel h a
    rw [et] at hs
    exact ih (.step (.movement a mv) hr (hlt (a, mv) (by simp)) e1) (fun p hp => by rw [hs.1]; exact hlt p (by simp [hp])) e2

/-- movements of allowed objects keep a history tidy -/
theorem tidy_runMovements {fuel : ℕ} (ops : List (ℕ × Movement)) : ∀ {h h' : Heap}, TidyReaches argsort fuel Heap.empty h →
    (∀ p ∈ ops, p.1 < h.size ∧ Allowed h fuel p.1) → runMovements argsort fuel h ops = (h', none) →
    TidyReaches argsort fuel Heap.empty h' := by
  induction ops with
  | nil =>
    intro h h' hr _ he
    simp only [runMovements, Prod.mk.injEq, and_true] at he
    subst he; exact hr
  | cons p tl ih =>
    obtain ⟨a, mv⟩ := p
    intro h h' hr hlt he
    obtain ⟨h1, e1, e2⟩ := Res.andThen_ok he
    obtain ⟨m, hm, et⟩ := callMovement_ok argsort e1
    have hs := transform_static argsort m fuel h a
    rw [et] at hs
    refine ih (.step (.movement a mv) hr (hlt (a, mv) (by simp)).1 (hlt (a, mv) (by simp)).2 e1) (fun p hp => ?_) e2
    rw [hs.1, hs.allowed]; exact hlt p (by simp [hp])

/-- all surfaces of a solid are listed -/
theorem surfaceIds_complete {h : Heap} {a : ℕ} {s : Solid} (hr : Represents h a s) : ∀ {depth : ℕ}, s.depth ≤ depth → ∀ x p,
    Under h a x → (h.obj x).kind = .prim p → ((h.obj x).oid, x) ∈ surfaceIds depth h a := by
  induction hr with
  | @leaf a q hk =>
    intro depth hd x p hu hkx
    obtain ⟨depth, rfl⟩ : ∃ n, depth = n + 1 := ⟨depth - 1, by simp [Solid.depth] at hd; omega⟩
    rcases hu.inv with rfl | ⟨c, ⟨op, l', r', hc, -⟩, -⟩
    · rw [surfaceIds, hk]; simp
    · rw [hk] at hc; cases hc
  | @node a l r op sl sr hk hl hr ihl ihr =>
    intro depth hd x p hu hkx
    obtain ⟨depth, rfl⟩ : ∃ n, depth = n + 1 := ⟨depth - 1, by simp [Solid.depth] at hd; omega⟩
    rw [surfaceIds, hk]
    rcases hu.inv with rfl | ⟨c, ⟨op', l2, r2, hc, hcc⟩, hu'⟩
    · rw [hk] at hkx; cases hkx
    · rw [hk] at hc
      cases hc
      rcases hcc with rfl | rfl
      · exact List.mem_append_left _ (ihl (by simp [Solid.depth] at hd; omega) x p hu' hkx)
      · exact List.mem_append_right _ (ihr (by simp [Solid.depth] at hd; omega) x p hu' hkx)

/-- tidy scenes with joined unions have boxes in order -/
theorem joined_boxesOk (ha : IsArgsort argsort) {fuel : ℕ} {h : Heap} (hr : TidyReaches argsort fuel Heap.empty h) {a : ℕ}
    (hlt : a < h.size) {s : Solid} (hrep : Represents h a s) (hj : Joined s) (hg : s.All fun p w => p.Valid ∧ Affine w) :
    BoxesOk argsort h a := by
  have hi := reaches_inv argsort empty_inv (TidyReaches.reaches argsort hr)
  have lt : ∀ x, Under h a x → x < h.size := fun x hu => lt_of_le_of_lt (hu.le hi.toStruct hlt) hlt
  refine boxesOk_joined argsort ha hrep hj hg (fun x p hu hk => hi.boxes x (lt x hu) p hk) fun x hu op l r hk => ?_
  exact (fresh_rebuilt argsort hi.toStruct (lt x hu) hk).2 (C19_tidy_partial argsort fuel h hr x (lt x hu) op l r hk) op l r hk

/-- the two tracers, if every component sees the carried rays as it saw the rays -/
theorem scene_carries (ha : IsArgsort argsort) {fuel : ℕ} {s : Scene} {h' : Heap} (hr : Reaches argsort fuel Heap.empty s.heap)
    (hr' : Reaches argsort fuel Heap.empty h') (hs : Static s.heap h') {m : Mat4} (hm : Isometry m)
    {objs : List ℕ} (hlt : ∀ a ∈ objs, a < s.heap.size) {depth : ℕ}
    (hnd : (objs.flatMap fun a => (surfaceIds depth s.heap a).map Prod.snd).Nodup)
    (hw : ∀ a ∈ objs, ∀ e ∈ surfaceIds depth s.heap a, (h'.obj e.2).world = m * (s.heap.obj e.2).world)
    {sources sources' : List (ℕ → List Col)} {n : ℕ} {limit : ℤ}
    (hem : ∀ f ∈ sources, ∀ c ∈ f n, c.generation = 0 ∧ c.ray.o 3 = 1 ∧ c.ray.d 3 = 0 ∧ norm4 c.ray.d = 1)
    (hsrc : List.Forall₂ (fun f f' => f' n = (f n).map (carried m)) sources sources')
    (hhit : ∀ i g c0 c, Emitted (Tracer.new sources (objs.map (s.component argsort depth)) n limit) i c0 →
      Journey (Tracer.new sources (objs.map (s.component argsort depth)) n limit) c0 g c → ¬ Extinct c → ∀ a ∈ objs,
      AgreeHits (intersectObj argsort depth h' a (c.ray.map m)) (intersectObj argsort depth s.heap a c.ray)) :
    Carries m (fun g c => ∃ i c0, Emitted (Tracer.new sources (objs.map (s.component argsort depth)) n limit) i c0 ∧
        Journey (Tracer.new sources (objs.map (s.component argsort depth)) n limit) c0 g c)
      (Tracer.new sources (objs.map (s.component argsort depth)) n limit)
      (Tracer.new sources' (objs.map (({ s with heap := h' } : Scene).component argsort depth)) n limit) := by
  have ok := scene_ok argsort ha hr hlt hnd hem (limit := limit)
  have hi := reaches_inv argsort empty_inv hr
  have hi' := reaches_inv argsort empty_inv hr'
  have hids := surfaceIds_static hs
  have hem' : ∀ f ∈ sources', ∀ c ∈ f n, c.generation = 0 ∧ c.ray.o 3 = 1 ∧ c.ray.d 3 = 0 ∧ norm4 c.ray.d = 1 := by
    intro f' hf' c' hc'
    obtain ⟨f, hf, e⟩ : ∃ f ∈ sources, f' n = (f n).map (carried m) := by
      clear hhit ok hem
      induction hsrc with
      | nil => simp at hf'
      | cons e _ ih =>
        rcases List.mem_cons.1 hf' with rfl | h2
        · exact ⟨_, by simp, e⟩
        · obtain ⟨f, h1, h3⟩ := ih h2
          exact ⟨f, by simp [h1], h3⟩
    rw [e] at hc'
    obtain ⟨c, hc, rfl⟩ := List.mem_map.1 hc'
    obtain ⟨h1, h2, h3, h4⟩ := hem f hf c hc
    exact ⟨h1, by rw [← h2]; exact hm.three _, by rw [← h3]; exact hm.three _, by rw [← h4]; exact hm.2 _ h3⟩
  have ok' : TracerOk (Tracer.new sources' (objs.map (({ s with heap := h' } : Scene).component argsort depth)) n limit) :=
    scene_ok argsort ha (s := { s with heap := h' }) hr' (fun a h => by show a < h'.size; rw [hs.1]; exact hlt a h)
      (by simpa only [hids] using hnd) hem'
  refine ⟨hm, ok, ok', ?_, ?_, ?_, rfl, rfl, rfl, hsrc, ?_, ?_⟩
  · rintro g c ⟨i, c0, he, hj⟩
    have := hj.onTheWay ok he
    exact ⟨this.pos, this.dir⟩
  · rintro g c ⟨i, c0, he, hj⟩ hx
    refine hitOf_agree ?_
    show List.Forall₂ _ (objs.map _) (objs.map _)
    rw [List.forall₂_map_left_iff, List.forall₂_map_right_iff, List.forall₂_same]
    exact fun a hao => hhit i g c0 c he hj hx a hao
  · rintro id f hf
    change (id, f) ∈ (objs.map (s.component argsort depth)).flatMap Component.surfaces at hf
    rw [List.flatMap_map] at hf
    obtain ⟨a, hao, h1⟩ := List.mem_flatMap.1 hf
    obtain ⟨e, h2, h3⟩ := List.mem_map.1 h1
    obtain ⟨rfl, rfl⟩ := Prod.mk.inj h3
    have l := (surfaceIds_spec hi depth a (hlt a hao) e h2).1
    refine ⟨fun c => (s.material e.2).trace (surfaceNormal h' e.2) c, ?_, fun c hc => ?_⟩
    · change _ ∈ (objs.map (({ s with heap := h' } : Scene).component argsort depth)).flatMap Component.surfaces
      rw [List.flatMap_map]
      refine List.mem_flatMap.2 ⟨a, hao, List.mem_map.2 ⟨e, ?_, rfl⟩⟩
      show e ∈ surfaceIds depth h' a
      rw [hids]; exact h2
    · refine material_moved hm (fun p => surfaceNormal_moved hm (hs.2.2 e.2).1 (hs.2.2 e.2).2.2.1 ?_ p)
        (fun p => surfaceNormal_three _ _ _) _ hc
      rw [(hi'.synced e.2 (by rw [hs.1]; exact l)).2.1, (hi.synced e.2 l).2.1, hw a hao e h2, Matrix.mul_inv_rev]
  · intro c hc
    obtain ⟨i, hi⟩ := (mem_sourceRays _ c).1 hc
    exact ⟨i, c, hi, .start⟩
  · rintro g c r c' ⟨i, c0, he, hj⟩ hst
    rcases colStep_iff ok g c with ⟨-, h2⟩ | ⟨d, sf, f, r', h1, h2, h3, h4, h5⟩
    · rw [h2] at hst; cases hst
    · rw [h5] at hst
      obtain ⟨rfl, rfl⟩ := Prod.mk.inj (Option.some.inj hst)
      exact ⟨i, c0, he, hj.next h1 h2 h3⟩

/-- **C75 for surfaces.** Take any scene (any history), trace it with components that are all single surfaces. Now let any movements
be made, of which the net effect on the components and sources is one isometry `m`: the placement of each component is multiplied by
`m`, each source emits the rays carried by `m`. Then the trace of the second system ends whenever that of the first does, after
the same number of steps, and its result is that of the first with positions and tilts carried by `m`, row by row: the same rays
hit the same surfaces in the same order with the same intensities, wavelengths and indices. -/
theorem C75_surfaces_partial (ha : IsArgsort argsort) (fuel : ℕ) (s : Scene) (hr : Reaches argsort fuel Heap.empty s.heap)
    (ops : List (ℕ × Movement)) (hops : ∀ p ∈ ops, p.1 < s.heap.size) (h' : Heap)
    (hrun : runMovements argsort fuel s.heap ops = (h', none)) (m : Mat4) (hm : Isometry m)
    (objs : List ℕ) (hnd : objs.Nodup) (hlt : ∀ a ∈ objs, a < s.heap.size) (hprim : ∀ a ∈ objs, ∃ p, (s.heap.obj a).kind = .prim p)
    (hw : ∀ a ∈ objs, (h'.obj a).world = m * (s.heap.obj a).world)
    (depth : ℕ) (sources sources' : List (ℕ → List Col)) (n : ℕ) (limit : ℤ)
    (hem : ∀ f ∈ sources, ∀ c ∈ f n, c.generation = 0 ∧ c.ray.o 3 = 1 ∧ c.ray.d 3 = 0 ∧ norm4 c.ray.d = 1)
    (hsrc : List.Forall₂ (fun f f' => f' n = (f n).map (carried m)) sources sources')
    (k : ℕ) (u : Tracer) (htr : Tracer.Traces k (Tracer.new sources (objs.map (s.component argsort (depth + 1))) n limit) u) :
    (∃ u', Tracer.Traces k (Tracer.new sources' (objs.map (({ s with heap := h' } : Scene).component argsort (depth + 1))) n limit) u') ∧
    ∀ j u', Tracer.Traces j (Tracer.new sources' (objs.map (({ s with heap := h' } : Scene).component argsort (depth + 1))) n limit) u' →
      u'.frame = u.frame.map (carriedRow m) ∧ j = k := by
  have hi := reaches_inv argsort empty_inv hr
  obtain ⟨hi', hs, -⟩ := runMovements_ok argsort ops hi hops hrun
  have hr' := reaches_runMovements argsort ops hr hops hrun
  have hid : ∀ a ∈ objs, surfaceIds (depth + 1) s.heap a = [((s.heap.obj a).oid, a)] := by
    intro a hao
    obtain ⟨p, hp⟩ := hprim a hao
    rw [surfaceIds, hp]
  have hnd' : (objs.flatMap fun a => (surfaceIds (depth + 1) s.heap a).map Prod.snd).Nodup := by
    have : (objs.flatMap fun a => (surfaceIds (depth + 1) s.heap a).map Prod.snd) = objs := by
      clear hnd hlt hprim hw htr
      induction objs with
      | nil => rfl
      | cons a l ih =>
        rw [List.flatMap_cons, hid a (by simp), ih fun b hb => hid b (by simp [hb])]
        rfl
    rw [this]; exact hnd
  have hc := scene_carries argsort ha hr hr' hs hm hlt hnd' (fun a hao e he => by
      rw [hid a hao, List.mem_singleton] at he
      rw [he]; exact hw a hao) hem hsrc (limit := limit) (fun i g c0 c he hj hx a hao => by
    obtain ⟨p, hp⟩ := hprim a hao
    have e1 := (hi.synced a (hlt a hao)).2.1
    have e2 := (hi'.synced a (by rw [hs.1]; exact hlt a hao)).2.1
    have e3 : (c.ray.map m).map (m * (s.heap.obj a).world)⁻¹ = c.ray.map (s.heap.obj a).world⁻¹ := by
      simp only [Ray.map, Matrix.mul_inv_rev, ← mulVec_mulVec, hm.inv_mulVec]
    rw [intersectObj, intersectObj, (hs.2.2 a).1, hp]
    simp only [leafIntersect]
    rw [e2, hw a hao, e3, e1, (hs.2.2 a).2.1]
    exact AgreeHits.refl _)
  refine ⟨?_, fun j u' hj => hc.frame htr hj⟩
  obtain ⟨j, u', hj⟩ := hc.ends htr
  obtain ⟨-, rfl⟩ := hc.frame htr hj
  exact ⟨u', hj⟩

/-- **C75 for composites.** As `C75_surfaces_partial` for components built of any surfaces by any operations, in a tidy history, if the
operands of every union have a common interior point and every ray that is traced meets the conditions under which `intersect` is right
about it before and after the movement (no component within the tolerance without being 0) and does not merely touch a
composite.
Missing from C75: unions of separated parts, for which it is false (`C75_separated_union_false`), and rays the tolerances misjudge. -/
theorem C75_composites_partial (ha : IsStableArgsort argsort) (fuel : ℕ) (s : Scene) (hr : TidyReaches argsort fuel Heap.empty s.heap)
    (ops : List (ℕ × Movement)) (hops : ∀ p ∈ ops, p.1 < s.heap.size ∧ Allowed s.heap fuel p.1) (h' : Heap)
    (hrun : runMovements argsort fuel s.heap ops = (h', none)) (m : Mat4) (hm : Isometry m)
    (depth : ℕ) (objs : List ℕ) (hlt : ∀ a ∈ objs, a < s.heap.size)
    (hnd : (objs.flatMap fun a => (surfaceIds depth s.heap a).map Prod.snd).Nodup)
    (hobj : ∀ a ∈ objs, ∃ σ, Represents s.heap a σ ∧ σ.depth ≤ depth ∧ Joined σ ∧ σ.All fun p w => p.Valid ∧ Affine w)
    (hw : ∀ a ∈ objs, ∀ e ∈ surfaceIds depth s.heap a, (h'.obj e.2).world = m * (s.heap.obj e.2).world)
    (sources sources' : List (ℕ → List Col)) (n : ℕ) (limit : ℤ)
    (hem : ∀ f ∈ sources, ∀ c ∈ f n, c.generation = 0 ∧ c.ray.o 3 = 1 ∧ c.ray.d 3 = 0 ∧ norm4 c.ray.d = 1)
    (hsrc : List.Forall₂ (fun f f' => f' n = (f n).map (carried m)) sources sources')
    (hrays : ∀ i g c0 c, Emitted (Tracer.new sources (objs.map (s.component argsort depth)) n limit) i c0 →
      Journey (Tracer.new sources (objs.map (s.component argsort depth)) n limit) c0 g c → ¬ Extinct c →
      GoodRay c.ray ∧ GoodRay (c.ray.map m) ∧ ∀ a ∈ objs, ∀ σ, Represents s.heap a σ →
        (σ.All fun p w => Sees p (c.ray.map w⁻¹)) ∧ Decided c.ray σ)
    (k : ℕ) (u : Tracer) (htr : Tracer.Traces k (Tracer.new sources (objs.map (s.component argsort depth)) n limit) u) :
    (∃ u', Tracer.Traces k (Tracer.new sources' (objs.map (({ s with heap := h' } : Scene).component argsort depth)) n limit) u') ∧
    ∀ j u', Tracer.Traces j (Tracer.new sources' (objs.map (({ s with heap := h' } : Scene).component argsort depth)) n limit) u' →
      u'.frame = u.frame.map (carriedRow m) ∧ j = k := by
  have hre := TidyReaches.reaches argsort hr
  have hi := reaches_inv argsort empty_inv hre
  obtain ⟨-, hs, -⟩ := runMovements_ok argsort ops hi (fun p hp => (hops p hp).1) hrun
  have ht' := tidy_runMovements argsort ops hr hops hrun
  have hre' := TidyReaches.reaches argsort ht'
  have hc := scene_carries argsort ha.1 hre hre' hs hm hlt hnd hw hem hsrc (limit := limit) (fun i g c0 c he hj hx a hao => by
    obtain ⟨hg1, hg2, hso⟩ := hrays i g c0 c he hj hx
    obtain ⟨σ, hrep, hd, hjo, hall⟩ := hobj a hao
    obtain ⟨hsee, hdec⟩ := hso a hao σ hrep
    have hwx : ∀ x p, Under s.heap a x → (s.heap.obj x).kind = .prim p → (h'.obj x).world = m * (s.heap.obj x).world :=
      fun x p hu hk => hw a hao _ (surfaceIds_complete hrep hd x p hu hk)
    have hall' : (σ.carry m).All fun p w => p.Valid ∧ Affine w := by
      clear hrep hd hjo hsee hdec
      induction σ with
      | leaf p w => exact ⟨hall.1, row_mul hm.1 hall.2.1, by rw [det_mul]; exact mul_ne_zero hm.det hall.2.2⟩
      | node op l r ihl ihr => exact ⟨ihl hall.1, ihr hall.2⟩
    have hboth : σ.All fun p w => (p.Valid ∧ Affine w) ∧ Sees p (c.ray.map w⁻¹) := by
      clear hrep hd hjo hdec hall'
      induction σ with
      | leaf p w => exact ⟨hall, hsee⟩
      | node op l r ihl ihr => exact ⟨ihl hall.1 hsee.1, ihr hall.2 hsee.2⟩
    exact intersectObj_carried argsort ha hre hre' hs hm hg1 hg2 hrep (hlt a hao) hwx hboth
      (joined_boxesOk argsort ha.1 hr (hlt a hao) hrep hjo hall)
      (joined_boxesOk argsort ha.1 ht' (by rw [hs.1]; exact hlt a hao) (represents_carry hrep (fun x => (hs.2.2 x).1) hwx)
        (Solid.carry_joined hm hjo) hall') hdec depth hd)
  refine ⟨?_, fun j u' hj => hc.frame htr hj⟩
  obtain ⟨j, u', hj⟩ := hc.ends htr
  obtain ⟨-, rfl⟩ := hc.frame htr hj
  exact ⟨u', hj⟩

/-- Sources placed by a carried matrix emit the carried rays: the condition on the sources in C75 is met by the sources of
`components/sources.py` whenever their placement is multiplied by `m` (a cone needs more than one ray, C36). -/
theorem C75_sources (k : SourceKind) (wl : ℝ) (w m : Mat4) (hw : Affine w) (hm : Isometry m) (n : ℕ) (hk : ∀ a, k = .cone a → 1 < n) :
    (k.generate wl (m * w) n).cols = (k.generate wl w n).cols.map (carried m) := by
  unfold RayTable.cols
  rw [List.map_ofFn]
  congr 1
  funext j
  obtain ⟨o, d, hc, ho, hd, hn⟩ := local_dir k wl hk j
  simp only [Function.comp, SourceKind.generate]
  rw [place_col, place_col, hc]
  simp only [freshCol, carried, Col.mk.injEq, and_true]
  congr 1
  · rw [mulVec_mulVec]
  · rw [← mulVec_mulVec, hm.normalize (by rw [affine_three hw, hd])]

theorem worldAfter_each (kind : ℕ → Kind) (fuel : ℕ) {mv : Movement} {m : Mat4} (hm : mv.matrix = .ok m) (b : ℕ) (objs : List ℕ) :
    ∀ w, worldAfter kind fuel b (objs.map fun a => (a, mv)) w = m ^ (objs.flatMap (visits kind fuel)).count b * w := by
  induction objs with
  | nil => intro w; simp [worldAfter]
  | cons a l ih =>
    intro w
    simp only [List.map_cons, worldAfter, hm, List.flatMap_cons, List.count_append]
    rw [ih, ← mul_assoc, ← pow_add, Nat.add_comm]

theorem surfaceIds_visits {h : Heap} : ∀ {depth a : ℕ} {e : ℕ × ℕ}, e ∈ surfaceIds depth h a →
    e.2 ∈ visits (fun a => (h.obj a).kind) depth a
  | 0, _, _, he => by simp [surfaceIds] at he
  | depth + 1, a, e, he => by
    rw [surfaceIds] at he
    rw [visits]
    cases hk : (h.obj a).kind with
    | csg op l r =>
      rw [hk] at he
      simp only at he ⊢
      rcases List.mem_append.1 he with h1 | h1
      · exact List.mem_cons_of_mem _ (List.mem_append_left _ (surfaceIds_visits h1))
      · exact List.mem_cons_of_mem _ (List.mem_append_right _ (surfaceIds_visits h1))
    | prim p => rw [hk] at he; simp at he; simp [he]
    | group ms => rw [hk] at he; simp at he
    | plain => rw [hk] at he; simp at he

/-- The condition on the placements in C75 is met by calling one and the same movement on every component, if no object is part of two
of them. -/
theorem C75_moving_each (depth : ℕ) (h h' : Heap) (hr : Reaches argsort depth Heap.empty h) (objs : List ℕ)
    (hlt : ∀ a ∈ objs, a < h.size) (hnd : (objs.flatMap (visits (fun a => (h.obj a).kind) depth)).Nodup) (mv : Movement) (m : Mat4)
    (hm : mv.matrix = .ok m) (hrun : runMovements argsort depth h (objs.map fun a => (a, mv)) = (h', none)) :
    ∀ a ∈ objs, ∀ e ∈ surfaceIds depth h a, (h'.obj e.2).world = m * (h.obj e.2).world := by
  intro a hao e he
  rw [C13_history argsort depth h h' hr _ (by simpa using hlt) hrun, worldAfter_each _ _ hm,
    List.count_eq_one_of_mem hnd (List.mem_flatMap.2 ⟨a, hao, surfaceIds_visits he⟩), pow_one]

/-! #### examples -/

/-- moving the composite of two surfaces -/
theorem pairOf_moved (p q : Prim) (op : Operation) {mv : Movement} {m : Mat4} (hmv : mv.matrix = .ok m) (hm : Rigid m) :
    ∃ h', runMovements argsort 2 (pairOf argsort p q op) [(2, mv)] = (h', none) ∧ Static (pairOf argsort p q op) h' ∧
      (h'.obj 0).world = m ∧ (h'.obj 1).world = m ∧ TidyReaches argsort 2 Heap.empty h' ∧
      Allowed (pairOf argsort p q op) 2 2 := by
  obtain ⟨sz, k0, k1, k2, w0, w1, -, -, -, t⟩ := pairOf_spec argsort p q op
  have hr := TidyReaches.reaches argsort (t 2)
  have hi := reaches_inv argsort empty_inv hr
  have hg : ∀ b < (pairOf argsort p q op).size, GoodWorld ((pairOf argsort p q op).obj b).world := by
    intro b hb
    rw [sz] at hb
    interval_cases b
    · rw [w0]; exact goodWorld_one
    · rw [w1]; exact goodWorld_one
    · have : ((pairOf argsort p q op).obj 2).world = 1 := by
        exact newCsg_world_self argsort (newPrim (newPrim Heap.empty p) q) op 0 1
      rw [this]; exact goodWorld_one
  have hv : visits (fun a => ((pairOf argsort p q op).obj a).kind) 2 2 = [2, 0, 1] := by simp [visits, k0, k1, k2]
  obtain ⟨h', e, -⟩ := transform_succeeds argsort (rigid_good hm) 2 2 hi hg (by omega) (by simp [Spec.fits, k0, k1, k2])
  have hrun : runMovements argsort 2 (pairOf argsort p q op) [(2, mv)] = (h', none) := by
    simp only [runMovements, callMovement, hmv, e]
    rfl
  have hallow : Allowed (pairOf argsort p q op) 2 2 := by
    simp only [Allowed, k2]
    rintro x hx ⟨op', l, r, hk, hor⟩
    rw [sz] at hx
    interval_cases x
    · rw [k0] at hk; cases hk
    · rw [k1] at hk; cases hk
    · rw [k2] at hk; cases hk; omega
  obtain ⟨-, hs, hw⟩ := runMovements_ok argsort _ hi (by simp [sz]) hrun
  refine ⟨h', hrun, hs, ?_, ?_, tidy_runMovements argsort _ (t 2) (by simp [sz]; exact hallow) hrun, hallow⟩
  · rw [hw 0]; simp [worldAfter, hmv, hv, w0]
  · rw [hw 1]; simp [worldAfter, hmv, hv, w1]

/-- with absorbers only, a ray that is not extinct is one that has just been emitted -/
theorem absorbing_journey {s : Scene} (hs : s.material = fun _ => .absorber) {depth : ℕ} {objs : List ℕ} {sources : List (ℕ → List Col)}
    {n : ℕ} {limit : ℤ} {c0 c : Col} {g : ℕ} (h : Journey (Tracer.new sources (objs.map (s.component argsort depth)) n limit) c0 g c)
    (hx : ¬ Extinct c) : c = c0 := by
  cases h with
  | start => rfl
  | @next g c1 d id f hj hne hn hf =>
    exfalso
    apply hx
    change (id, f) ∈ (objs.map (s.component argsort depth)).flatMap Component.surfaces at hf
    rw [List.flatMap_map] at hf
    obtain ⟨a, hao, h1⟩ := List.mem_flatMap.1 hf
    obtain ⟨e, h2, h3⟩ := List.mem_map.1 h1
    obtain ⟨rfl, rfl⟩ := Prod.mk.inj h3
    rw [hs]
    simp [Extinct, moved, Material.trace, norm4]
    norm_num

/-- a source of one ray -/
def oneRay (ray : Ray) : ℕ → List Col := fun _ => [{ ray, generation := 0, intensity := 100, wavelength := 0.633, index := 1, id := 0 }]

theorem oneRay_emits {x : ℝ} : ∀ f ∈ [oneRay (zRay x)], ∀ c ∈ f 1, c.generation = 0 ∧ c.ray.o 3 = 1 ∧ c.ray.d 3 = 0 ∧ norm4 c.ray.d = 1 := by
  intro f hf c hc
  rw [List.mem_singleton] at hf
  subst hf
  rw [oneRay, List.mem_singleton] at hc
  subst hc
  simp [zRay, point, vector, norm4]

/-- an eighth of a turn about the z axis -/
noncomputable def eighth : Mat4 := rotZMatrix (√2 / 2) (√2 / 2)

theorem eighth_matrix : (Movement.rotateZ (Real.pi / 4) .rad).matrix = .ok eighth := by
  simp [Movement.matrix, sinCos, eighth]

theorem eighth_rigid : Rigid eighth := rotZ_rigid (by
  have : (√2 : ℝ) ^ 2 = 2 := Real.sq_sqrt (by norm_num)
  rw [div_pow, this]; norm_num)

theorem eighth_point (x y z : ℝ) : eighth *ᵥ point x y z = point (√2 / 2 * (x - y)) (√2 / 2 * (x + y)) z := by
  funext i
  rw [mulVec4]
  fin_cases i <;> simp [eighth, rotZMatrix, point] <;> ring

theorem eighth_vector (z : ℝ) : eighth *ᵥ vector 0 0 z = vector 0 0 z := by
  funext i
  rw [mulVec4]
  fin_cases i <;> simp [eighth, rotZMatrix, vector]

theorem eighth_zRay_good (x : ℝ) : GoodRay ((zRay x).map eighth) := by
  have e : (zRay x).map eighth = ⟨point (√2 / 2 * (x - 0)) (√2 / 2 * (x + 0)) (-5), vector 0 0 1⟩ := by
    simp only [zRay, Ray.map, eighth_point, eighth_vector]
  rw [e]
  refine ⟨by simp [point], by simp [vector], ⟨?_, ?_, ?_⟩, ?_⟩
  · left; simp [vector]
  · left; simp [vector]
  · right; simp [vector]; norm_num
  · right; right; simp [vector]

/-- **C75 is false for unions of separated parts.** The union of a wall from y = -200 to y = 200 around x = 100 and the unit sphere, both
absorbers, and a ray along z through the middle of the wall: all conditions of `C75_composites_partial` hold but one, that the parts have a
common interior point. The ray hits nothing. When everything is turned by 45 degrees about the z axis, it hits the wall. -/
theorem C75_separated_union_false (ha : IsStableArgsort argsort) : ∃ (s : Scene) (h' : Heap) (m : Mat4) (σ : Solid) (x : ℝ) (k k' : ℕ)
    (u u' : Tracer),
    TidyReaches argsort 2 Heap.empty s.heap ∧ 2 < s.heap.size ∧ Allowed s.heap 2 2 ∧
    runMovements argsort 2 s.heap [(2, .rotateZ (Real.pi / 4) .rad)] = (h', none) ∧ Isometry m ∧
    (∀ e ∈ surfaceIds 2 s.heap 2, (h'.obj e.2).world = m * (s.heap.obj e.2).world) ∧
    Represents s.heap 2 σ ∧ (σ.All fun p w => (p.Valid ∧ Affine w) ∧ Sees p ((zRay x).map w⁻¹)) ∧ Decided (zRay x) σ ∧
    GoodRay (zRay x) ∧ GoodRay ((zRay x).map m) ∧
    Tracer.Traces k (Tracer.new [oneRay (zRay x)] [s.component argsort 2 2] 1 1) u ∧
    Tracer.Traces k' (Tracer.new [oneRay ((zRay x).map m)] [({ s with heap := h' } : Scene).component argsort 2 2] 1 1) u' ∧
    u.frame = [] ∧ u'.frame ≠ [] := by
  set p : Prim := .cube ![99, -200, -1] ![101, 200, 1] with hp
  set q : Prim := .sphere 1 with hq
  obtain ⟨sz, k0, k1, k2, w0, w1, b0, b1, b2, t⟩ := pairOf_spec argsort p q .union
  have hrep := pairOf_represents argsort p q .union
  obtain ⟨h', hrun, hs, v0, v1, ht', hallow⟩ := pairOf_moved argsort p q .union eighth_matrix eighth_rigid
  have hiso : Isometry eighth := isometry_of_rigid eighth_rigid
  set h := pairOf argsort p q .union with hh
  have hre := TidyReaches.reaches argsort (t 2)
  have hre' := TidyReaches.reaches argsort ht'
  have hids : surfaceIds 2 h 2 = [((h.obj 0).oid, 0), ((h.obj 1).oid, 1)] := by simp [surfaceIds, k0, k1, k2]
  have hnd : ([2].flatMap fun a => (surfaceIds 2 h a).map Prod.snd).Nodup := by simp [hids]
  -- the ray is culled
  have e0 : toBox p.boundSpans 0 = (((99 : ℝ) : EReal), ((101 : ℝ) : EReal)) := by
    simp only [hp, toBox, Prim.boundSpans, cubeSpans, cons_val_zero]
    rw [min_eq_left (by norm_num), max_eq_right (by norm_num)]
  have e1 : toBox q.boundSpans 0 = (((-1 : ℝ) : EReal), ((1 : ℝ) : EReal)) := by
    simp only [hq, toBox, Prim.boundSpans, cubeSpans, cons_val_zero]
    rw [min_eq_left (by norm_num), max_eq_right (by norm_num)]
  have ebox : (h.obj 2).aobb 0 = (((-1 : ℝ) : EReal), ((1 : ℝ) : EReal)) := by
    rw [b2, union_far argsort ha.1 _ _ e0 e1, e1]
  have hnp : ¬ boxPasses (h.obj 2).aobb (zRay 100) := by
    have hslab : slab ((h.obj 2).aobb 0) ((zRay 100).o 0) ((zRay 100).d 0) = (⊤, ⊤) := by
      rw [ebox]
      have h1 : (zRay 100).d 0 = 0 := by simp [zRay, vector]
      have h2 : (zRay 100).o 0 = 100 := by simp [zRay, point]
      have h3 : ¬ (((100 : ℝ) : EReal) ≤ ((1 : ℝ) : EReal)) := by
        rw [EReal.coe_le_coe_iff]; norm_num
      simp only [slab, h1, h2, isclose0_zero, not_true_eq_false, if_false, h3, false_and, sort2, min_self, max_self]
    have : boxIntersect (h.obj 2).aobb (zRay 100) = (⊤, ⊤) := by
      simp only [boxIntersect, hslab]
      simp
    simp [boxPasses, this]
  have hnone : (intersectObj argsort 2 h 2 (zRay 100)).1 = [⊤, ⊤, ⊤, ⊤] := by
    rw [intersectObj, k2]
    simp only
    rw [if_neg hnp]
    simp [intersectObj, k0, k1, leafIntersect, List.replicate]
  have hone : (zRay 100).map (1 : Mat4)⁻¹ = zRay 100 := by simp [Ray.map]
  have hall : (Solid.node .union (.leaf p 1) (.leaf q 1)).All fun p w => (p.Valid ∧ Affine w) ∧ Sees p ((zRay 100).map w⁻¹) := by
    refine ⟨⟨⟨trivial, affine_one⟩, ?_⟩, ⟨⟨?_, affine_one⟩, ?_⟩⟩
    · rw [hone]; exact (zRay_good 100).clear
    · trivial
    · rw [hone]; exact (zRay_good 100).ne
  have hin : (Solid.node .union (.leaf p 1) (.leaf q 1)).Interior ((zRay 100).at 5) := by
    simp only [Solid.Interior, zRay_at]
    left
    refine ⟨_, one_mulVec _, ?_⟩
    simp only [hp, Spec.Interior]
    intro i
    fin_cases i
    · show min (99 : ℝ) 101 < 100 ∧ (100 : ℝ) < max 99 101; norm_num
    · show min (-200 : ℝ) 200 < 0 ∧ (0 : ℝ) < max (-200) 200; norm_num
    · show min (-1 : ℝ) 1 < 5 - 5 ∧ (5 : ℝ) - 5 < max (-1) 1; norm_num
  have hout : (Solid.node .union (.leaf p 1) (.leaf q 1)).Outside ((zRay 100).at 1) := by
    simp only [Solid.Outside, zRay_at, one_mulVec]
    constructor
    · rintro x rfl hc
      have h2 : min (-1 : ℝ) 1 ≤ 1 - 5 := (hc 2).1
      rw [min_eq_left (by norm_num)] at h2
      norm_num at h2
    · rintro x rfl; simp [hq, Spec.Closed, point]; norm_num
  -- after the turn the boxes overlap
  have hk0 : (h'.obj 0).kind = .prim p := (hs.2.2 0).1.trans k0
  have hk1 : (h'.obj 1).kind = .prim q := (hs.2.2 1).1.trans k1
  have hk2 : (h'.obj 2).kind = .csg .union 0 1 := (hs.2.2 2).1.trans k2
  have hsz : h'.size = 3 := hs.1.trans sz
  have hi' := reaches_inv argsort empty_inv hre'
  have haff : Affine eighth := hiso.affine
  have hc : (0 : ℝ) < √2 / 2 := by positivity
  have inp : ∀ y : ℝ, |y| < 200 → Spec.Interior p (point 99.5 y 0) := by
    intro y hy
    obtain ⟨y1, y2⟩ := abs_lt.1 hy
    simp only [hp, Spec.Interior]
    intro i
    fin_cases i
    · show min (99 : ℝ) 101 < 99.5 ∧ (99.5 : ℝ) < max 99 101; norm_num
    · show min (-200 : ℝ) 200 < y ∧ y < max (-200) 200
      rw [min_eq_left (by norm_num), max_eq_right (by norm_num)]; exact ⟨y1, y2⟩
    · show min (-1 : ℝ) 1 < 0 ∧ (0 : ℝ) < max (-1) 1; norm_num
  have box : ∀ y : ℝ, |y| < 200 → ∀ i : Fin 3, ((h'.obj 0).aobb i).1 < (((eighth *ᵥ point 99.5 y 0) i.castSucc : ℝ) : EReal) ∧
      (((eighth *ᵥ point 99.5 y 0) i.castSucc : ℝ) : EReal) < ((h'.obj 0).aobb i).2 := by
    intro y hy i
    rw [hi'.boxes 0 (by omega) p hk0, v0]
    exact interior_in_box (p := p) trivial haff (by simp [point]) (inp y hy) i
  have lt0 : ∀ {a : EReal} {b : ℝ}, a < (b : EReal) → b ≤ 0 → a < ((0 : ℝ) : EReal) := fun h1 h2 => lt_of_lt_of_le h1 (EReal.coe_le_coe_iff.2 h2)
  have gt0 : ∀ {a : EReal} {b : ℝ}, (b : EReal) < a → 0 ≤ b → ((0 : ℝ) : EReal) < a := fun h1 h2 => lt_of_le_of_lt (EReal.coe_le_coe_iff.2 h2) h1
  have in0 : Inner (h'.obj 0).aobb (point 0 0 0) := by
    have a1 := box 150 (by rw [abs_of_pos] <;> norm_num)
    have a2 := box (-150) (by rw [abs_of_neg] <;> norm_num)
    simp only [eighth_point] at a1 a2
    intro i
    fin_cases i
    · exact ⟨lt0 (a1 0).1 (by show √2 / 2 * (99.5 - 150) ≤ 0; nlinarith), gt0 (a2 0).2 (by show 0 ≤ √2 / 2 * (99.5 - (-150)); nlinarith)⟩
    · exact ⟨lt0 (a2 1).1 (by show √2 / 2 * (99.5 + (-150)) ≤ 0; nlinarith), gt0 (a1 1).2 (by show 0 ≤ √2 / 2 * (99.5 + 150); nlinarith)⟩
    · exact ⟨lt0 (a1 2).1 le_rfl, gt0 (a1 2).2 le_rfl⟩
  have in1 : Inner (h'.obj 1).aobb (point 0 0 0) := by
    intro i
    have := interior_in_box (p := q) trivial haff (x := point 0 0 0) (by simp [point]) (by simp [hq, Spec.Interior, point]) i
    rw [eighth_point] at this
    rw [hi'.boxes 1 (by omega) q hk1, v1]
    simpa using this
  have hov : ∀ x k l r, Chain h' 2 x k → (h'.obj x).kind = .csg .union l r → Overlap (h'.obj l).aobb (h'.obj r).aobb := by
    intro x k l r hc hk
    have hx := hc.under.le hi'.toStruct (by omega)
    interval_cases x
    · rw [hk0] at hk; cases hk
    · rw [hk1] at hk; cases hk
    · rw [hk2] at hk; cases hk; exact in0.overlap in1
  have hwx : ∀ x p', Under h 2 x → (h.obj x).kind = .prim p' → (h'.obj x).world = eighth * (h.obj x).world := by
    intro x p' hu hk
    have hx := hu.le (reaches_inv argsort empty_inv hre).toStruct (by omega)
    interval_cases x
    · rw [v0, w0, mul_one]
    · rw [v1, w1, mul_one]
    · rw [k2] at hk; cases hk
  have hrep' := represents_carry (m := eighth) hrep (fun x => (hs.2.2 x).1) hwx
  obtain ⟨d, hd, d1, -⟩ := C64_crossing_partial argsort ha.1 2 h' ht' 2 (by omega) _ hrep' hov ((zRay 100).map eighth) (eighth_zRay_good 100)
    (Solid.carry_all hiso hall) 2 (by rw [Solid.carry_depth]; simp [Solid.depth]) 1 5 (by norm_num)
    (.inr ⟨by rw [Ray.map_at]; exact (Solid.carry_points hiso _ _).2.2 hout, by rw [Ray.map_at]; exact (Solid.carry_points hiso _ _).1.2 hin⟩)
  -- the two traces
  set s : Scene := ⟨h, fun _ => .absorber⟩ with hsc
  have ok := scene_ok argsort ha.1 (s := s) hre (objs := [2]) (by intro a h2; rw [List.mem_singleton] at h2; subst h2; show 2 < h.size; omega)
    (depth := 2) hnd (oneRay_emits (x := 100)) (limit := 1)
  have hem' : ∀ f ∈ [oneRay ((zRay 100).map eighth)], ∀ c ∈ f 1, c.generation = 0 ∧ c.ray.o 3 = 1 ∧ c.ray.d 3 = 0 ∧ norm4 c.ray.d = 1 := by
    intro f hf c hc
    rw [List.mem_singleton] at hf
    subst hf
    rw [oneRay, List.mem_singleton] at hc
    subst hc
    refine ⟨rfl, (eighth_zRay_good 100).o3, (eighth_zRay_good 100).d3, ?_⟩
    show norm4 (eighth *ᵥ vector 0 0 1) = 1
    rw [eighth_vector]; simp [norm4, vector]
  have ok' := scene_ok argsort ha.1 (s := { s with heap := h' }) hre' (objs := [2])
    (by intro a h2; rw [List.mem_singleton] at h2; subst h2; show 2 < h'.size; omega)
    (depth := 2) (by show ([2].flatMap fun a => (surfaceIds 2 h' a).map Prod.snd).Nodup; simpa only [surfaceIds_static hs] using hnd) hem' (limit := 1)
  obtain ⟨k, u, hu, -⟩ := C26_terminates (Tracer.new [oneRay (zRay 100)] [s.component argsort 2 2] 1 1) (by simp [Tracer.new])
    (by simp [Tracer.new]) (fun f hf c hc => (ok.emits f hf c hc).1)
  obtain ⟨k', u', hu', -⟩ := C26_terminates (Tracer.new [oneRay ((zRay 100).map eighth)] [({ s with heap := h' } : Scene).component argsort 2 2] 1 1)
    (by simp [Tracer.new]) (by simp [Tracer.new]) (fun f hf c hc => (ok'.emits f hf c hc).1)
  refine ⟨s, h', eighth, _, 100, k, k', u, u', t 2, by show 2 < h.size; omega, hallow, hrun, hiso, ?_, hrep, hall, ?_, zRay_good 100,
    eighth_zRay_good 100, hu, hu', ?_, ?_⟩
  · intro e he
    change e ∈ surfaceIds 2 h 2 at he
    rw [hids] at he
    simp only [List.mem_cons, List.not_mem_nil, or_false] at he
    rcases he with rfl | rfl
    · show (h'.obj 0).world = eighth * (h.obj 0).world; rw [v0, w0, mul_one]
    · show (h'.obj 1).world = eighth * (h.obj 1).world; rw [v1, w1, mul_one]
  · exact ⟨trivial, trivial, .inl ⟨5, hin⟩⟩
  · rw [List.eq_nil_iff_forall_not_mem]
    intro r hr
    obtain ⟨i, g, -, c0, c, d, sid, he, hj, hx, hn, -⟩ := (trace_iff ok hu r).1 hr
    have hc0 := absorbing_journey argsort (s := s) rfl (objs := [2]) hj hx
    subst hc0
    have hray : c.ray = zRay 100 := by
      obtain ⟨c', h1, rfl⟩ := he
      have := List.mem_of_getElem? h1
      simp only [Tracer.new, List.flatMap_cons, List.flatMap_nil, List.append_nil, oneRay, List.mem_singleton] at this
      rw [this]
    refine hn.not_miss ?_
    intro C hC v hv
    change C ∈ [s.component argsort 2 2] at hC
    rw [List.mem_singleton] at hC
    subst hC
    rw [hray] at hv
    change v ∈ (intersectObj argsort 2 h 2 (zRay 100)).1 at hv
    rw [hnone] at hv
    simp at hv
    simp [hv]
  · intro hnil
    have hmem : ∀ r, r ∉ u'.frame := by rw [hnil]; simp
    rcases hitOf_spec (fun c hc => (ok'.comps c hc).len) ((zRay 100).map eighth) with ⟨hmiss, -⟩ | ⟨d', sid, hn, -⟩
    · exact hmiss _ (by simp [Tracer.new]; rfl) _ hd ⟨by exact_mod_cast (by linarith : (0 : ℝ) < d), EReal.coe_lt_top d⟩
    · obtain ⟨r, hr⟩ := segment_exists ({ ray := (zRay 100).map eighth, generation := 0, intensity := 100, wavelength := 0.633, index := 1, id := 0 } : Col) d' sid
      refine hmem r ((trace_iff ok' hu' r).2 ⟨0, 0, fun _ => by simp [Tracer.new], _, _, d', sid, ⟨_, rfl, ?_⟩, .start, ?_, hn, hr⟩)
      · simp
      · refine not_extinct_of_unit ?_
        show norm4 (eighth *ᵥ vector 0 0 1) = 1
        rw [eighth_vector]; simp [norm4, vector]

/-- non-vacuity of C75 for surfaces: the ray going to and fro in the spherical mirror, all of it moved by (1, 2, 3). It makes
three ways in both places. -/
example (ha : IsArgsort argsort) : ∃ (h' : Heap) (k : ℕ) (u u' : Tracer),
    runMovements argsort 1 (ball .mirror).heap [(0, .move 1 2 3)] = (h', none) ∧
    Tracer.Traces k (ballTracer argsort .mirror 0 1 100 3) u ∧
    Tracer.Traces k (Tracer.new [fun _ => [carried (moveMatrix 1 2 3) (axisCol 0 1 100 0)]]
      [({ ball .mirror with heap := h' } : Scene).component argsort 1 0] 1 3) u' ∧
    u'.frame = u.frame.map (carriedRow (moveMatrix 1 2 3)) ∧ (∃ r ∈ u'.frame, r.generation = 2) := by
  obtain ⟨k, u, htr, -, hrows⟩ := resonator_rows argsort ha
  obtain ⟨hk, -, -, -, hsz⟩ := ball_obj .mirror
  have hw : ((ball .mirror).heap.obj 0).world = 1 := by simp [ball, newPrim, Heap.alloc, Heap.empty]
  have hr := ball_reaches argsort .mirror 1
  have hi := reaches_inv argsort empty_inv hr
  obtain ⟨h', e, -⟩ := transform_succeeds argsort (rigid_good (move_rigid 1 2 3)) 1 0 hi
    (fun b hb => by rw [hsz] at hb; interval_cases b; rw [hw]; exact goodWorld_one) (by omega) (by simp [Spec.fits, hk])
  have hrun : runMovements argsort 1 (ball .mirror).heap [(0, .move 1 2 3)] = (h', none) := by
    simp only [runMovements, callMovement, Movement.matrix, e]
    rfl
  have hw' : (h'.obj 0).world = moveMatrix 1 2 3 * ((ball .mirror).heap.obj 0).world := by
    rw [C13_history argsort 1 _ h' hr _ (by simp [hsz]) hrun 0]
    simp [worldAfter, Movement.matrix, visits, hk]
  obtain ⟨⟨u', h1⟩, h2⟩ := C75_surfaces_partial argsort ha 1 (ball .mirror) hr [(0, .move 1 2 3)] (by simp [hsz]) h' hrun (moveMatrix 1 2 3)
    (isometry_of_rigid (move_rigid 1 2 3)) [0] (by simp) (by simp [hsz]) (by simp [hk]) (by simpa using hw') 0
    [fun _ => [axisCol 0 1 100 0]] [fun _ => [carried (moveMatrix 1 2 3) (axisCol 0 1 100 0)]] 1 3
    (by
      intro f hf c hc
      rw [List.mem_singleton] at hf
      subst hf
      rw [List.mem_singleton] at hc
      subst hc
      exact ⟨by simp [axisCol], by simp [axisCol, axisRay, point], by simp [axisCol, axisRay, vector], axis_norm (by norm_num)⟩)
    (by simp) k u htr
  have h3 := (h2 k u' h1).1
  refine ⟨h', k, u, u', hrun, htr, h1, h3, ?_⟩
  obtain ⟨r, h4, h5, -⟩ := (hrows 2).2 (by norm_num)
  exact ⟨carriedRow (moveMatrix 1 2 3) r, by rw [h3]; exact List.mem_map_of_mem h4, by show r.generation = 2; rw [h5]; norm_num⟩

/-- non-vacuity of C75 for composites: the union of a sphere and a cube about the origin, turned about the z axis with the ray. The
ray hits it in both places. -/
example (ha : IsStableArgsort argsort) : ∃ (s : Scene) (h' : Heap) (k : ℕ) (u u' : Tracer),
    (s.heap.obj 2).kind = .csg .union 0 1 ∧ runMovements argsort 2 s.heap [(2, .rotateZ (Real.pi / 4) .rad)] = (h', none) ∧
    Tracer.Traces k (Tracer.new [oneRay (zRay 0)] [s.component argsort 2 2] 1 1) u ∧
    Tracer.Traces k (Tracer.new [oneRay ((zRay 0).map eighth)] [({ s with heap := h' } : Scene).component argsort 2 2] 1 1) u' ∧
    u'.frame = u.frame.map (carriedRow eighth) ∧ u.frame ≠ [] := by
  set p : Prim := .sphere 2 with hp
  set q : Prim := .cube ![-1, -1, -1] ![3, 3, 3] with hq
  obtain ⟨sz, k0, k1, k2, w0, w1, b0, b1, b2, t⟩ := pairOf_spec argsort p q .union
  have hrep := pairOf_represents argsort p q .union
  obtain ⟨h', hrun, hs, v0, v1, ht', hallow⟩ := pairOf_moved argsort p q .union eighth_matrix eighth_rigid
  have hiso : Isometry eighth := isometry_of_rigid eighth_rigid
  set h := pairOf argsort p q .union with hh
  have hre := TidyReaches.reaches argsort (t 2)
  have hids : surfaceIds 2 h 2 = [((h.obj 0).oid, 0), ((h.obj 1).oid, 1)] := by simp [surfaceIds, k0, k1, k2]
  have hnd : ([2].flatMap fun a => (surfaceIds 2 h a).map Prod.snd).Nodup := by simp [hids]
  have hone : (zRay 0).map (1 : Mat4)⁻¹ = zRay 0 := by simp [Ray.map]
  have hval : (Solid.node .union (.leaf p 1) (.leaf q 1)).All fun p w => p.Valid ∧ Affine w := by
    refine ⟨⟨?_, affine_one⟩, ⟨trivial, affine_one⟩⟩
    trivial
  have hsee : (Solid.node .union (.leaf p 1) (.leaf q 1)).All fun p w => Sees p ((zRay 0).map w⁻¹) := by
    refine ⟨?_, ?_⟩
    · show Sees p _
      rw [hone]; exact (zRay_good 0).ne
    · show Sees q _
      rw [hone]; exact (zRay_good 0).clear
  have inp : Spec.Interior p (point 0 0 0) := by simp [hp, Spec.Interior, point]
  have inq : Spec.Interior q (point 0 0 0) := by
    simp only [hq, Spec.Interior]
    intro i
    fin_cases i <;>
    · show min (-1 : ℝ) 3 < 0 ∧ (0 : ℝ) < max (-1) 3; norm_num
  have hjo : Joined (.node .union (.leaf p 1) (.leaf q 1)) :=
    ⟨trivial, trivial, fun _ => ⟨point 0 0 0, by simp [point], ⟨_, one_mulVec _, inp⟩, ⟨_, one_mulVec _, inq⟩⟩⟩
  have hin : (Solid.node .union (.leaf p 1) (.leaf q 1)).Interior ((zRay 0).at 5) := by
    simp only [Solid.Interior, zRay_at]
    left
    refine ⟨_, one_mulVec _, ?_⟩
    simp [hp, Spec.Interior, point]
  have hout : (Solid.node .union (.leaf p 1) (.leaf q 1)).Outside ((zRay 0).at 1) := by
    simp only [Solid.Outside, zRay_at, one_mulVec]
    constructor
    · rintro x rfl; simp [hp, Spec.Closed, point]; norm_num
    · rintro x rfl hc
      have h2 : min (-1 : ℝ) 3 ≤ 1 - 5 := (hc 2).1
      rw [min_eq_left (by norm_num)] at h2
      norm_num at h2
  have uniq : ∀ σ, Represents h 2 σ → σ = .node .union (.leaf p 1) (.leaf q 1) := by
    intro σ hσ
    cases hσ with
    | leaf hk => rw [k2] at hk; cases hk
    | node hk hl hr =>
      rw [k2] at hk
      cases hk
      cases hl with
      | leaf hk =>
        rw [k0] at hk; cases hk
        cases hr with
        | leaf hk => rw [k1] at hk; cases hk; rw [w0, w1]
        | node hk _ _ => rw [k1] at hk; cases hk
      | node hk _ _ => rw [k0] at hk; cases hk
  set s : Scene := ⟨h, fun _ => .absorber⟩ with hsc
  have hlt : ∀ a ∈ [2], a < s.heap.size := by
    intro a h2; rw [List.mem_singleton] at h2; subst h2; show 2 < h.size; omega
  have ok := scene_ok argsort ha.1 (s := s) hre hlt (depth := 2) hnd (oneRay_emits (x := 0)) (limit := 1)
  obtain ⟨k, u, hu, -⟩ := C26_terminates (Tracer.new [oneRay (zRay 0)] [s.component argsort 2 2] 1 1) (by simp [Tracer.new])
    (by simp [Tracer.new]) (fun f hf c hc => (ok.emits f hf c hc).1)
  obtain ⟨⟨u', h1⟩, h2⟩ := C75_composites_partial argsort ha 2 s (t 2) [(2, .rotateZ (Real.pi / 4) .rad)]
    (by intro p hp; rw [List.mem_singleton] at hp; subst hp; exact ⟨hlt 2 (by simp), hallow⟩) h' hrun eighth hiso 2 [2] hlt hnd
    (by intro a h2; rw [List.mem_singleton] at h2; subst h2; exact ⟨_, hrep, by simp [Solid.depth], hjo, hval⟩)
    (by
      intro a h2 e he
      rw [List.mem_singleton] at h2; subst h2
      change e ∈ surfaceIds 2 h 2 at he
      rw [hids] at he
      simp only [List.mem_cons, List.not_mem_nil, or_false] at he
      rcases he with rfl | rfl
      · show (h'.obj 0).world = eighth * (h.obj 0).world; rw [v0, w0, mul_one]
      · show (h'.obj 1).world = eighth * (h.obj 1).world; rw [v1, w1, mul_one])
    [oneRay (zRay 0)] [oneRay ((zRay 0).map eighth)] 1 1 oneRay_emits (by simp [oneRay, carried, Ray.map])
    (by
      intro i g c0 c he hj hx
      have hc0 := absorbing_journey argsort (s := s) rfl (objs := [2]) hj hx
      subst hc0
      have hray : c.ray = zRay 0 := by
        obtain ⟨c', h1, rfl⟩ := he
        have := List.mem_of_getElem? h1
        simp only [Tracer.new, List.flatMap_cons, List.flatMap_nil, List.append_nil, oneRay, List.mem_singleton] at this
        rw [this]
      rw [hray]
      refine ⟨zRay_good 0, eighth_zRay_good 0, fun a h2 σ hσ => ?_⟩
      rw [List.mem_singleton] at h2; subst h2
      rw [uniq σ hσ]
      exact ⟨hsee, trivial, trivial, .inl ⟨5, hin⟩⟩)
    k u hu
  refine ⟨s, h', k, u, u', k2, hrun, hu, h1, (h2 k u' h1).1, fun hnil => ?_⟩
  have hall : (Solid.node .union (.leaf p 1) (.leaf q 1)).All fun p w => (p.Valid ∧ Affine w) ∧ Sees p ((zRay 0).map w⁻¹) :=
    ⟨⟨hval.1, hsee.1⟩, ⟨hval.2, hsee.2⟩⟩
  have hb := joined_boxesOk argsort ha.1 (t 2) (show 2 < h.size by omega) hrep hjo hval
  obtain ⟨d, hd, d1, -⟩ := C64_crossing_partial argsort ha.1 2 h (t 2) 2 (by omega) _ hrep (fun x k l r hc hk => hb.over x l r hc.under hk)
    (zRay 0) (zRay_good 0) hall 2 (by simp [Solid.depth]) 1 5 (by norm_num) (.inr ⟨hout, hin⟩)
  rcases hitOf_spec (fun c hc => (ok.comps c hc).len) (zRay 0) with ⟨hmiss, -⟩ | ⟨d', sid, hn, -⟩
  · exact hmiss _ (by simp [Tracer.new]; rfl) _ hd ⟨by exact_mod_cast (by linarith : (0 : ℝ) < d), EReal.coe_lt_top d⟩
  · obtain ⟨r, hr⟩ := segment_exists ({ ray := zRay 0, generation := 0, intensity := 100, wavelength := 0.633, index := 1, id := 0 } : Col) d' sid
    have := (trace_iff ok hu r).2 ⟨0, 0, fun _ => by simp [Tracer.new], _, _, d', sid, ⟨_, rfl, by simp⟩, .start,
      not_extinct_of_unit (by simp [zRay, norm4, vector]), hn, hr⟩
    rw [hnil] at this
    cases this

end PyRayT
