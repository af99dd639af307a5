import Verif.Model.Groups
import Verif.Props.World

/-!
# C96, C97: groups as lists
-/

namespace PyRayT

open Classical Matrix

variable (argsort : List EReal → List ℕ)

/-- a way from an object down to another: the positions at which one is contained in the other; the operands of a composite are its
items 0 and 1 -/
inductive Spec.Route (h : Heap) : ℕ → List ℕ → ℕ → Prop where
  | here (a : ℕ) : Route h a [] a
  | member {a b x i : ℕ} {ms p : List ℕ} : (h.obj a).kind = .group ms → ms[i]? = some b → Route h b p x → Route h a (i :: p) x
  | left {a l r x : ℕ} {op : Operation} {p : List ℕ} : (h.obj a).kind = .csg op l r → Route h l p x → Route h a (0 :: p) x
  | right {a l r x : ℕ} {op : Operation} {p : List ℕ} : (h.obj a).kind = .csg op l r → Route h r p x → Route h a (1 :: p) x

/-! ### the invariant -/

theorem editGroup_frame {fuel : ℕ} {h h' : Heap} {g : ℕ} {e : ListEdit} (he : editGroup fuel h g e = .ok h') :
    ∃ ms ms', (h.obj g).kind = .group ms ∧ e.run fuel h ms = .ok ms' ∧ h' = h.set g { h.obj g with kind := .group ms' } := by
  unfold editGroup at he
  split at he
  · rename_i ms hk
    cases hr : e.run fuel h ms with
    | error x => rw [hr] at he; cases he
    | ok ms' =>
      rw [hr] at he
      cases he
      exact ⟨ms, ms', hk, hr, rfl⟩
  · cases he

theorem removeFirst_sublist {eq : ℕ → Option Bool} : ∀ {ms ms' : List ℕ}, removeFirst eq ms = .ok ms' → ms'.Sublist ms := by
  intro ms
  induction ms with
  | nil => intro ms' h; cases h
  | cons a as ih =>
    intro ms' h
    unfold removeFirst at h
    split at h
    · cases h
    · cases h; exact List.sublist_cons_self _ _
    · cases hr : removeFirst eq as with
      | error x => rw [hr] at h; cases h
      | ok bs =>
        rw [hr] at h
        cases h
        exact (ih hr).cons₂ a

/-- every member after an edit was a member before or is one of the objects added -/
theorem ListEdit.run_mem {fuel : ℕ} {h : Heap} {ms ms' : List ℕ} {e : ListEdit} (he : e.run fuel h ms = .ok ms') :
    ∀ m ∈ ms', m ∈ ms ∨ m ∈ e.added := by
  intro m hm
  cases e with
  | append x => cases he; simpa [ListEdit.added] using hm
  | insert i x =>
    cases he
    rcases List.eq_or_mem_of_mem_insertIdx hm with h | h
    · right; simp [ListEdit.added, h]
    · exact Or.inl h
  | extend xs => cases he; simpa [ListEdit.added] using hm
  | setItem i x =>
    simp only [ListEdit.run] at he
    split at he
    · cases he
      rcases List.mem_or_eq_of_mem_set hm with h | h
      · exact Or.inl h
      · right; simp [ListEdit.added, h]
    · cases he
  | pop i =>
    simp only [ListEdit.run] at he
    split at he
    · cases he; exact Or.inl (List.mem_of_mem_eraseIdx hm)
    · cases he
  | remove x => exact Or.inl ((removeFirst_sublist he).subset hm)
  | clear => cases he; cases hm
  | reverse => cases he; exact Or.inl (List.mem_reverse.1 hm)
  | imul n =>
    cases he
    rw [List.mem_flatten] at hm
    obtain ⟨l, hl, hm⟩ := hm
    rw [List.eq_of_mem_replicate hl] at hm
    exact Or.inl hm

theorem setGroup_inv {h : Heap} (hi : Inv h) {g : ℕ} {ms : List ℕ} (hk : (h.obj g).kind = .group ms) (ms' : List ℕ)
    (hm : ∀ m ∈ ms', m < h.size) : Inv (h.set g { h.obj g with kind := .group ms' }) := by
  have hpar : ∀ p a, IsParent (h.set g { h.obj g with kind := .group ms' }) p a ↔ IsParent h p a := by
    intro p a
    unfold IsParent
    by_cases hp : p = g
    · subst hp
      rw [Heap.set_obj_self, hk]
      constructor <;> rintro ⟨_, _, _, hx, _⟩ <;> cases hx
    · rw [Heap.set_obj_ne _ _ hp]
  have hkind : ∀ a, ((h.set g { h.obj g with kind := .group ms' }).obj a).kind.intersectable = (h.obj a).kind.intersectable := by
    intro a
    by_cases ha : a = g
    · subst ha; rw [Heap.set_obj_self, hk]; rfl
    · rw [Heap.set_obj_ne _ _ ha]
  have hw : ∀ a, ((h.set g { h.obj g with kind := .group ms' }).obj a).watch = (h.obj a).watch := by
    intro a
    by_cases ha : a = g
    · subst ha; rw [Heap.set_obj_self]
    · rw [Heap.set_obj_ne _ _ ha]
  have ho : ∀ a, ((h.set g { h.obj g with kind := .group ms' }).obj a).oid = (h.obj a).oid := by
    intro a
    by_cases ha : a = g
    · subst ha; rw [Heap.set_obj_self]
    · rw [Heap.set_obj_ne _ _ ha]
  constructor
  · constructor
    · intro a ha; rw [hw]; exact hi.self_matrix a ha
    · intro a ha; rw [hw, hkind]; simp only [hpar]; exact hi.own_first a ha
    · intro a ha hd; rw [hw, hpar]; exact hi.watch_sound a ha hd
    · intro p a hp; rw [hpar, hkind]; exact hi.children p a hp
    · intro p a hp; rw [hpar, hw]; exact hi.attached p a hp
    · intro g' hg' ms'' hk' m' hm'
      by_cases hgg : g' = g
      · subst hgg; rw [Heap.set_obj_self] at hk'
        cases hk'
        exact hm m' hm'
      · rw [Heap.set_obj_ne _ _ hgg] at hk'; exact hi.members g' hg' ms'' hk' m' hm'
    · intro a b hab hb; rw [ho, ho]; exact hi.ids a b hab hb
    · intro a ha; rw [ho]; exact hi.ids_lt a ha
  · intro a ha
    by_cases hag : a = g
    · subst hag; rw [Heap.set_obj_self]; exact hi.synced a ha
    · rw [Heap.set_obj_ne _ _ hag]; exact hi.synced a ha
  · intro a ha
    by_cases hag : a = g
    · subst hag; rw [Heap.set_obj_self]; intro p hp; cases hp
    · rw [Heap.set_obj_ne _ _ hag]; exact hi.boxes a ha

theorem reachesL_inv {fuel : ℕ} {h h' : Heap} (hi : Inv h) (hr : ReachesL argsort fuel h h') : Inv h' := by
  induction hr with
  | refl => exact hi
  | cmd c _ hv he ih => exact exec_inv argsort ih c hv he
  | edit g e _ hg ha he ih =>
    obtain ⟨ms, ms', hk, hr, rfl⟩ := editGroup_frame he
    refine setGroup_inv ih hk ms' fun m hm => ?_
    rcases ListEdit.run_mem hr m hm with h1 | h1
    · exact ih.members g hg ms hk m h1
    · exact ha m h1

/-! ### routes -/

theorem foldl_andThen_ok {f : Heap → ℕ → Res} : ∀ (ms : List ℕ) {h h' : Heap}, ms.foldl (fun (res : Res) b => res.andThen fun h => f h b) (h, none) = (h', none) →
    ∀ (P : Heap → Prop), P h → (∀ a b, P a → P (f a b).1) → ∀ b ∈ ms, ∃ a a', P a ∧ f a b = (a', none) := by
  intro ms
  induction ms with
  | nil => intro _ _ _ _ _ _ b hb; cases hb
  | cons x xs ih =>
    intro h h' e P hP hstep b hb
    rw [List.foldl_cons] at e
    rcases hh : f h x with ⟨h2, er⟩
    have e' : (Res.andThen (h, none) fun h => f h x) = (h2, er) := hh
    rw [e'] at e
    cases er with
    | some er => rw [foldl_andThen_err] at e; simp at e
    | none =>
      rcases List.mem_cons.1 hb with rfl | hb
      · exact ⟨h, h2, hP, hh⟩
      · have hP2 := hstep h x hP
        rw [hh] at hP2
        exact ih e P hP2 hstep b hb

/-- a movement that does not exceed the recursion limit reaches the end of every route -/
theorem transform_routes (m : Mat4) : ∀ (fuel : ℕ) {h h' : Heap} {a : ℕ}, transform argsort fuel h a m = (h', none) →
    ∀ {p x}, Spec.Route h a p x → p.length < fuel := by
  intro fuel
  induction fuel with
  | zero => intro h h' a hr; simp [transform] at hr
  | succ fuel ih =>
    intro h h' a hr p x hp
    unfold transform at hr
    obtain ⟨h1, e1, e2⟩ := Res.andThen_ok hr
    have hs1 := appendOwn_static argsort h a m
    rw [e1] at hs1
    have trans : ∀ {h h' : Heap}, Static h h' → ∀ {a p x}, Spec.Route h a p x → Spec.Route h' a p x := by
      intro h h' hs a p x hp
      induction hp with
      | here a => exact .here a
      | member hk hb _ ih => exact .member (by rw [(hs.2.2 _).1]; exact hk) hb ih
      | left hk _ ih => exact .left (by rw [(hs.2.2 _).1]; exact hk) ih
      | right hk _ ih => exact .right (by rw [(hs.2.2 _).1]; exact hk) ih
    have hk1 : (h1.obj a).kind = (h.obj a).kind := (hs1.2.2 a).1
    cases hp with
    | here => simp
    | @member _ b _ i ms p hk hb hp =>
      rw [hk] at hk1
      simp only [hk1] at e2
      obtain ⟨y, y', hy, e⟩ := foldl_andThen_ok ms e2 (fun y => Static h y) hs1
        (fun y b hy => hy.trans (transform_static argsort m fuel y b)) b (List.mem_of_getElem? hb)
      have := ih e (trans hy hp)
      simp only [List.length_cons]; omega
    | @left _ l r _ op p hk hp =>
      rw [hk] at hk1
      simp only [hk1] at e2
      obtain ⟨h2, e3, e4⟩ := Res.andThen_ok e2
      have := ih e3 (trans hs1 hp)
      simp only [List.length_cons]; omega
    | @right _ l r _ op p hk hp =>
      rw [hk] at hk1
      simp only [hk1] at e2
      obtain ⟨h2, e3, e4⟩ := Res.andThen_ok e2
      have hs2 := transform_static argsort m fuel h1 l
      rw [e3] at hs2
      have := ih e4 (trans (hs1.trans hs2) hp)
      simp only [List.length_cons]; omega

/-- all routes shorter than the recursion limit -/
noncomputable def routeList (h : Heap) (x : ℕ) : ℕ → ℕ → List (List ℕ)
  | 0, _ => []
  | fuel + 1, a => (if a = x then [[]] else []) ++ match (h.obj a).kind with
    | .csg _ l r => (routeList h x fuel l).map (0 :: ·) ++ (routeList h x fuel r).map (1 :: ·)
    | .group ms => ms.zipIdx.flatMap fun e => (routeList h x fuel e.1).map (e.2 :: ·)
    | _ => []

theorem mem_routeList (h : Heap) (x : ℕ) : ∀ (fuel a : ℕ) (p : List ℕ), p ∈ routeList h x fuel a ↔ Spec.Route h a p x ∧ p.length < fuel := by
  intro fuel
  induction fuel with
  | zero => intro a p; simp [routeList]
  | succ fuel ih =>
    intro a p
    rw [routeList, List.mem_append]
    constructor
    · rintro (hp | hp)
      · split at hp
        · rename_i e
          rw [List.mem_singleton] at hp
          subst hp e
          exact ⟨.here a, by simp⟩
        · cases hp
      · split at hp
        · rename_i op l r hk
          rcases List.mem_append.1 hp with hp | hp
          · obtain ⟨q, hq, rfl⟩ := List.mem_map.1 hp
            obtain ⟨h1, h2⟩ := (ih l q).1 hq
            exact ⟨.left hk h1, by simp only [List.length_cons]; omega⟩
          · obtain ⟨q, hq, rfl⟩ := List.mem_map.1 hp
            obtain ⟨h1, h2⟩ := (ih r q).1 hq
            exact ⟨.right hk h1, by simp only [List.length_cons]; omega⟩
        · rename_i ms hk
          rw [List.mem_flatMap] at hp
          obtain ⟨e, he, hp⟩ := hp
          obtain ⟨q, hq, rfl⟩ := List.mem_map.1 hp
          obtain ⟨h1, h2⟩ := (ih e.1 q).1 hq
          rw [List.mem_zipIdx_iff_getElem?] at he
          exact ⟨.member hk he h1, by simp only [List.length_cons]; omega⟩
        · cases hp
    · rintro ⟨hp, hlen⟩
      cases hp with
      | here => left; simp
      | @member _ b _ i ms p hk hb hp =>
        right
        simp only [List.length_cons] at hlen
        simp only [hk]
        rw [List.mem_flatMap]
        exact ⟨(b, i), List.mem_zipIdx_iff_getElem?.2 hb, List.mem_map.2 ⟨p, (ih b p).2 ⟨hp, by omega⟩, rfl⟩⟩
      | @left _ l r _ op p hk hp =>
        right
        simp only [List.length_cons] at hlen
        simp only [hk]
        exact List.mem_append.2 (Or.inl (List.mem_map.2 ⟨p, (ih l p).2 ⟨hp, by omega⟩, rfl⟩))
      | @right _ l r _ op p hk hp =>
        right
        simp only [List.length_cons] at hlen
        simp only [hk]
        exact List.mem_append.2 (Or.inr (List.mem_map.2 ⟨p, (ih r p).2 ⟨hp, by omega⟩, rfl⟩))

theorem nodup_routeList (h : Heap) (x : ℕ) : ∀ (fuel a : ℕ), (routeList h x fuel a).Nodup := by
  intro fuel
  induction fuel with
  | zero => intro a; simp [routeList]
  | succ fuel ih =>
    intro a
    rw [routeList, List.nodup_append]
    refine ⟨by split <;> simp, ?_, ?_⟩
    · split
      · rename_i op l r hk
        rw [List.nodup_append]
        refine ⟨(ih l).map fun _ _ h => (List.cons.inj h).2, (ih r).map fun _ _ h => (List.cons.inj h).2, ?_⟩
        rintro p hp q hq rfl
        obtain ⟨p', -, rfl⟩ := List.mem_map.1 hp
        obtain ⟨q', -, e⟩ := List.mem_map.1 hq
        have := (List.cons.inj e).1
        omega
      · rename_i ms hk
        rw [List.nodup_flatMap]
        refine ⟨fun e _ => (ih e.1).map fun _ _ h => (List.cons.inj h).2, ?_⟩
        have hnd : (ms.zipIdx.map Prod.snd).Nodup := by
          rw [List.zipIdx_map_snd]
          exact List.nodup_range'
        rw [List.Nodup, List.pairwise_map] at hnd
        refine hnd.imp fun {e e'} hne => ?_
        intro p hp hp'
        obtain ⟨q, -, rfl⟩ := List.mem_map.1 hp
        obtain ⟨q', -, e⟩ := List.mem_map.1 hp'
        exact hne (List.cons.inj e).1.symm
      · exact List.nodup_nil
    · rintro p hp q hq rfl
      split at hp
      · rw [List.mem_singleton] at hp
        subst hp
        split at hq
        · simp at hq
        · rw [List.mem_flatMap] at hq
          obtain ⟨e, -, hq⟩ := hq
          simp at hq
        · cases hq
      · cases hp

theorem length_routeList (h : Heap) (x : ℕ) : ∀ (fuel a : ℕ), (routeList h x fuel a).length = (Spec.visits (fun a => (h.obj a).kind) fuel a).count x := by
  intro fuel
  induction fuel with
  | zero => intro a; simp [routeList, Spec.visits]
  | succ fuel ih =>
    intro a
    rw [routeList, Spec.visits, List.count_cons, List.length_append]
    have h1 : (if a = x then [[]] else [] : List (List ℕ)).length = if (a == x) = true then 1 else 0 := by
      by_cases e : a = x <;> simp [e]
    rw [h1, Nat.add_comm]
    congr 1
    cases hk : (h.obj a).kind with
    | csg op l r => simp [ih]
    | group ms =>
      simp only
      rw [List.length_flatMap, List.count_flatMap]
      congr 1
      have : (ms.zipIdx.map fun e => ((routeList h x fuel e.1).map (e.2 :: ·)).length) = (ms.zipIdx.map Prod.fst).map fun b => (Spec.visits (fun a => (h.obj a).kind) fuel b).count x := by
        rw [List.map_map]
        refine List.map_congr_left fun e _ => ?_
        simp [ih]
      rw [this, List.zipIdx_map_fst]
      rfl
    | prim p => simp
    | plain => simp

/-- **C96.** After any history of constructions, movements and edits of groups: a movement of an object with matrix `m` that does not raise
multiplies the matrix of every object by `m` once for each way in which it is contained in the moved object (not at all for objects not
contained in it). -/
theorem C96_routes (fuel : ℕ) (h h' : Heap) (hr : ReachesL argsort fuel Heap.empty h) (a : ℕ) (ha : a < h.size) (mv : Movement)
    (hrun : callMovement argsort fuel h a mv = (h', none)) :
    ∃ m, mv.matrix = .ok m ∧ ∀ b, {p | Spec.Route h a p b}.Finite ∧
      (h'.obj b).world = m ^ {p | Spec.Route h a p b}.ncard * (h.obj b).world := by
  have hi := reachesL_inv argsort empty_inv hr
  unfold callMovement at hrun
  split at hrun
  · simp at hrun
  · rename_i m hm
    refine ⟨m, hm, fun b => ?_⟩
    obtain ⟨-, hmv⟩ := transform_ok argsort m fuel a hi ha hrun
    have hset : {p | Spec.Route h a p b} = ((routeList h b fuel a).toFinset : Set (List ℕ)) := by
      ext p
      rw [List.coe_toFinset, Set.mem_setOf_eq, Set.mem_setOf_eq, mem_routeList]
      exact ⟨fun hp => ⟨hp, transform_routes argsort m fuel hrun hp⟩, fun hp => hp.1⟩
    rw [hset]
    refine ⟨Finset.finite_toSet _, ?_⟩
    rw [hmv.2 b, Set.ncard_coe_finset, List.toFinset_card_of_nodup (nodup_routeList h b fuel a), length_routeList]

/-- **C96, edits.** Editing a group changes nothing but its list of members, and world and object coordinates stay inverse to each other. -/
theorem C96_edits (fuel : ℕ) (h h' : Heap) (hr : ReachesL argsort fuel Heap.empty h) (g : ℕ) (hg : g < h.size) (e : ListEdit)
    (ha : ∀ m ∈ e.added, m < h.size) (he : editGroup fuel h g e = .ok h') :
    h'.size = h.size ∧ h'.counter = h.counter ∧ (∀ b, b ≠ g → h'.obj b = h.obj b) ∧
    (∃ ms', h'.obj g = { h.obj g with kind := .group ms' }) ∧ ∀ b < h'.size, (h'.obj b).world * (h'.obj b).objT = 1 := by
  have hi' := reachesL_inv argsort empty_inv (.edit g e hr hg ha he)
  obtain ⟨ms, ms', hk, hrun, rfl⟩ := editGroup_frame he
  refine ⟨rfl, rfl, fun b hb => Heap.set_obj_ne _ _ hb, ⟨ms', Heap.set_obj_self _ _ _⟩, fun b hb => ?_⟩
  obtain ⟨hd, ho, -⟩ := hi'.synced b hb
  rw [ho, mul_nonsing_inv _ (isUnit_iff_ne_zero.2 hd)]

/-- an object in a group in a group, and once more in the outer group -/
noncomputable def nested : Heap :=
  (newGroup (newGroup (newPlain Heap.empty) [0]) []).set 2 { (newGroup (newGroup (newPlain Heap.empty) [0]) []).obj 2 with kind := .group [1, 0] }

theorem nested_kinds : (nested.obj 0).kind = .plain ∧ (nested.obj 1).kind = .group [0] ∧ (nested.obj 2).kind = .group [1, 0] ∧ nested.size = 3 ∧
    ∀ b < 3, (nested.obj b).world = 1 := by
  refine ⟨?_, ?_, ?_, rfl, fun b hb => ?_⟩
  · simp [nested, Heap.set_obj, newGroup, newPlain, Heap.alloc, Heap.empty, Function.update]
  · simp [nested, Heap.set_obj, newGroup, newPlain, Heap.alloc, Heap.empty, Function.update]
  · simp [nested, Heap.set_obj, newGroup, newPlain, Heap.alloc, Heap.empty, Function.update]
  · interval_cases b <;> simp [nested, Heap.set_obj, newGroup, newPlain, Heap.alloc, Heap.empty, Function.update]

theorem nested_reaches (fuel : ℕ) : ReachesL argsort fuel Heap.empty nested := by
  refine .edit 2 (.extend [1, 0]) (.cmd (.newGroup []) (.cmd (.newGroup [0]) (.cmd .newPlain (.refl _) trivial rfl) ?_ rfl) ?_ rfl) ?_ ?_ ?_
  · intro m hm
    rw [List.mem_singleton] at hm
    subst hm
    exact Nat.zero_lt_one
  · intro m hm; cases hm
  · show 2 < 3; omega
  · intro m hm
    show m < 3
    simp only [ListEdit.added, List.mem_cons, List.not_mem_nil, or_false] at hm
    omega
  · have hk : ((newGroup (newGroup (newPlain Heap.empty) [0]) []).obj 2).kind = .group [] := by
      simp [newGroup, newPlain, Heap.alloc, Heap.empty]
    unfold editGroup
    rw [hk]
    rfl

/-- non-vacuity of C96: the outer group is moved by 1, the object in it by 2 -/
example : ∃ h', callMovement argsort 3 nested 2 (.move 1 0 0) = (h', none) ∧ {p | Spec.Route nested 2 p 0} = {[0, 0], [1]} ∧
    (h'.obj 0).world = moveMatrix 2 0 0 ∧ (h'.obj 1).world = moveMatrix 1 0 0 := by
  obtain ⟨k0, k1, k2, hs, hw⟩ := nested_kinds
  have hi := reachesL_inv argsort empty_inv (nested_reaches argsort 3)
  obtain ⟨h', e, -⟩ := transform_succeeds argsort (rigid_good (move_rigid 1 0 0)) 3 (h := nested) 2 hi
    (fun b hb => by rw [hw b (by rw [hs] at hb; exact hb)]; exact goodWorld_one) (by omega) (by simp [Spec.fits, k0, k1, k2])
  have e' : callMovement argsort 3 nested 2 (.move 1 0 0) = (h', none) := e
  have hroutes : ∀ b, {p | Spec.Route nested 2 p b} = ((routeList nested b 3 2).toFinset : Set (List ℕ)) := by
    intro b
    ext p
    rw [List.coe_toFinset, Set.mem_setOf_eq, Set.mem_setOf_eq, mem_routeList]
    exact ⟨fun hp => ⟨hp, transform_routes argsort _ 3 e hp⟩, fun hp => hp.1⟩
  have h0 : {p | Spec.Route nested 2 p 0} = {[0, 0], [1]} := by
    rw [hroutes]
    ext p
    simp [routeList, k0, k1, k2]
  have h1 : {p | Spec.Route nested 2 p 1} = {[0]} := by
    rw [hroutes]
    ext p
    simp [routeList, k0, k1, k2]
  obtain ⟨m, hm, hall⟩ := C96_routes argsort 3 nested h' (nested_reaches argsort 3) 2 (by omega) (.move 1 0 0) e'
  cases hm
  refine ⟨h', e', h0, ?_, ?_⟩
  · rw [(hall 0).2, h0, hw 0 (by omega), Set.ncard_pair (by simp), mul_one, pow_two, (C14_laws.1 1 0 0 1 0 0).1]
    norm_num
  · rw [(hall 1).2, h1, hw 1 (by omega), Set.ncard_singleton, mul_one, pow_one]

/-! ### C97 -/

/-- two objects that Python calls equal: the same object, or two groups with equal members in the same order -/
inductive Spec.Same (h : Heap) : ℕ → ℕ → Prop where
  | refl (a : ℕ) : Same h a a
  | groups {a b : ℕ} {ms ms' : List ℕ} : (h.obj a).kind = .group ms → (h.obj b).kind = .group ms' → ms.length = ms'.length →
      (∀ (i : ℕ) (x y : ℕ), ms[i]? = some x → ms'[i]? = some y → Same h x y) → Same h a b

theorem eqList_spec {eq : ℕ → ℕ → Option Bool} : ∀ {ms ms' : List ℕ}, ms.length = ms'.length →
    (eqList eq ms ms' = some true → ∀ (i : ℕ) (x y : ℕ), ms[i]? = some x → ms'[i]? = some y → eq x y = some true) ∧
    (eqList eq ms ms' = some false → ∃ (i : ℕ) (x y : ℕ), ms[i]? = some x ∧ ms'[i]? = some y ∧ eq x y = some false) := by
  intro ms
  induction ms with
  | nil => intro ms' _; simp [eqList]
  | cons a as ih =>
    intro ms' hl
    cases ms' with
    | nil => simp at hl
    | cons b bs =>
      obtain ⟨h1, h2⟩ := ih (ms' := bs) (by simpa using hl)
      rw [eqList]
      cases he : eq a b with
      | none => simp
      | some v =>
        cases v with
        | true =>
          refine ⟨fun h i x y hx hy => ?_, fun h => ?_⟩
          · cases i with
            | zero => simp at hx hy; rw [← hx, ← hy]; exact he
            | succ i => exact h1 h i x y (by simpa using hx) (by simpa using hy)
          · obtain ⟨i, x, y, hx, hy, e⟩ := h2 h
            exact ⟨i + 1, x, y, by simpa using hx, by simpa using hy, e⟩
        | false => exact ⟨fun h => by simp at h, fun _ => ⟨0, a, b, rfl, rfl, he⟩⟩

theorem eqObj_spec (h : Heap) : ∀ (fuel a b : ℕ), (eqObj fuel h a b = some true → Spec.Same h a b) ∧ (eqObj fuel h a b = some false → ¬ Spec.Same h a b) := by
  intro fuel
  induction fuel with
  | zero =>
    intro a b
    unfold eqObj
    split
    · rename_i e; subst e; exact ⟨fun _ => .refl a, fun h => by simp at h⟩
    · simp
  | succ fuel ih =>
    intro a b
    unfold eqObj
    split
    · rename_i e; subst e; exact ⟨fun _ => .refl a, fun h => by simp at h⟩
    · rename_i hne
      split
      · rename_i ms ms' hk hk'
        split
        · rename_i hl
          obtain ⟨h1, h2⟩ := eqList_spec (eq := eqObj fuel h) hl
          refine ⟨fun he => .groups hk hk' hl fun i x y hx hy => (ih x y).1 (h1 he i x y hx hy), fun he hs => ?_⟩
          obtain ⟨i, x, y, hx, hy, e⟩ := h2 he
          cases hs with
          | refl => exact hne rfl
          | groups q q' _ hall =>
            rw [hk] at q; rw [hk'] at q'
            cases q; cases q'
            exact (ih x y).2 e (hall i x y hx hy)
        · rename_i hl
          refine ⟨fun h => by simp at h, fun _ hs => ?_⟩
          cases hs with
          | refl => exact hne rfl
          | groups q q' hl' _ =>
            rw [hk] at q; rw [hk'] at q'
            cases q; cases q'
            exact hl hl'
      · rename_i hno
        refine ⟨fun h => by simp at h, fun _ hs => ?_⟩
        cases hs with
        | refl => exact hne rfl
        | groups q q' _ _ => exact hno _ _ q q'

theorem removeFirst_spec {eq : ℕ → Option Bool} : ∀ {ms : List ℕ},
    (∀ ms', removeFirst eq ms = .ok ms' → ∃ pre x post, ms = pre ++ x :: post ∧ ms' = pre ++ post ∧ eq x = some true ∧ ∀ y ∈ pre, eq y = some false) ∧
    (removeFirst eq ms = .error .value → ∀ y ∈ ms, eq y = some false) := by
  intro ms
  induction ms with
  | nil => exact ⟨fun ms' h => (by cases h), fun _ y hy => (by cases hy)⟩
  | cons a as ih =>
    unfold removeFirst
    cases he : eq a with
    | none => exact ⟨fun ms' h => (by cases h), fun h => (by cases h)⟩
    | some v =>
      cases v with
      | true => exact ⟨fun ms' h => (by cases h; exact ⟨[], a, as, rfl, rfl, he, fun y hy => (by cases hy)⟩), fun h => (by cases h)⟩
      | false =>
        simp only
        cases hr : removeFirst eq as with
        | error x =>
          refine ⟨fun ms' h => (by cases h), fun h y hy => ?_⟩
          cases h
          rcases List.mem_cons.1 hy with rfl | hy
          · exact he
          · exact ih.2 hr y hy
        | ok bs =>
          refine ⟨fun ms' h => ?_, fun h => (by cases h)⟩
          cases h
          obtain ⟨pre, x, post, e1, e2, e3, e4⟩ := ih.1 bs hr
          refine ⟨a :: pre, x, post, by rw [e1]; rfl, by rw [e2]; rfl, e3, fun y hy => ?_⟩
          rcases List.mem_cons.1 hy with rfl | hy
          · exact he
          · exact e4 y hy

/-- **C97, exactly.** `remove(m)` takes the first member out that Python calls equal to `m`, and raises `ValueError` only if there is none. -/
theorem C97_remove_exact (fuel : ℕ) (h h' : Heap) (g m : ℕ) {ms : List ℕ} (hk : (h.obj g).kind = .group ms) :
    (editGroup fuel h g (.remove m) = .ok h' → ∃ pre x post, ms = pre ++ x :: post ∧ (h'.obj g).kind = .group (pre ++ post) ∧ Spec.Same h x m ∧
      ∀ y ∈ pre, ¬ Spec.Same h y m) ∧
    (editGroup fuel h g (.remove m) = .error .value → ∀ y ∈ ms, ¬ Spec.Same h y m) := by
  unfold editGroup
  simp only [hk, ListEdit.run]
  obtain ⟨h1, h2⟩ := removeFirst_spec (eq := fun a => eqObj fuel h a m) (ms := ms)
  cases hr : removeFirst (fun a => eqObj fuel h a m) ms with
  | error x =>
    refine ⟨fun h => (by cases h), fun he y hy => ?_⟩
    cases he
    exact (eqObj_spec h fuel y m).2 (h2 hr y hy)
  | ok ms' =>
    refine ⟨fun he => ?_, fun h => (by cases h)⟩
    cases he
    obtain ⟨pre, x, post, e1, e2, e3, e4⟩ := h1 ms' hr
    refine ⟨pre, x, post, e1, by rw [Heap.set_obj_self, e2], (eqObj_spec h fuel x m).1 e3, fun y hy => (eqObj_spec h fuel y m).2 (e4 y hy)⟩

/-- **C97 for objects that are not groups.** `remove(m)` takes the first occurrence of the object `m` itself out of the group and leaves the other
members in their order; if `m` is not a member it raises `ValueError`. Missing from C97: groups (`C97_remove_false`). -/
theorem C97_remove_partial (fuel : ℕ) (h : Heap) (g m : ℕ) {ms : List ℕ} (hk : (h.obj g).kind = .group ms) (hm : ∀ xs, (h.obj m).kind ≠ .group xs) :
    (∀ pre post, ms = pre ++ m :: post → m ∉ pre → ∃ h', editGroup (fuel + 1) h g (.remove m) = .ok h' ∧ (h'.obj g).kind = .group (pre ++ post)) ∧
    (m ∉ ms → editGroup (fuel + 1) h g (.remove m) = .error .value) := by
  have heq : ∀ a, eqObj (fuel + 1) h a m = some (decide (a = m)) := by
    intro a
    unfold eqObj
    by_cases e : a = m
    · simp [e]
    · rw [if_neg e]
      split
      · rename_i q; exact absurd q (hm _)
      · simp [e]
  have hrun : ∀ ms : List ℕ, (∀ pre post, ms = pre ++ m :: post → m ∉ pre → removeFirst (fun a => eqObj (fuel + 1) h a m) ms = .ok (pre ++ post)) ∧
      (m ∉ ms → removeFirst (fun a => eqObj (fuel + 1) h a m) ms = .error .value) := by
    intro ms
    induction ms with
    | nil => exact ⟨fun pre post e => by simp at e, fun _ => rfl⟩
    | cons a as ih =>
      constructor
      · intro pre post e hn
        cases pre with
        | nil =>
          simp only [List.nil_append, List.cons.injEq] at e
          obtain ⟨rfl, rfl⟩ := e
          simp [removeFirst, heq]
        | cons b bs =>
          simp only [List.cons_append, List.cons.injEq] at e
          obtain ⟨rfl, rfl⟩ := e
          simp only [List.mem_cons, not_or] at hn
          have hne : a ≠ m := fun e => hn.1 e.symm
          rw [removeFirst, heq]
          simp only [hne, decide_false]
          rw [ih.1 bs post rfl hn.2]
          rfl
      · intro hn
        simp only [List.mem_cons, not_or] at hn
        have hne : a ≠ m := fun e => hn.1 e.symm
        rw [removeFirst, heq]
        simp only [hne, decide_false]
        rw [ih.2 hn.2]
        rfl
  unfold editGroup
  simp only [hk, ListEdit.run]
  constructor
  · intro pre post e hn
    rw [(hrun ms).1 pre post e hn]
    exact ⟨_, rfl, by rw [Heap.set_obj_self]⟩
  · intro hn
    rw [(hrun ms).2 hn]
    rfl

/-- **C97 is false for groups.** A group of two empty groups: `remove` of the second takes the first out. -/
theorem C97_remove_false : ∃ h h' : Heap, (∀ fuel, ReachesL argsort fuel Heap.empty h) ∧ (h.obj 2).kind = .group [0, 1] ∧
    (∀ fuel, editGroup (fuel + 1) h 2 (.remove 1) = .ok h') ∧ (h'.obj 2).kind = .group [1] := by
  set h : Heap := newGroup (newGroup (newGroup Heap.empty []) []) [0, 1] with hh
  have k0 : (h.obj 0).kind = .group [] := by simp [hh, newGroup, Heap.alloc, Heap.empty, Function.update]
  have k1 : (h.obj 1).kind = .group [] := by simp [hh, newGroup, Heap.alloc, Heap.empty, Function.update]
  have k2 : (h.obj 2).kind = .group [0, 1] := by simp [hh, newGroup, Heap.alloc, Heap.empty]
  refine ⟨h, h.set 2 { h.obj 2 with kind := .group [1] }, fun fuel => ?_, k2, fun fuel => ?_, by rw [Heap.set_obj_self]⟩
  · refine .cmd (.newGroup [0, 1]) (.cmd (.newGroup []) (.cmd (.newGroup []) (.refl _) ?_ rfl) ?_ rfl) ?_ rfl
    · intro m hm; cases hm
    · intro m hm; cases hm
    · intro m hm
      show m < 2
      simp only [List.mem_cons, List.not_mem_nil, or_false] at hm
      omega
  · unfold editGroup
    simp only [k2, ListEdit.run]
    simp [removeFirst, eqObj, k0, k1, eqList, Except.map]

theorem position_front {n i : ℕ} (hi : i < n) : position n i = some i := by
  have hj : (if (i : ℤ) < 0 then (i : ℤ) + n else i) = i := if_neg (by omega)
  simp only [position, hj]
  rw [if_pos (by omega), Int.toNat_natCast]

theorem position_back {n i : ℕ} {j : ℤ} (hi : i < n) (hj : j = i - n) : position n j = some i := by
  have hj' : (if j < 0 then j + n else j) = i := by rw [if_pos (by omega)]; omega
  simp only [position, hj']
  rw [if_pos (by omega), Int.toNat_natCast]

/-- **C97, list laws.** Appending or inserting and taking out again (`pop`, `del`), and reversing twice, give the list back; positions count from the
front or, if negative, from the end. -/
theorem C97_laws (fuel : ℕ) (h : Heap) (ms : List ℕ) (m : ℕ) :
    ((ListEdit.append m).run fuel h ms = .ok (ms ++ [m]) ∧ (ListEdit.pop (-1)).run fuel h (ms ++ [m]) = .ok ms) ∧
    (∀ i : ℕ, i ≤ ms.length → ∃ ms', (ListEdit.insert i m).run fuel h ms = .ok ms' ∧ ms'[i]? = some m ∧ (ListEdit.pop i).run fuel h ms' = .ok ms ∧
      (ListEdit.pop (-(ms.length + 1 - i : ℤ))).run fuel h ms' = .ok ms) ∧
    (∃ ms', ListEdit.reverse.run fuel h ms = .ok ms' ∧ ListEdit.reverse.run fuel h ms' = .ok ms) ∧
    (∀ i : ℤ, (i < -ms.length ∨ ms.length ≤ i) → (ListEdit.pop i).run fuel h ms = .error .index ∧ (ListEdit.setItem i m).run fuel h ms = .error .index) := by
  refine ⟨⟨rfl, ?_⟩, fun i hi => ?_, ⟨ms.reverse, rfl, by simp [ListEdit.run]⟩, fun i hi => ?_⟩
  · have hp : position (ms ++ [m]).length (-1) = some ms.length :=
      position_back (by simp) (by simp only [List.length_append, List.length_singleton]; push_cast; omega)
    simp only [ListEdit.run, hp]
    rw [List.eraseIdx_append_of_length_le (le_refl _)]
    simp
  · have hp : insertPosition ms.length i = i := by
      simp only [insertPosition]
      rw [if_neg (by omega)]
      omega
    have hl : (ms.insertIdx i m).length = ms.length + 1 := List.length_insertIdx_of_le_length hi m
    have q1 : position (ms.length + 1) i = some i := position_front (by omega)
    have q2 : position (ms.length + 1) (-(ms.length + 1 - i : ℤ)) = some i := position_back (by omega) (by push_cast; omega)
    refine ⟨ms.insertIdx i m, by simp only [ListEdit.run, hp], by rw [List.getElem?_insertIdx_self]; simp [hi], ?_, ?_⟩
    · simp only [ListEdit.run, hl, q1, List.eraseIdx_insertIdx_self]
    · simp only [ListEdit.run, hl, q2, List.eraseIdx_insertIdx_self]
  · have hp : position ms.length i = none := by
      simp only [position]
      rw [if_neg]
      split <;> omega
    simp only [ListEdit.run, hp, and_self]

theorem insertIdx_middle (pre post : List ℕ) (m : ℕ) : (pre ++ post).insertIdx pre.length m = pre ++ m :: post := by
  induction pre with
  | nil => simp
  | cons a as ih => simp only [List.cons_append, List.length_cons, List.insertIdx_succ_cons, ih]

/-- **C97, what the other operations put where.** `append`, `extend` and `+=` add at the end, `clear` empties, `insert` at a negative index counts from
the end and is moved into range, assignment to an item replaces the item at that place, `*= n` gives `n` copies one after the other. -/
theorem C97_places (fuel : ℕ) (h : Heap) (ms : List ℕ) (m : ℕ) :
    (∀ ms', (ListEdit.extend ms').run fuel h ms = .ok (ms ++ ms')) ∧ ListEdit.clear.run fuel h ms = .ok [] ∧
    (∀ pre post, ms = pre ++ post → ∀ i : ℤ, (i = pre.length ∨ (i < 0 ∧ i = -post.length) ∨ (post = [] ∧ (ms.length : ℤ) ≤ i) ∨ (pre = [] ∧ i < -ms.length)) →
      (ListEdit.insert i m).run fuel h ms = .ok (pre ++ m :: post)) ∧
    (∀ pre x post, ms = pre ++ x :: post → ∀ i : ℤ, (i = pre.length ∨ i = -(post.length + 1 : ℤ)) →
      (ListEdit.setItem i m).run fuel h ms = .ok (pre ++ m :: post) ∧ (ListEdit.pop i).run fuel h ms = .ok (pre ++ post)) ∧
    (∀ n : ℤ, n ≤ 0 → (ListEdit.imul n).run fuel h ms = .ok []) ∧
    (∀ n : ℤ, 0 ≤ n → ∃ xs, (ListEdit.imul n).run fuel h ms = .ok xs ∧ (ListEdit.imul (n + 1)).run fuel h ms = .ok (ms ++ xs)) := by
  refine ⟨fun _ => rfl, rfl, fun pre post e i hi => ?_, fun pre x post e i hi => ?_, fun n hn => ?_, fun n hn => ?_⟩
  · have hl : ms.length = pre.length + post.length := by rw [e, List.length_append]
    have hp : insertPosition ms.length i = pre.length := by
      unfold insertPosition
      rcases hi with rfl | ⟨h0, h1⟩ | ⟨h0, h1⟩ | ⟨h0, h1⟩
      · rw [if_neg (by omega)]; omega
      · rw [if_pos h0]; omega
      · subst h0
        simp only [List.length_nil] at hl
        rw [if_neg (by omega)]; omega
      · subst h0
        simp only [List.length_nil] at hl ⊢
        rw [if_pos (by omega)]; omega
    simp only [ListEdit.run, hp]
    rw [e, insertIdx_middle]
  · have hl : ms.length = pre.length + (post.length + 1) := by rw [e, List.length_append, List.length_cons]
    have hp : position ms.length i = some pre.length := by
      rcases hi with rfl | hi
      · exact position_front (by omega)
      · exact position_back (by omega) (by omega)
    simp only [ListEdit.run, hp]
    rw [e, List.set_append_right _ _ (le_refl _), List.eraseIdx_append_of_length_le (le_refl _)]
    simp
  · have : n.toNat = 0 := by omega
    simp [ListEdit.run, this]
  · have : (n + 1).toNat = n.toNat + 1 := by omega
    refine ⟨_, rfl, ?_⟩
    simp [ListEdit.run, this, List.replicate_succ]

/-- non-vacuity of C97: the object is in the list twice, the first occurrence goes -/
example : ∃ h : Heap, (h.obj 1).kind = .group [0, 2, 0] ∧ (∀ xs, (h.obj 0).kind ≠ .group xs) ∧
    ∃ h', editGroup 1 h 1 (.remove 0) = .ok h' ∧ (h'.obj 1).kind = .group [2, 0] := by
  refine ⟨newGroup (newPlain Heap.empty) [0, 2, 0], ?_, ?_, ?_⟩
  · simp [newGroup, newPlain, Heap.alloc, Heap.empty]
  · simp [newGroup, newPlain, Heap.alloc, Heap.empty, Function.update]
  · exact (C97_remove_partial 0 _ 1 0 (ms := [0, 2, 0]) (by simp [newGroup, newPlain, Heap.alloc, Heap.empty])
      (by simp [newGroup, newPlain, Heap.alloc, Heap.empty, Function.update])).1 [] [2, 0] rfl (by simp)

end PyRayT
