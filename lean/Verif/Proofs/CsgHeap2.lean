import Verif.Proofs.CsgHeap

/-! Tidy histories, and the normal scales of the leaves. -/

namespace PyRayT

open Classical Matrix

variable (argsort : List EReal → List ℕ)

/-! ### histories -/

theorem alloc_isParent {h : Heap} (k : Kind) (bx : Box) (ex : List Handler) (hk : ∀ op l r, k ≠ .csg op l r) (p a : ℕ)
    (hp : p < h.size + 1) : IsParent (h.alloc k bx ex) p a ↔ p < h.size ∧ IsParent h p a := by
  rcases Nat.lt_succ_iff_lt_or_eq.1 hp with hp' | hp'
  · unfold IsParent; rw [alloc_obj_lt _ _ _ _ hp']; simp [hp']
  · subst hp'
    unfold IsParent; rw [alloc_obj_self]
    constructor
    · rintro ⟨op, l, r, e, -⟩; exact absurd e (hk op l r)
    · intro hh; exact absurd hh.1 (lt_irrefl _)

theorem alloc_tidy {h : Heap} (hi : Struct h) (k : Kind) (bx : Box) (ex : List Handler) (hk : ∀ op l r, k ≠ .csg op l r)
    (ht : Tidy h) : Tidy (h.alloc k bx ex) where
  unique p q a hp hq h1 h2 := by
    rw [alloc_isParent k bx ex hk _ _ hp] at h1
    rw [alloc_isParent k bx ex hk _ _ hq] at h2
    exact ht.unique p q a h1.1 h2.1 h1.2 h2.2
  distinct p hp op l r e := by
    have hp' := ((alloc_isParent k bx ex hk p l hp).1 ⟨op, l, r, e, Or.inl rfl⟩).1
    rw [alloc_obj_lt _ _ _ _ hp'] at e
    exact ht.distinct p hp' op l r e
  shape p hp op l r e := by
    have hp' := ((alloc_isParent k bx ex hk p l hp).1 ⟨op, l, r, e, Or.inl rfl⟩).1
    rw [alloc_obj_lt _ _ _ _ hp'] at e
    have := (hi.children p r hp' ⟨op, l, r, e, Or.inr rfl⟩).1
    rw [alloc_obj_lt _ _ _ _ (by omega)]
    exact ht.shape p hp' op l r e

theorem alloc_allFresh {h : Heap} (hi : Struct h) (k : Kind) (bx : Box) (ex : List Handler) (hk : ∀ op l r, k ≠ .csg op l r)
    (hf : AllFresh argsort h) : AllFresh argsort (h.alloc k bx ex) := by
  intro p hp op l r e
  have hp' := ((alloc_isParent k bx ex hk p l hp).1 ⟨op, l, r, e, Or.inl rfl⟩).1
  rw [alloc_obj_lt _ _ _ _ hp'] at e
  have c1 := (hi.children p l hp' ⟨op, l, r, e, Or.inl rfl⟩).1
  have c2 := (hi.children p r hp' ⟨op, l, r, e, Or.inr rfl⟩).1
  rw [alloc_obj_lt _ _ _ _ hp', alloc_obj_lt _ _ _ _ (by omega), alloc_obj_lt _ _ _ _ (by omega)]
  exact hf p hp' op l r e

/-- appending to a group changes only group kinds -/
theorem groupAppend_obj (h : Heap) (g m x : ℕ) : ((groupAppend h g m).obj x).aobb = (h.obj x).aobb ∧
    ((groupAppend h g m).obj x).nscale = (h.obj x).nscale ∧
    (((groupAppend h g m).obj x).kind = (h.obj x).kind ∨
      (∃ ms, (h.obj x).kind = .group ms) ∧ ∃ ms, ((groupAppend h g m).obj x).kind = .group ms) := by
  unfold groupAppend
  split
  · rename_i ms hk
    rw [Heap.set_obj]
    split
    · rename_i e; subst e; exact ⟨rfl, rfl, Or.inr ⟨⟨_, hk⟩, _, rfl⟩⟩
    · exact ⟨rfl, rfl, Or.inl rfl⟩
  · exact ⟨rfl, rfl, Or.inl rfl⟩

theorem groupAppend_csg (h : Heap) (g m x : ℕ) (op : Operation) (l r : ℕ) :
    ((groupAppend h g m).obj x).kind = .csg op l r ↔ (h.obj x).kind = .csg op l r := by
  rcases (groupAppend_obj h g m x).2.2 with e | ⟨⟨ms, e1⟩, ms', e2⟩
  · rw [e]
  · rw [e1, e2]; simp

theorem groupAppend_prim (h : Heap) (g m x : ℕ) (q : Prim) :
    ((groupAppend h g m).obj x).kind = .prim q ↔ (h.obj x).kind = .prim q := by
  rcases (groupAppend_obj h g m x).2.2 with e | ⟨⟨ms, e1⟩, ms', e2⟩
  · rw [e]
  · rw [e1, e2]; simp

theorem groupAppend_size (h : Heap) (g m : ℕ) : (groupAppend h g m).size = h.size := by
  unfold groupAppend; split <;> rfl

theorem groupAppend_isParent (h : Heap) (g m p a : ℕ) : IsParent (groupAppend h g m) p a ↔ IsParent h p a := by
  unfold IsParent; simp only [groupAppend_csg]

theorem TidyReaches.reaches {fuel : ℕ} {h h' : Heap} (ht : TidyReaches argsort fuel h h') : Reaches argsort fuel h h' := by
  induction ht with
  | refl => exact .refl _
  | step c _ hv _ he ih => exact .step c ih hv he

theorem newCsg_isParent {h : Heap} (op : Operation) (l r p a : ℕ) (hp : p < h.size + 1) :
    IsParent (newCsg argsort h op l r) p a ↔ (p < h.size ∧ IsParent h p a) ∨ (p = h.size ∧ (a = l ∨ a = r)) := by
  rcases Nat.lt_succ_iff_lt_or_eq.1 hp with hp' | hp'
  · unfold IsParent; rw [newCsg_kind_lt argsort h op l r hp']; simp [hp', hp'.ne]
  · subst hp'
    unfold IsParent; rw [newCsg_kind_self]
    simp only [lt_self_iff_false, false_and, false_or, true_and, Kind.csg.injEq]
    constructor
    · rintro ⟨op', l', r', ⟨-, rfl, rfl⟩, h3⟩; exact h3
    · intro h3; exact ⟨op, l, r, ⟨rfl, rfl, rfl⟩, h3⟩

theorem exec_tidy {fuel : ℕ} {h h' : Heap} (hi : Inv h) (ht : Tidy h) (hf : AllFresh argsort h) (c : Cmd) (hv : c.valid h)
    (hc : TidyCmd fuel h c) (hr : exec argsort fuel h c = (h', none)) : Tidy h' ∧ AllFresh argsort h' := by
  cases c with
  | newPrim p =>
    simp only [exec, Prod.mk.injEq, and_true] at hr; rw [← hr]
    exact ⟨alloc_tidy hi.toStruct _ _ _ (by intro op l r e; cases e) ht,
      alloc_allFresh argsort hi.toStruct _ _ _ (by intro op l r e; cases e) hf⟩
  | newPlain =>
    simp only [exec, Prod.mk.injEq, and_true] at hr; rw [← hr]
    exact ⟨alloc_tidy hi.toStruct _ _ _ (by intro op l r e; cases e) ht,
      alloc_allFresh argsort hi.toStruct _ _ _ (by intro op l r e; cases e) hf⟩
  | newGroup ms =>
    simp only [exec, Prod.mk.injEq, and_true] at hr; rw [← hr]
    exact ⟨alloc_tidy hi.toStruct _ _ _ (by intro op l r e; cases e) ht,
      alloc_allFresh argsort hi.toStruct _ _ _ (by intro op l r e; cases e) hf⟩
  | append g m =>
    simp only [exec, Prod.mk.injEq, and_true] at hr; rw [← hr]
    refine ⟨⟨fun p q a => ?_, fun p => ?_, fun p hp op l r => ?_⟩, fun p hp op l r e => ?_⟩
    · rw [groupAppend_size, groupAppend_isParent, groupAppend_isParent]; exact ht.unique p q a
    · rw [groupAppend_size]; simp only [groupAppend_csg]; exact ht.distinct p
    · rw [groupAppend_size] at hp; simp only [groupAppend_csg, groupAppend_prim]; exact ht.shape p hp op l r
    · rw [groupAppend_size] at hp
      rw [groupAppend_csg] at e
      rw [(groupAppend_obj h g m p).1, (groupAppend_obj h g m l).1, (groupAppend_obj h g m r).1]
      exact hf p hp op l r e
  | newCsg op l r =>
    simp only [exec, Prod.mk.injEq, and_true] at hr; rw [← hr]
    obtain ⟨t1, t2, hne, hsh⟩ := hc
    refine ⟨⟨fun p q a hp hq h1 h2 => ?_, fun p hp op' l' r' e => ?_, fun p hp op' l' r' e => ?_⟩,
      fun p hp op' l' r' e => ?_⟩
    · rw [newCsg_size] at hp hq
      rw [newCsg_isParent argsort op l r p a hp] at h1
      rw [newCsg_isParent argsort op l r q a hq] at h2
      rcases h1 with ⟨p1, p2⟩ | ⟨rfl, p2⟩ <;> rcases h2 with ⟨q1, q2⟩ | ⟨rfl, q2⟩
      · exact ht.unique p q a p1 q1 p2 q2
      · rcases q2 with rfl | rfl
        · exact absurd p2 (t1 p p1)
        · exact absurd p2 (t2 p p1)
      · rcases p2 with rfl | rfl
        · exact absurd q2 (t1 q q1)
        · exact absurd q2 (t2 q q1)
      · rfl
    · rw [newCsg_size] at hp
      rcases Nat.lt_succ_iff_lt_or_eq.1 hp with hp' | hp'
      · rw [newCsg_kind_lt argsort h op l r hp'] at e; exact ht.distinct p hp' op' l' r' e
      · subst hp'; rw [newCsg_kind_self] at e; cases e; exact hne
    · rw [newCsg_size] at hp
      rcases Nat.lt_succ_iff_lt_or_eq.1 hp with hp' | hp'
      · rw [newCsg_kind_lt argsort h op l r hp'] at e
        have := (hi.children p r' hp' ⟨op', l', r', e, Or.inr rfl⟩).1
        rw [newCsg_kind_lt argsort h op l r (by omega)]
        exact ht.shape p hp' op' l' r' e
      · subst hp'; rw [newCsg_kind_self] at e; cases e
        rw [newCsg_kind_lt argsort h op l r hv.2.1]; exact hsh
    · rw [newCsg_size] at hp
      rcases Nat.lt_succ_iff_lt_or_eq.1 hp with hp' | hp'
      · rw [newCsg_kind_lt argsort h op l r hp'] at e
        have c1 := (hi.children p l' hp' ⟨op', l', r', e, Or.inl rfl⟩).1
        have c2 := (hi.children p r' hp' ⟨op', l', r', e, Or.inr rfl⟩).1
        rw [newCsg_aobb_lt argsort h op l r hp', newCsg_aobb_lt argsort h op l r (by omega),
          newCsg_aobb_lt argsort h op l r (by omega)]
        exact hf p hp' op' l' r' e
      · subst hp'; exact newCsg_fresh argsort h op l r hv.1 hv.2.1 op' l' r' e
  | movement a mv =>
    obtain ⟨m, -, hr⟩ := callMovement_ok argsort hr
    have hst := transform_static argsort m fuel h a
    rw [hr] at hst
    exact ⟨hst.tidy ht, transform_allFresh argsort m fuel a hi ht hv hc hf hr⟩

theorem tidyReaches_tidy {fuel : ℕ} {h h' : Heap} (hi : Inv h) (ht : Tidy h) (hf : AllFresh argsort h)
    (hr : TidyReaches argsort fuel h h') : Tidy h' ∧ AllFresh argsort h' := by
  induction hr with
  | refl => exact ⟨ht, hf⟩
  | step c hr1 hv hc he ih =>
    exact exec_tidy argsort (reaches_inv argsort hi (TidyReaches.reaches argsort hr1)) ih.1 ih.2 c hv hc he

theorem empty_tidy : Tidy Heap.empty ∧ AllFresh argsort Heap.empty := by
  refine ⟨⟨?_, ?_, ?_⟩, ?_⟩
  · intro p q a hp; simp [Heap.empty] at hp
  · intro p hp; simp [Heap.empty] at hp
  · intro p hp; simp [Heap.empty] at hp
  · intro p hp; simp [Heap.empty] at hp

/-- a fresh box is the box of a composite built now from the same operands -/
theorem fresh_rebuilt {h : Heap} (hi : Struct h) {p l r : ℕ} {op : Operation} (hp : p < h.size)
    (hk : (h.obj p).kind = .csg op l r) :
    Fresh argsort h p ↔ (h.obj p).aobb = ((newCsg argsort h op l r).obj h.size).aobb := by
  have c1 := (hi.children p l hp ⟨op, l, r, hk, Or.inl rfl⟩).1
  have c2 := (hi.children p r hp ⟨op, l, r, hk, Or.inr rfl⟩).1
  have e := newCsg_fresh argsort h op l r (by omega) (by omega) op l r (newCsg_kind_self argsort h op l r)
  rw [newCsg_aobb_lt argsort h op l r (a := l) (by omega), newCsg_aobb_lt argsort h op l r (a := r) (by omega)] at e
  rw [e]
  constructor
  · intro hf; exact hf op l r hk
  · intro hf op' l' r' hk'
    rw [hk] at hk'; cases hk'; exact hf

/-! ### normal scales -/

/-- some composite subtracts an object that contains `x` -/
def Subtracted (h : Heap) (x : ℕ) : Prop :=
  ∃ d l r, d < h.size ∧ (h.obj d).kind = .csg .difference l r ∧ Under h r x

/-- the normals of the surfaces below subtracted objects are inverted, of the others not -/
def Normals (h : Heap) : Prop :=
  ∀ x < h.size, ∀ q, (h.obj x).kind = .prim q → (h.obj x).nscale = if Subtracted h x then -1 else 1

theorem Static.subtracted {h h' : Heap} (hs : Static h h') (x : ℕ) : Subtracted h' x ↔ Subtracted h x := by
  unfold Subtracted; rw [hs.1]; simp only [(hs.2.2 _).1, hs.under]

theorem Static.normals {h h' : Heap} (hs : Static h h') (hn : Normals h) : Normals h' := by
  intro x hx q hq
  rw [hs.1] at hx
  rw [(hs.2.2 x).1] at hq
  rw [(hs.2.2 x).2.2.1, hn x hx q hq]
  by_cases hS : Subtracted h x
  · rw [if_pos hS, if_pos ((hs.subtracted x).2 hS)]
  · rw [if_neg hS, if_neg (fun e => hS ((hs.subtracted x).1 e))]

/-- descendants do not change when unrelated objects are added -/
theorem under_congr {h h' : Heap} {a x : ℕ} (hle : ∀ p y, Under h a p → (IsParent h p y ↔ IsParent h' p y)) :
    Under h a x ↔ Under h' a x := by
  constructor
  · intro hu
    induction hu with
    | refl => exact .refl
    | step hp1 hp ih => exact .step ih ((hle _ _ hp1).1 hp)
  · intro hu
    induction hu with
    | refl => exact .refl
    | step _ hp ih => exact .step ih ((hle _ _ ih).2 hp)

theorem alloc_normals {h : Heap} (hi : Struct h) (k : Kind) (bx : Box) (ex : List Handler) (hk : ∀ op l r, k ≠ .csg op l r)
    (hn : Normals h) : Normals (h.alloc k bx ex) := by
  have sub : ∀ x, Subtracted (h.alloc k bx ex) x ↔ Subtracted h x := by
    have und : ∀ r x, r < h.size → (Under h r x ↔ Under (h.alloc k bx ex) r x) := fun r x hr =>
      under_congr fun p y hp => by
        have := hp.le hi hr
        rw [alloc_isParent k bx ex hk p y (by omega)]
        simp [show p < h.size by omega]
    intro x
    constructor
    · rintro ⟨d, l, r, hd, hkd, hu⟩
      have hd' := ((alloc_isParent k bx ex hk d l hd).1 ⟨_, l, r, hkd, Or.inl rfl⟩).1
      rw [alloc_obj_lt _ _ _ _ hd'] at hkd
      have cr := (hi.children d r hd' ⟨_, l, r, hkd, Or.inr rfl⟩).1
      exact ⟨d, l, r, hd', hkd, (und r x (by omega)).2 hu⟩
    · rintro ⟨d, l, r, hd, hkd, hu⟩
      have cr := (hi.children d r hd ⟨_, l, r, hkd, Or.inr rfl⟩).1
      exact ⟨d, l, r, Nat.lt_succ_of_lt hd, by rw [alloc_obj_lt _ _ _ _ hd]; exact hkd, (und r x (by omega)).1 hu⟩
  intro x hx q hq
  have hx' : x < h.size + 1 := hx
  rcases Nat.lt_succ_iff_lt_or_eq.1 hx' with hx' | hx'
  · rw [alloc_obj_lt _ _ _ _ hx'] at hq ⊢
    rw [hn x hx' q hq]
    by_cases hS : Subtracted h x
    · rw [if_pos hS, if_pos ((sub x).2 hS)]
    · rw [if_neg hS, if_neg (fun e => hS ((sub x).1 e))]
  · subst hx'
    rw [alloc_obj_self, if_neg]
    rw [sub]
    rintro ⟨d, l, r, hd, hkd, hu⟩
    have cr := (hi.children d r hd ⟨_, l, r, hkd, Or.inr rfl⟩).1
    have := hu.le hi (by omega)
    omega

theorem newCsg_nscale (h : Heap) (hi : Struct h) (op : Operation) (l r : ℕ) (hl : l < h.size) (hr : r < h.size)
    (hir : (h.obj r).kind.intersectable) {x : ℕ} {q : Prim} (hx : x < h.size) (hq : (h.obj x).kind = .prim q) :
    ((newCsg argsort h op l r).obj x).nscale =
      if op = .difference ∧ Under h r x then -1 else (h.obj x).nscale := by
  unfold newCsg
  simp only
  set g := attachTo (attachTo (h.alloc (.csg op l r) (fun _ => (0, 0)) [.box h.size]) l h.size) r h.size with hg
  rw [((runHandler_core argsort _ _).2.2 x).2.2.2.1]
  have e1 : (g.obj x).nscale = (h.obj x).nscale := by
    rw [hg, attachTo_same, attachTo_same, alloc_obj_lt _ _ _ _ hx]
  have ek : ∀ y < h.size, (g.obj y).kind = (h.obj y).kind := fun y hy => by
    rw [hg, attachTo_same, attachTo_same, alloc_obj_lt _ _ _ _ hy]
  have ekr : (g.obj h.size).kind = .csg op l r := by
    rw [hg, attachTo_same, attachTo_same, alloc_obj_self]
  have gs : g.size = h.size + 1 := by rw [hg]; rfl
  -- the part of the invariant `invertNormals_nscale` needs
  have key : ∀ (fuel : ℕ) (g : Heap), (∀ y < h.size, (g.obj y).kind = (h.obj y).kind) → ∀ a, a < fuel → a < h.size →
      (h.obj a).kind.intersectable →
      ((invertNormals fuel g a).obj x).nscale = if Under h a x then -1 else (g.obj x).nscale := by
    intro fuel
    induction fuel with
    | zero => intro g _ a ha; omega
    | succ fuel ih =>
      intro g ek a hfa ha hint
      unfold invertNormals
      rw [ek a ha]
      split
      · rename_i op l r hk
        have cl := hi.children a l ha ⟨op, l, r, hk, Or.inl rfl⟩
        have cr := hi.children a r ha ⟨op, l, r, hk, Or.inr rfl⟩
        have s := invertNormals_same fuel g l
        rw [ih _ (fun y hy => by rw [s.2.2 y]; exact ek y hy) r (by omega) (by omega) cr.2,
          ih g ek l (by omega) (by omega) cl.2]
        have hsplit : Under h a x ↔ Under h l x ∨ Under h r x := by
          constructor
          · intro hu
            rcases hu.inv with rfl | ⟨c, ⟨op', l', r', hk', hor⟩, hcx⟩
            · rw [hk] at hq; cases hq
            · rw [hk] at hk'; cases hk'
              rcases hor with rfl | rfl
              · exact Or.inl hcx
              · exact Or.inr hcx
          · rintro (hu | hu)
            · exact Under.trans (.step .refl ⟨op, l, r, hk, Or.inl rfl⟩) hu
            · exact Under.trans (.step .refl ⟨op, l, r, hk, Or.inr rfl⟩) hu
        by_cases h1 : Under h r x
        · rw [if_pos h1, if_pos (hsplit.2 (Or.inr h1))]
        · rw [if_neg h1]
          by_cases h2 : Under h l x
          · rw [if_pos h2, if_pos (hsplit.2 (Or.inl h2))]
          · rw [if_neg h2, if_neg (fun hu => (hsplit.1 hu).elim h2 h1)]
      · rename_i hn
        rw [Heap.set_obj]
        by_cases hxa : x = a
        · subst hxa; rw [if_pos rfl, if_pos .refl]
        · rw [if_neg hxa, if_neg]
          intro hu
          rcases hu.inv with e | ⟨c, ⟨op', l', r', hk', -⟩, -⟩
          · exact hxa e
          · exact hn op' l' r' hk'
  by_cases hop : op = .difference
  · rw [if_pos hop, key g.size g ek r (by omega) hr hir, e1]
    simp [hop]
  · rw [if_neg hop, e1, if_neg (fun e => hop e.1)]

theorem exec_normals {fuel : ℕ} {h h' : Heap} (hi : Inv h) (hn : Normals h) (c : Cmd) (hv : c.valid h)
    (hr : exec argsort fuel h c = (h', none)) : Normals h' := by
  cases c with
  | newPrim p =>
    simp only [exec, Prod.mk.injEq, and_true] at hr; rw [← hr]
    exact alloc_normals hi.toStruct _ _ _ (by intro op l r e; cases e) hn
  | newPlain =>
    simp only [exec, Prod.mk.injEq, and_true] at hr; rw [← hr]
    exact alloc_normals hi.toStruct _ _ _ (by intro op l r e; cases e) hn
  | newGroup ms =>
    simp only [exec, Prod.mk.injEq, and_true] at hr; rw [← hr]
    exact alloc_normals hi.toStruct _ _ _ (by intro op l r e; cases e) hn
  | append g m =>
    simp only [exec, Prod.mk.injEq, and_true] at hr; rw [← hr]
    have sub : ∀ x, Subtracted (groupAppend h g m) x ↔ Subtracted h x := fun x => by
      unfold Subtracted
      rw [groupAppend_size]
      simp only [groupAppend_csg]
      have und : ∀ r, Under (groupAppend h g m) r x ↔ Under h r x := fun r =>
        under_congr fun p y _ => groupAppend_isParent h g m p y
      simp only [und]
    intro x hx q hq
    rw [groupAppend_size] at hx
    rw [groupAppend_prim] at hq
    rw [(groupAppend_obj h g m x).2.1, hn x hx q hq]
    by_cases hS : Subtracted h x
    · rw [if_pos hS, if_pos ((sub x).2 hS)]
    · rw [if_neg hS, if_neg (fun e => hS ((sub x).1 e))]
  | newCsg op l r =>
    simp only [exec, Prod.mk.injEq, and_true] at hr; rw [← hr]
    obtain ⟨vl, vr, il, ir⟩ := hv
    have hs := hi.toStruct
    have und : ∀ b x, b < h.size → (Under h b x ↔ Under (newCsg argsort h op l r) b x) := fun b x hb =>
      under_congr fun p y hp => by
        have := hp.le hs hb
        rw [newCsg_isParent argsort op l r p y (by omega)]
        simp [show p < h.size by omega, show p ≠ h.size by omega]
    have sub : ∀ x, Subtracted (newCsg argsort h op l r) x ↔ Subtracted h x ∨ (op = .difference ∧ Under h r x) := by
      intro x
      constructor
      · rintro ⟨d, l', r', hd, hkd, hu⟩
        rw [newCsg_size] at hd
        rcases Nat.lt_succ_iff_lt_or_eq.1 hd with hd' | hd'
        · rw [newCsg_kind_lt argsort h op l r hd'] at hkd
          have cr := (hs.children d r' hd' ⟨_, l', r', hkd, Or.inr rfl⟩).1
          exact Or.inl ⟨d, l', r', hd', hkd, (und r' x (by omega)).2 hu⟩
        · subst hd'
          rw [newCsg_kind_self] at hkd
          cases hkd
          exact Or.inr ⟨rfl, (und _ x vr).2 hu⟩
      · rintro (⟨d, l', r', hd, hkd, hu⟩ | ⟨hop, hu⟩)
        · have cr := (hs.children d r' hd ⟨_, l', r', hkd, Or.inr rfl⟩).1
          exact ⟨d, l', r', by rw [newCsg_size]; omega, by rw [newCsg_kind_lt argsort h op l r hd]; exact hkd,
            (und r' x (by omega)).1 hu⟩
        · exact ⟨h.size, l, r, by rw [newCsg_size]; omega, by rw [newCsg_kind_self, hop], (und r x vr).1 hu⟩
    intro x hx q hq
    rw [newCsg_size] at hx
    rcases Nat.lt_succ_iff_lt_or_eq.1 hx with hx' | hx'
    · rw [newCsg_kind_lt argsort h op l r hx'] at hq
      rw [newCsg_nscale argsort h hs op l r vl vr ir hx' hq, hn x hx' q hq]
      by_cases h1 : op = .difference ∧ Under h r x
      · rw [if_pos h1, if_pos ((sub x).2 (Or.inr h1))]
      · rw [if_neg h1]
        by_cases h2 : Subtracted h x
        · rw [if_pos h2, if_pos ((sub x).2 (Or.inl h2))]
        · rw [if_neg h2, if_neg (fun e => ((sub x).1 e).elim h2 h1)]
    · subst hx'
      rw [newCsg_kind_self] at hq
      cases hq
  | movement a mv =>
    obtain ⟨m, -, hr⟩ := callMovement_ok argsort hr
    have hst := transform_static argsort m fuel h a
    rw [hr] at hst
    exact hst.normals hn

theorem reaches_normals {fuel : ℕ} {h h' : Heap} (hi : Inv h) (hn : Normals h)
    (hr : Reaches argsort fuel h h') : Normals h' := by
  induction hr with
  | refl => exact hn
  | step c hr1 hv he ih => exact exec_normals argsort (reaches_inv argsort hi hr1) ih c hv he

theorem empty_normals : Normals Heap.empty := by
  intro x hx; simp [Heap.empty] at hx

end PyRayT
