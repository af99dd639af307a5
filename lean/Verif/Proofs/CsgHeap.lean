import Verif.Proofs.World3
import Verif.Proofs.CsgBox

/-! Bounding boxes of composites (freshness) and normal scales under every operation. -/

namespace PyRayT

open Classical Matrix

variable (argsort : List EReal → List ℕ)

/-- the box of `p`, if it is a composite, is the one computed from its children's present boxes -/
def Fresh (h : Heap) (p : ℕ) : Prop :=
  ∀ op l r, (h.obj p).kind = .csg op l r → (h.obj p).aobb = csgBox argsort op (h.obj l).aobb (h.obj r).aobb

theorem runHandler_aobb (h : Heap) (hd : Handler) (b : ℕ) (hb : hd ≠ .box b) :
    ((runHandler argsort h hd).1.obj b).aobb = (h.obj b).aobb := by
  by_cases hba : b = hd.addr
  · cases hd with
    | matrix a =>
      simp only [Handler.addr] at hba
      subst hba
      simp only [runHandler]
      split
      · rw [Heap.set_obj_self]
      · split <;> simp only [Heap.set_obj_self]
    | box a => simp only [Handler.addr] at hba; subst hba; exact absurd rfl hb
  · rw [runHandler_frame argsort h hd hba]

theorem runHandlers_aobb (hs : List Handler) : ∀ (h : Heap) (b : ℕ), .box b ∉ hs →
    ((runHandlers argsort h hs).1.obj b).aobb = (h.obj b).aobb := by
  induction hs with
  | nil => intro h b _; rfl
  | cons hd tl ih =>
    intro h b hb
    have h1 := runHandler_aobb argsort h hd b (fun e => hb (by rw [e]; simp))
    simp only [runHandlers]
    rcases hh : runHandler argsort h hd with ⟨h', e⟩
    rw [hh] at h1
    cases e with
    | none => exact (ih h' b fun x => hb (by simp [x])).trans h1
    | some e => exact h1

theorem runHandler_box_fresh {h : Heap} {p l r : ℕ} {op : Operation} (hk : (h.obj p).kind = .csg op l r)
    (hl : l ≠ p) (hr : r ≠ p) : Fresh argsort (runHandler argsort h (.box p)).1 p := by
  intro op' l' r' hk'
  rw [((runHandler_core argsort h (.box p)).2.2 p).1, hk] at hk'
  cases hk'
  simp only [runHandler, hk]
  rw [Heap.set_obj_self, Heap.set_obj_ne _ _ hl, Heap.set_obj_ne _ _ hr]

/-- handlers that touch no child box keep a composite fresh -/
theorem runHandlers_fresh_keep {p l r : ℕ} {op : Operation} (hl : l ≠ p) (hr : r ≠ p) (hs : List Handler) :
    ∀ {h : Heap}, (h.obj p).kind = .csg op l r → .box l ∉ hs → .box r ∉ hs → Fresh argsort h p →
    Fresh argsort (runHandlers argsort h hs).1 p := by
  induction hs with
  | nil => intro h _ _ _ hf; exact hf
  | cons hd tl ih =>
    intro h hk h1 h2 hf
    have hf' : Fresh argsort (runHandler argsort h hd).1 p := by
      by_cases hd' : hd = .box p
      · rw [hd']; exact runHandler_box_fresh argsort hk hl hr
      · intro op' l' r' hk'
        rw [((runHandler_core argsort h hd).2.2 p).1, hk] at hk'
        cases hk'
        rw [runHandler_aobb argsort h hd p hd', runHandler_aobb argsort h hd l (fun e => h1 (by rw [e]; simp)),
          runHandler_aobb argsort h hd r (fun e => h2 (by rw [e]; simp))]
        exact hf op l r hk
    have hk' : ((runHandler argsort h hd).1.obj p).kind = .csg op l r := by
      rw [((runHandler_core argsort h hd).2.2 p).1, hk]
    simp only [runHandlers]
    rcases hh : runHandler argsort h hd with ⟨h', e⟩
    rw [hh] at hf' hk'
    cases e with
    | none => exact ih hk' (fun x => h1 (by simp [x])) (fun x => h2 (by simp [x])) hf'
    | some e => exact hf'

theorem runHandlers_append (xs ys : List Handler) : ∀ (h : Heap),
    runHandlers argsort h (xs ++ ys) = (runHandlers argsort h xs).andThen fun h => runHandlers argsort h ys := by
  induction xs with
  | nil => intro h; rfl
  | cons x xs ih =>
    intro h
    simp only [List.cons_append, runHandlers]
    rcases runHandler argsort h x with ⟨h', e⟩
    cases e with
    | none => exact ih h'
    | some e => rfl

/-- a composite is fresh after its box handler ran, if no child box handler ran later -/
theorem runHandlers_fresh_make {p l r : ℕ} {op : Operation} (hl : l ≠ p) (hr : r ≠ p) (xs ys : List Handler)
    {h h' : Heap} (hk : (h.obj p).kind = .csg op l r) (h1 : .box l ∉ ys) (h2 : .box r ∉ ys)
    (hrun : runHandlers argsort h (xs ++ .box p :: ys) = (h', none)) : Fresh argsort h' p := by
  rw [runHandlers_append] at hrun
  obtain ⟨g1, e1, e2⟩ := Res.andThen_ok hrun
  obtain ⟨g2, e3, e4⟩ := Res.andThen_ok e2
  have hk1 : (g1.obj p).kind = .csg op l r := by
    have := runHandlers_core argsort xs h
    rw [e1] at this
    rw [(this.2.2 p).1, hk]
  have hf := runHandler_box_fresh argsort hk1 hl hr
  rw [e3] at hf
  have hk2 : (g2.obj p).kind = .csg op l r := by
    have := runHandler_core argsort g1 (.box p)
    rw [e3] at this
    rw [(this.2.2 p).1, hk1]
  have := runHandlers_fresh_keep argsort hl hr ys hk2 h1 h2 hf
  rw [e4] at this
  exact this

/-- own movement: boxes of objects that are not watched stay -/
theorem appendOwn_aobb {h h' : Heap} {a : ℕ} {m : Mat4} (hr : appendOwn argsort h a m = (h', none)) (b : ℕ)
    (hb : .box b ∉ (h.obj a).watch) : (h'.obj b).aobb = (h.obj b).aobb := by
  unfold appendOwn at hr
  simp only [Heap.set_obj_self] at hr
  have := runHandlers_aobb argsort (h.obj a).watch (h.set a { h.obj a with world := m * (h.obj a).world }) b hb
  rw [hr] at this
  simp only at this
  rw [this, Heap.set_obj]
  split
  · rename_i e; rw [e]
  · rfl

theorem Struct.box_watch {h : Heap} (hi : Struct h) {a b : ℕ} (ha : a < h.size) (hb : .box b ∈ (h.obj a).watch) :
    b = a ∨ IsParent h b a := (hi.watch_sound a ha _ hb).2

theorem appendOwn_fresh_keep {h h' : Heap} (hi : Struct h) {a : ℕ} (ha : a < h.size) {m : Mat4}
    (hr : appendOwn argsort h a m = (h', none)) {p l r : ℕ} {op : Operation} (hp : p < h.size)
    (hk : (h.obj p).kind = .csg op l r)
    (hl : a ≠ l) (hr' : a ≠ r) (hl2 : ¬ IsParent h l a) (hr2 : ¬ IsParent h r a) (hf : Fresh argsort h p) :
    Fresh argsort h' p := by
  have c1 := (hi.children p l hp ⟨op, l, r, hk, Or.inl rfl⟩).1
  have c2 := (hi.children p r hp ⟨op, l, r, hk, Or.inr rfl⟩).1
  unfold appendOwn at hr
  simp only [Heap.set_obj_self] at hr
  have hk' : ((h.set a { h.obj a with world := m * (h.obj a).world }).obj p).kind = .csg op l r := by
    rw [Heap.set_obj]; split
    · rename_i e; rw [← e]; exact hk
    · exact hk
  have haobb : ∀ b, ((h.set a { h.obj a with world := m * (h.obj a).world }).obj b).aobb = (h.obj b).aobb := by
    intro b; rw [Heap.set_obj]; split
    · rename_i e; rw [e]
    · rfl
  have hf' : Fresh argsort (h.set a { h.obj a with world := m * (h.obj a).world }) p := by
    intro op' l' r' hk2
    rw [hk'] at hk2
    cases hk2
    rw [haobb, haobb, haobb]; exact hf op l r hk
  have n1 : Handler.box l ∉ (h.obj a).watch := fun hm => by
    rcases hi.box_watch ha hm with e | e
    · exact hl e.symm
    · exact hl2 e
  have n2 : Handler.box r ∉ (h.obj a).watch := fun hm => by
    rcases hi.box_watch ha hm with e | e
    · exact hr' e.symm
    · exact hr2 e
  have := runHandlers_fresh_keep argsort c1.ne c2.ne (h.obj a).watch hk' n1 n2 hf'
  rw [hr] at this
  exact this

theorem appendOwn_fresh_make {h h' : Heap} (hi : Struct h) {a : ℕ} (ha : a < h.size) {m : Mat4}
    (hr : appendOwn argsort h a m = (h', none)) {p l r : ℕ} {op : Operation} (hp : p < h.size)
    (hk : (h.obj p).kind = .csg op l r) (hchild : a = l ∨ a = r)
    (hl2 : ¬ IsParent h l a) (hr2 : ¬ IsParent h r a) : Fresh argsort h' p := by
  have c1 := (hi.children p l hp ⟨op, l, r, hk, Or.inl rfl⟩).1
  have c2 := (hi.children p r hp ⟨op, l, r, hk, Or.inr rfl⟩).1
  have hpa : IsParent h p a := ⟨op, l, r, hk, hchild⟩
  have cint := (hi.children p a hp hpa).2
  obtain ⟨rest, e1, e2⟩ := hi.own_first a ha cint
  have hbox := (hi.attached p a hp hpa).2
  have hane : a ≠ p := (hi.children p a hp hpa).1.ne
  have hrest : Handler.box p ∈ rest := by
    rw [e1] at hbox
    simp only [List.mem_cons, reduceCtorEq, false_or] at hbox
    rcases hbox with e | e
    · exact absurd (Handler.box.inj e).symm hane
    · exact e
  obtain ⟨s, t, hst⟩ := List.append_of_mem hrest
  unfold appendOwn at hr
  simp only [Heap.set_obj_self] at hr
  have hk' : ((h.set a { h.obj a with world := m * (h.obj a).world }).obj p).kind = .csg op l r := by
    rw [Heap.set_obj_ne _ _ hane.symm]; exact hk
  have hw : (h.obj a).watch = (Handler.matrix a :: Handler.box a :: s) ++ Handler.box p :: t := by rw [e1, hst]; rfl
  generalize hg : h.set a { h.obj a with world := m * (h.obj a).world } = g at hr hk'
  rw [hw] at hr
  refine runHandlers_fresh_make argsort c1.ne c2.ne _ t hk' ?_ ?_ hr
  · intro hm; exact hl2 (e2 (.box l) (by rw [hst]; simp [hm]))
  · intro hm; exact hr2 (e2 (.box r) (by rw [hst]; simp [hm]))

/-- a property kept by each object's own movement is kept by movements -/
theorem transform_induct (m : Mat4) (P : Heap → Prop)
    (hP : ∀ (h h' : Heap) (a : ℕ), Inv h → a < h.size → P h → appendOwn argsort h a m = (h', none) → P h') :
    ∀ (fuel : ℕ) {h h' : Heap} (a : ℕ), Inv h → a < h.size → P h → transform argsort fuel h a m = (h', none) → P h' := by
  intro fuel
  induction fuel with
  | zero => intro h h' a _ _ _ hr; simp [transform] at hr
  | succ fuel ih =>
    intro h h' a hi ha hp hr
    unfold transform at hr
    obtain ⟨h1, e1, e2⟩ := Res.andThen_ok hr
    have hi1 := appendOwn_inv argsort hi ha e1
    have hp1 := hP h h1 a hi ha hp e1
    have hst : Static h h1 := by have := appendOwn_static argsort h a m; rw [e1] at this; exact this
    have hk : (h1.obj a).kind = (h.obj a).kind := (hst.2.2 a).1
    simp only [hk] at e2
    split at e2
    · rename_i op l r hkind
      have hl := (hi.children a l ha ⟨op, l, r, hkind, Or.inl rfl⟩).1
      have hrr := (hi.children a r ha ⟨op, l, r, hkind, Or.inr rfl⟩).1
      obtain ⟨h2, e3, e4⟩ := Res.andThen_ok e2
      have hs1 := hst.1
      have hp2 := ih l hi1 (by omega) hp1 e3
      obtain ⟨hi2, mm⟩ := transform_ok argsort m fuel l hi1 (by omega) e3
      have hs2 := mm.1.1
      exact ih r hi2 (by omega) hp2 e4
    · rename_i ms hkind
      have hmem := hi.members a ha ms hkind
      have key : ∀ (bs : List ℕ) (h1 : Heap), Inv h1 → P h1 → (∀ b ∈ bs, b < h1.size) →
          bs.foldl (fun (res : Res) b => res.andThen fun h => transform argsort fuel h b m) (h1, none) = (h', none) →
          P h' := by
        intro bs
        induction bs with
        | nil =>
          intro h1 _ hp1 _ e
          simp only [List.foldl_nil, Prod.mk.injEq, and_true] at e
          rw [← e]; exact hp1
        | cons b bs ihb =>
          intro h1 hi1 hp1 hlt e
          rw [List.foldl_cons] at e
          rcases hh : transform argsort fuel h1 b m with ⟨h2, er⟩
          have e' : (Res.andThen (h1, none) fun h => transform argsort fuel h b m) = (h2, er) := hh
          rw [e'] at e
          cases er with
          | some er => rw [foldl_andThen_err] at e; simp at e
          | none =>
            obtain ⟨hi2, mm⟩ := transform_ok argsort m fuel b hi1 (hlt b (by simp)) hh
            exact ihb h2 hi2 (ih b hi1 (hlt b (by simp)) hp1 hh)
              (fun x hx => by rw [mm.1.1]; exact hlt x (by simp [hx])) e
      exact key ms h1 hi1 hp1 (fun b hb => by rw [hst.1]; exact hmem b hb) e2
    · simp only [Prod.mk.injEq, and_true] at e2
      rw [← e2]; exact hp1

/-! ### building a composite -/

/-- boxes of older objects are untouched, the new one is fresh -/
theorem newCsg_aobb_lt (h : Heap) (op : Operation) (l r : ℕ) {a : ℕ} (ha : a < h.size) :
    ((newCsg argsort h op l r).obj a).aobb = (h.obj a).aobb := by
  unfold newCsg
  simp only
  set g := attachTo (attachTo (h.alloc (.csg op l r) (fun _ => (0, 0)) [.box h.size]) l h.size) r h.size with hg
  rw [runHandler_aobb argsort _ (.box h.size) a (by intro e; have := Handler.box.inj e; omega)]
  have e1 : (g.obj a).aobb = (h.obj a).aobb := by
    rw [hg, attachTo_same, attachTo_same, alloc_obj_lt _ _ _ _ ha]
  split
  · rw [(invertNormals_same g.size g r).2.2 a]; exact e1
  · exact e1

theorem newCsg_fresh (h : Heap) (op : Operation) (l r : ℕ) (hl : l < h.size) (hr : r < h.size) :
    Fresh argsort (newCsg argsort h op l r) h.size := by
  unfold newCsg
  simp only
  set g := attachTo (attachTo (h.alloc (.csg op l r) (fun _ => (0, 0)) [.box h.size]) l h.size) r h.size with hg
  have e1 : (g.obj h.size).kind = .csg op l r := by
    rw [hg, attachTo_same, attachTo_same, alloc_obj_self]
  refine runHandler_box_fresh argsort (op := op) (l := l) (r := r) ?_ hl.ne hr.ne
  split
  · rw [(invertNormals_same g.size g r).2.2 h.size]; exact e1
  · exact e1

/-! ### composites of two surfaces -/

/-- both children are surfaces -/
def FlatCsg (h : Heap) (p : ℕ) : Prop :=
  ∃ op l r q q', (h.obj p).kind = .csg op l r ∧ (h.obj l).kind = .prim q ∧ (h.obj r).kind = .prim q'

def FlatFresh (h : Heap) : Prop := ∀ p < h.size, FlatCsg h p → Fresh argsort h p

theorem prim_not_parent {h : Heap} {l a : ℕ} {q : Prim} (hk : (h.obj l).kind = .prim q) : ¬ IsParent h l a := by
  rintro ⟨op, x, y, hk', -⟩
  rw [hk] at hk'; cases hk'

theorem appendOwn_flat {h h' : Heap} {a : ℕ} {m : Mat4} (hi : Inv h) (ha : a < h.size) (hf : FlatFresh argsort h)
    (hr : appendOwn argsort h a m = (h', none)) : FlatFresh argsort h' := by
  have hst : Static h h' := by have := appendOwn_static argsort h a m; rw [hr] at this; exact this
  intro p hp hflat
  rw [hst.1] at hp
  have hflat' : FlatCsg h p := by
    obtain ⟨op, l, r, q, q', k1, k2, k3⟩ := hflat
    rw [(hst.2.2 _).1] at k1 k2 k3
    exact ⟨op, l, r, q, q', k1, k2, k3⟩
  obtain ⟨op, l, r, q, q', k1, k2, k3⟩ := hflat'
  by_cases hc : a = l ∨ a = r
  · exact appendOwn_fresh_make argsort hi.toStruct ha hr hp k1 hc (prim_not_parent k2) (prim_not_parent k3)
  · rw [not_or] at hc
    exact appendOwn_fresh_keep argsort hi.toStruct ha hr hp k1 hc.1 hc.2 (prim_not_parent k2) (prim_not_parent k3)
      (hf p hp ⟨op, l, r, q, q', k1, k2, k3⟩)

theorem alloc_flat {h : Heap} (hi : Inv h) (k : Kind) (bx : Box) (ex : List Handler) (hk : ∀ op l r, k ≠ .csg op l r)
    (hf : FlatFresh argsort h) : FlatFresh argsort (h.alloc k bx ex) := by
  intro p hp hflat
  have hp' : p < h.size + 1 := hp
  obtain ⟨op, l, r, q, q', k1, k2, k3⟩ := hflat
  rcases Nat.lt_succ_iff_lt_or_eq.1 hp' with hp' | hp'
  · rw [alloc_obj_lt _ _ _ _ hp'] at k1
    have hl := (hi.children p l hp' ⟨op, l, r, k1, Or.inl rfl⟩).1
    have hr := (hi.children p r hp' ⟨op, l, r, k1, Or.inr rfl⟩).1
    rw [alloc_obj_lt _ _ _ _ (by omega)] at k2 k3
    intro op2 l2 r2 k4
    rw [alloc_obj_lt _ _ _ _ hp', k1] at k4
    cases k4
    rw [alloc_obj_lt _ _ _ _ hp', alloc_obj_lt _ _ _ _ (by omega), alloc_obj_lt _ _ _ _ (by omega)]
    exact hf p hp' ⟨op, l, r, q, q', k1, k2, k3⟩ op l r k1
  · subst hp'
    rw [alloc_obj_self] at k1
    exact absurd k1 (hk op l r)

theorem exec_flat {fuel : ℕ} {h h' : Heap} (hi : Inv h) (hf : FlatFresh argsort h) (c : Cmd) (hv : c.valid h)
    (hr : exec argsort fuel h c = (h', none)) : FlatFresh argsort h' := by
  cases c with
  | newPrim p =>
    simp only [exec, Prod.mk.injEq, and_true] at hr; rw [← hr]
    exact alloc_flat argsort hi _ _ _ (by intro op l r e; cases e) hf
  | newPlain =>
    simp only [exec, Prod.mk.injEq, and_true] at hr; rw [← hr]
    exact alloc_flat argsort hi _ _ _ (by intro op l r e; cases e) hf
  | newGroup ms =>
    simp only [exec, Prod.mk.injEq, and_true] at hr; rw [← hr]
    exact alloc_flat argsort hi _ _ _ (by intro op l r e; cases e) hf
  | append g m =>
    simp only [exec, Prod.mk.injEq, and_true] at hr; rw [← hr]
    unfold groupAppend
    split
    · rename_i ms hk
      have hkind : ∀ (x : ℕ) (k : Kind), (∀ ms, k ≠ .group ms) →
          ((h.set g { h.obj g with kind := .group (ms ++ [m]) }).obj x).kind = k → (h.obj x).kind = k := by
        intro x k hng hkx
        rw [Heap.set_obj] at hkx
        split at hkx
        · exact absurd hkx.symm (hng _)
        · exact hkx
      have haobb : ∀ x, ((h.set g { h.obj g with kind := .group (ms ++ [m]) }).obj x).aobb = (h.obj x).aobb := by
        intro x; rw [Heap.set_obj]; split
        · rename_i e; rw [e]
        · rfl
      intro p hp hflat
      obtain ⟨op, l, r, q, q', k1, k2, k3⟩ := hflat
      have k1' := hkind p _ (by intro ms e; cases e) k1
      have k2' := hkind l _ (by intro ms e; cases e) k2
      have k3' := hkind r _ (by intro ms e; cases e) k3
      intro op2 l2 r2 k4
      rw [k1] at k4
      cases k4
      rw [haobb, haobb, haobb]
      exact hf p hp ⟨op, l, r, q, q', k1', k2', k3'⟩ op l r k1'
    · exact hf
  | newCsg op l r =>
    simp only [exec, Prod.mk.injEq, and_true] at hr; rw [← hr]
    intro p hp hflat
    rw [newCsg_size] at hp
    rcases Nat.lt_succ_iff_lt_or_eq.1 hp with hp' | hp'
    · obtain ⟨op2, l2, r2, q, q', k1, k2, k3⟩ := hflat
      rw [newCsg_kind_lt argsort h op l r hp'] at k1
      have hl := (hi.children p l2 hp' ⟨op2, l2, r2, k1, Or.inl rfl⟩).1
      have hr := (hi.children p r2 hp' ⟨op2, l2, r2, k1, Or.inr rfl⟩).1
      rw [newCsg_kind_lt argsort h op l r (by omega)] at k2 k3
      intro op3 l3 r3 k4
      rw [newCsg_kind_lt argsort h op l r hp', k1] at k4
      cases k4
      rw [newCsg_aobb_lt argsort h op l r hp', newCsg_aobb_lt argsort h op l r (by omega),
        newCsg_aobb_lt argsort h op l r (by omega)]
      exact hf p hp' ⟨op2, l2, r2, q, q', k1, k2, k3⟩ op2 l2 r2 k1
    · subst hp'
      exact newCsg_fresh argsort h op l r hv.1 hv.2.1
  | movement a mv =>
    simp only [exec, callMovement] at hr
    split at hr
    · simp at hr
    · rename_i m _
      exact transform_induct argsort m (FlatFresh argsort)
        (fun h h' a hi ha hp hr => appendOwn_flat argsort hi ha hp hr) fuel a hi hv hf hr

theorem reaches_flat {fuel : ℕ} {h h' : Heap} (hi : Inv h) (hf : FlatFresh argsort h)
    (hr : Reaches argsort fuel h h') : FlatFresh argsort h' := by
  induction hr with
  | refl => exact hf
  | step c hr1 hv he ih => exact exec_flat argsort (reaches_inv argsort hi hr1) ih c hv he

/-! ### tidy composites -/

/-- No object is a child of two composites or both children of one, and the right operand of a union or
intersection is a surface. -/
structure Tidy (h : Heap) : Prop where
  unique : ∀ p q a, p < h.size → q < h.size → IsParent h p a → IsParent h q a → p = q
  distinct : ∀ p < h.size, ∀ op l r, (h.obj p).kind = .csg op l r → l ≠ r
  shape : ∀ p < h.size, ∀ op l r, (h.obj p).kind = .csg op l r → op = .difference ∨ ∃ q, (h.obj r).kind = .prim q

theorem Static.top {h h' : Heap} (hs : Static h h') (a : ℕ) : Top h' a ↔ Top h a := by
  unfold Top; rw [hs.1]; simp only [hs.isParent]

theorem Static.tidy {h h' : Heap} (hs : Static h h') (ht : Tidy h) : Tidy h' where
  unique p q a := by rw [hs.1, hs.isParent, hs.isParent]; exact ht.unique p q a
  distinct p := by rw [hs.1, (hs.2.2 p).1]; exact ht.distinct p
  shape p hp op l r := by
    rw [hs.1] at hp; rw [(hs.2.2 p).1, (hs.2.2 r).1]; exact ht.shape p hp op l r

/-- `x` is `a` or a descendant of `a` through composites -/
inductive Under (h : Heap) (a : ℕ) : ℕ → Prop where
  | refl : Under h a a
  | step {p x : ℕ} : Under h a p → IsParent h p x → Under h a x

theorem Static.under {h h' : Heap} (hs : Static h h') (a x : ℕ) : Under h' a x ↔ Under h a x := by
  constructor
  · intro hu
    induction hu with
    | refl => exact .refl
    | step _ hp ih => exact .step ih ((hs.isParent _ _).1 hp)
  · intro hu
    induction hu with
    | refl => exact .refl
    | step _ hp ih => exact .step ih ((hs.isParent _ _).2 hp)

theorem Under.le {h : Heap} (hi : Struct h) {a x : ℕ} (ha : a < h.size) (hu : Under h a x) : x ≤ a := by
  induction hu with
  | refl => exact le_refl _
  | step _ hp ih => have := (hi.children _ _ (by omega) hp).1; omega

theorem Under.trans {h : Heap} {a b x : ℕ} (h1 : Under h a b) (h2 : Under h b x) : Under h a x := by
  induction h2 with
  | refl => exact h1
  | step _ hp ih => exact .step ih hp

theorem Under.inv {h : Heap} {a x : ℕ} (hu : Under h a x) : x = a ∨ ∃ c, IsParent h a c ∧ Under h c x := by
  induction hu with
  | refl => exact Or.inl rfl
  | @step p x _ hp ih =>
    right
    rcases ih with rfl | ⟨c, hc, hcu⟩
    · exact ⟨x, hp, .refl⟩
    · exact ⟨c, hc, .step hcu hp⟩

theorem under_disjoint {h : Heap} (hi : Struct h) (ht : Tidy h) {c l r : ℕ} {op : Operation} (hc : c < h.size)
    (hk : (h.obj c).kind = .csg op l r) {x : ℕ} (h1 : Under h l x) (h2 : Under h r x) : False := by
  have pl : IsParent h c l := ⟨op, l, r, hk, Or.inl rfl⟩
  have pr : IsParent h c r := ⟨op, l, r, hk, Or.inr rfl⟩
  have cl := (hi.children c l hc pl).1
  have cr := (hi.children c r hc pr).1
  have hne := ht.distinct c hc op l r hk
  revert h2
  induction h1 with
  | refl =>
    intro h2
    cases h2 with
    | refl => exact hne rfl
    | @step p _ hu hp =>
      have hpl := hu.le hi (by omega)
      have := ht.unique p c l (by omega) hc hp pl
      omega
  | @step p x hu hp ih =>
    have hpl := hu.le hi (by omega)
    intro h2
    cases h2 with
    | refl =>
      have := ht.unique p c r (by omega) hc hp pr
      omega
    | @step p' _ hu' hp' =>
      have hpl' := hu'.le hi (by omega)
      have := ht.unique p p' x (by omega) (by omega) hp hp'
      subst this
      exact ih hu'

/-- a movement of `a` changes boxes only below `a` and of the parent of `a` -/
theorem transform_aobb_frame (m : Mat4) : ∀ (fuel : ℕ) {h h' : Heap} (a : ℕ), Inv h → Tidy h → a < h.size →
    (h.obj a).kind.intersectable → transform argsort fuel h a m = (h', none) →
    ∀ x, ¬ Under h a x → ¬ IsParent h x a → x < h.size → (h'.obj x).aobb = (h.obj x).aobb := by
  intro fuel
  induction fuel with
  | zero => intro h h' a _ _ _ _ hr; simp [transform] at hr
  | succ fuel ih =>
    intro h h' a hi ht ha hint hr x hx1 hx2 hxs
    unfold transform at hr
    obtain ⟨h1, e1, e2⟩ := Res.andThen_ok hr
    have hi1 := appendOwn_inv argsort hi ha e1
    have hst : Static h h1 := by have := appendOwn_static argsort h a m; rw [e1] at this; exact this
    have hk : (h1.obj a).kind = (h.obj a).kind := (hst.2.2 a).1
    have hx : (h1.obj x).aobb = (h.obj x).aobb := by
      apply appendOwn_aobb argsort e1
      intro hm
      rcases hi.toStruct.box_watch ha hm with e | e
      · exact hx1 (e ▸ .refl)
      · exact hx2 e
    simp only [hk] at e2
    split at e2
    · rename_i op l r hkind
      have pl : IsParent h a l := ⟨op, l, r, hkind, Or.inl rfl⟩
      have pr : IsParent h a r := ⟨op, l, r, hkind, Or.inr rfl⟩
      have cl := hi.children a l ha pl
      have cr := hi.children a r ha pr
      obtain ⟨h2, e3, e4⟩ := Res.andThen_ok e2
      have hs1 := hst.1
      obtain ⟨hi2, mm⟩ := transform_ok argsort m fuel l hi1 (by omega) e3
      have hst2 := hst.trans mm.1
      have hs2 := hst2.1
      have hl := ih l hi1 (hst.tidy ht) (by omega) (by rw [(hst.2.2 l).1]; exact cl.2) e3 x
        (fun hu => hx1 (Under.trans (.step .refl pl) ((hst.under _ _).1 hu)))
        (fun hp => by
          have := ht.unique x a l hxs ha ((hst.isParent _ _).1 hp) pl
          exact hx1 (this ▸ .refl)) (by omega)
      have hr' := ih r hi2 (hst2.tidy ht) (by omega) (by rw [(hst2.2.2 r).1]; exact cr.2) e4 x
        (fun hu => hx1 (Under.trans (.step .refl pr) ((hst2.under _ _).1 hu)))
        (fun hp => by
          have := ht.unique x a r hxs ha ((hst2.isParent _ _).1 hp) pr
          exact hx1 (this ▸ .refl)) (by omega)
      rw [hr', hl, hx]
    · rename_i ms hkind
      rw [hkind] at hint
      simp [Kind.intersectable] at hint
    · simp only [Prod.mk.injEq, and_true] at e2
      rw [← e2]; exact hx

/-- after a movement of `a` every composite below `a` is fresh -/
theorem transform_fresh_under (m : Mat4) : ∀ (fuel : ℕ) {h h' : Heap} (a : ℕ), Inv h → Tidy h → a < h.size →
    (h.obj a).kind.intersectable → transform argsort fuel h a m = (h', none) →
    ∀ x, Under h a x → Fresh argsort h' x := by
  intro fuel
  induction fuel with
  | zero => intro h h' a _ _ _ _ hr; simp [transform] at hr
  | succ fuel ih =>
    intro h h' a hi ht ha hint hr x hx
    have hrfull := hr
    unfold transform at hr
    obtain ⟨h1, e1, e2⟩ := Res.andThen_ok hr
    have hi1 := appendOwn_inv argsort hi ha e1
    have hst : Static h h1 := by have := appendOwn_static argsort h a m; rw [e1] at this; exact this
    have hk : (h1.obj a).kind = (h.obj a).kind := (hst.2.2 a).1
    have hstf : Static h h' := by have := transform_static argsort m (fuel + 1) h a; rw [hrfull] at this; exact this
    simp only [hk] at e2
    split at e2
    · rename_i op l r hkind
      have pl : IsParent h a l := ⟨op, l, r, hkind, Or.inl rfl⟩
      have pr : IsParent h a r := ⟨op, l, r, hkind, Or.inr rfl⟩
      have cl := hi.children a l ha pl
      have cr := hi.children a r ha pr
      have hlr := ht.distinct a ha op l r hkind
      obtain ⟨h2, e3, e4⟩ := Res.andThen_ok e2
      have hs1 := hst.1
      obtain ⟨hi2, mm⟩ := transform_ok argsort m fuel l hi1 (by omega) e3
      have hst2 := hst.trans mm.1
      have hs2 := hst2.1
      have ht1 := hst.tidy ht
      have ht2 := hst2.tidy ht
      have frameR := transform_aobb_frame argsort m fuel r hi2 ht2 (by omega)
        (by rw [(hst2.2.2 r).1]; exact cr.2) e4
      rcases hx.inv with rfl | ⟨c, hc, hcx⟩
      · -- the composite itself
        have hk2 : (h2.obj x).kind = .csg op l r := by rw [(hst2.2.2 x).1, hkind]
        -- right operand moved: first its own movement
        rcases fuel with _ | fuel
        · simp [transform] at e4
        unfold transform at e4
        obtain ⟨g1, f1, f2⟩ := Res.andThen_ok e4
        have hgi := appendOwn_inv argsort hi2 (by omega) f1
        have hstg : Static h2 g1 := by have := appendOwn_static argsort h2 r m; rw [f1] at this; exact this
        have nl : ¬ IsParent h2 l r := fun hp => by
          have := ht.unique l x r (by omega) ha ((hst2.isParent _ _).1 hp) pr
          omega
        have nr : ¬ IsParent h2 r r := fun hp => by
          have := (hi2.children r r (by omega) hp).1
          omega
        have fr : Fresh argsort g1 x := appendOwn_fresh_make argsort hi2.toStruct (by omega) f1 (by omega) hk2
          (Or.inr rfl) nl nr
        have hkg : (g1.obj r).kind = (h.obj r).kind := ((hst2.trans hstg).2.2 r).1
        simp only [hkg] at f2
        split at f2
        · -- composite right operand: the operation is a difference
          rename_i op' l' r' hkr
          have hop : op = .difference := by
            rcases ht.shape x ha op l r hkind with h | ⟨q, h⟩
            · exact h
            · rw [hkr] at h; cases h
          subst hop
          have hrs : r < h.size := by omega
          have pl' : IsParent h r l' := ⟨op', l', r', hkr, Or.inl rfl⟩
          have pr' : IsParent h r r' := ⟨op', l', r', hkr, Or.inr rfl⟩
          have cl' := hi.children r l' hrs pl'
          have cr' := hi.children r r' hrs pr'
          obtain ⟨g2, f3, f4⟩ := Res.andThen_ok f2
          have hsg := hst2.trans hstg
          have hsg1 := hsg.1
          obtain ⟨hig2, mmg⟩ := transform_ok argsort m fuel l' hgi (by omega) f3
          have hsg2 := hsg.trans mmg.1
          have hsg21 := hsg2.1
          have frA := transform_aobb_frame argsort m fuel l' hgi (hsg.tidy ht) (by omega)
            (by rw [(hsg.2.2 l').1]; exact cl'.2) f3
          have frB := transform_aobb_frame argsort m fuel r' hig2 (hsg2.tidy ht) (by omega)
            (by rw [(hsg2.2.2 r').1]; exact cr'.2) f4
          -- neither the composite nor its left operand is below or above `l'`, `r'`
          have ux : ∀ y, y < r → Under h y x → False := fun y hy hu => by
            have := hu.le hi.toStruct (by omega); omega
          have ul : ∀ y, IsParent h r y → Under h y l → False := fun y hy hu =>
            under_disjoint hi.toStruct ht ha hkind .refl (Under.trans (.step .refl hy) hu)
          have px : ∀ y, IsParent h r y → IsParent h x y → False := fun y hy hp => by
            have := ht.unique r x y hrs ha hy hp; omega
          have plp : ∀ y, IsParent h r y → IsParent h l y → False := fun y hy hp => by
            have := ht.unique r l y hrs (by omega) hy hp; omega
          have ax : (h'.obj x).aobb = (g1.obj x).aobb := by
            rw [frB x (fun hu => ux r' cr'.1 ((hsg2.under _ _).1 hu))
                (fun hp => px r' pr' ((hsg2.isParent _ _).1 hp)) (by omega),
              frA x (fun hu => ux l' cl'.1 ((hsg.under _ _).1 hu))
                (fun hp => px l' pl' ((hsg.isParent _ _).1 hp)) (by omega)]
          have al : (h'.obj l).aobb = (g1.obj l).aobb := by
            rw [frB l (fun hu => ul r' pr' ((hsg2.under _ _).1 hu))
                (fun hp => plp r' pr' ((hsg2.isParent _ _).1 hp)) (by omega),
              frA l (fun hu => ul l' pl' ((hsg.under _ _).1 hu))
                (fun hp => plp l' pl' ((hsg.isParent _ _).1 hp)) (by omega)]
          intro op2 l2 r2 k4
          rw [(hstf.2.2 x).1, hkind] at k4
          cases k4
          have := fr .difference l r (by rw [(hsg.2.2 x).1, hkind])
          simp only [csgBox] at this ⊢
          rw [ax, al, this]
        · rename_i ms hkr
          have := cr.2
          rw [hkr] at this
          simp [Kind.intersectable] at this
        · simp only [Prod.mk.injEq, and_true] at f2
          rw [← f2]; exact fr
      · obtain ⟨op2, l2, r2, hk2, hor⟩ := hc
        rw [hkind] at hk2
        cases hk2
        rcases hor with rfl | rfl
        · -- below the left operand
          have fr2 := ih c hi1 ht1 (by omega) (by rw [(hst.2.2 c).1]; exact cl.2) e3 x ((hst.under _ _).2 hcx)
          intro op3 l3 r3 k3
          rw [(hstf.2.2 x).1] at k3
          have f0 := fr2 op3 l3 r3 (by rw [(hst2.2.2 x).1]; exact k3)
          have hxs : x < h.size := lt_of_le_of_lt (hcx.le hi.toStruct (by omega)) (by omega)
          have hfr : ∀ y, Under h c y → (h'.obj y).aobb = (h2.obj y).aobb := fun y hy =>
            frameR y (fun hu => under_disjoint hi.toStruct ht ha hkind hy ((hst2.under _ _).1 hu))
              (fun hp => by
                have hyc := hy.le hi.toStruct (by omega)
                have := ht.unique y a r (by omega) ha ((hst2.isParent _ _).1 hp) pr
                omega)
              (by have hyc := hy.le hi.toStruct (by omega); omega)
          rw [hfr x hcx, hfr l3 (.step hcx ⟨op3, l3, r3, k3, Or.inl rfl⟩),
            hfr r3 (.step hcx ⟨op3, l3, r3, k3, Or.inr rfl⟩)]
          exact f0
        · exact ih c hi2 ht2 (by omega) (by rw [(hst2.2.2 c).1]; exact cr.2) e4 x ((hst2.under _ _).2 hcx)
    · rename_i ms hkind
      rw [hkind] at hint
      simp [Kind.intersectable] at hint
    · rename_i hn1 hn2
      rcases hx.inv with rfl | ⟨c, ⟨op2, l2, r2, hk2, -⟩, -⟩
      · intro op l r k
        rw [(hstf.2.2 x).1] at k
        exact absurd k (hn1 op l r)
      · exact absurd hk2 (hn1 op2 l2 r2)

def AllFresh (h : Heap) : Prop := ∀ p < h.size, Fresh argsort h p

theorem Static.allowed {h h' : Heap} (hs : Static h h') : ∀ (fuel a : ℕ), Allowed h' fuel a ↔ Allowed h fuel a := by
  intro fuel
  induction fuel with
  | zero => intro a; rfl
  | succ fuel ih =>
    intro a
    unfold Allowed
    rw [(hs.2.2 a).1]
    split
    · simp only [ih]
    · rw [hs.1]; simp only [hs.isParent, hs.top]
    · rw [hs.top]

theorem transform_allFresh (m : Mat4) : ∀ (fuel : ℕ) {h h' : Heap} (a : ℕ), Inv h → Tidy h → a < h.size →
    Allowed h fuel a → AllFresh argsort h → transform argsort fuel h a m = (h', none) → AllFresh argsort h' := by
  intro fuel
  induction fuel with
  | zero => intro h h' a _ _ _ _ _ hr; simp [transform] at hr
  | succ fuel ih =>
    intro h h' a hi ht ha hal hf hr
    have hrfull := hr
    have hstf : Static h h' := by have := transform_static argsort m (fuel + 1) h a; rw [hrfull] at this; exact this
    unfold transform at hr
    obtain ⟨h1, e1, e2⟩ := Res.andThen_ok hr
    have hi1 := appendOwn_inv argsort hi ha e1
    have hst : Static h h1 := by have := appendOwn_static argsort h a m; rw [e1] at this; exact this
    have hk : (h1.obj a).kind = (h.obj a).kind := (hst.2.2 a).1
    simp only [hk] at e2
    unfold Allowed at hal
    cases hkind : (h.obj a).kind with
    | prim q =>
      simp only [hkind, Prod.mk.injEq, and_true] at e2 hal
      subst e2
      intro p hp op l r k
      rw [hst.1] at hp
      have k0 := k
      rw [(hst.2.2 p).1] at k
      by_cases hc : a = l ∨ a = r
      · have top := hal p hp ⟨op, l, r, k, hc⟩
        refine appendOwn_fresh_make argsort hi.toStruct ha e1 hp k hc ?_ ?_ op l r k0
        · intro hpa
          have hls := (hi.children p l hp ⟨op, l, r, k, Or.inl rfl⟩).1
          exact (hal l (by omega) hpa) p hp ⟨op, l, r, k, Or.inl rfl⟩
        · intro hpa
          have hls := (hi.children p r hp ⟨op, l, r, k, Or.inr rfl⟩).1
          exact (hal r (by omega) hpa) p hp ⟨op, l, r, k, Or.inr rfl⟩
      · rw [not_or] at hc
        refine appendOwn_fresh_keep argsort hi.toStruct ha e1 hp k hc.1 hc.2 ?_ ?_ (hf p hp) op l r k0
        · intro hpa
          have hls := (hi.children p l hp ⟨op, l, r, k, Or.inl rfl⟩).1
          exact (hal l (by omega) hpa) p hp ⟨op, l, r, k, Or.inl rfl⟩
        · intro hpa
          have hls := (hi.children p r hp ⟨op, l, r, k, Or.inr rfl⟩).1
          exact (hal r (by omega) hpa) p hp ⟨op, l, r, k, Or.inr rfl⟩
    | csg op l r =>
      simp only [hkind] at hal
      have hint : (h.obj a).kind.intersectable := by rw [hkind]; rfl
      have under := transform_fresh_under argsort m (fuel + 1) a hi ht ha hint hrfull
      have frame := transform_aobb_frame argsort m (fuel + 1) a hi ht ha hint hrfull
      intro p hp
      rw [hstf.1] at hp
      by_cases hu : Under h a p
      · exact under p hu
      · intro op2 l2 r2 k
        rw [(hstf.2.2 p).1] at k
        have pl : IsParent h p l2 := ⟨op2, l2, r2, k, Or.inl rfl⟩
        have pr : IsParent h p r2 := ⟨op2, l2, r2, k, Or.inr rfl⟩
        have cl := (hi.children p l2 hp pl).1
        have cr := (hi.children p r2 hp pr).1
        have nu : ∀ y, IsParent h p y → ¬ Under h a y := by
          intro y hy hua
          cases hua with
          | refl => exact hal p hp hy
          | @step q _ hq hqy =>
            have hqs := hq.le hi.toStruct ha
            have := ht.unique q p y (by omega) hp hqy hy
            exact hu (this ▸ hq)
        rw [frame p hu (hal p hp) hp, frame l2 (nu l2 pl) (hal l2 (by omega)) (by omega),
          frame r2 (nu r2 pr) (hal r2 (by omega)) (by omega)]
        exact hf p hp op2 l2 r2 k
    | group ms =>
      simp only [hkind] at hal e2
      have hnotint : ¬ (h.obj a).kind.intersectable := by rw [hkind]; simp [Kind.intersectable]
      have hf1 : AllFresh argsort h1 := by
        intro p hp op l r k
        rw [hst.1] at hp
        rw [(hst.2.2 p).1] at k
        have pl : IsParent h p l := ⟨op, l, r, k, Or.inl rfl⟩
        have pr : IsParent h p r := ⟨op, l, r, k, Or.inr rfl⟩
        have cl := hi.children p l hp pl
        have cr := hi.children p r hp pr
        have unch : ∀ x, (h.obj x).kind.intersectable → (h1.obj x).aobb = (h.obj x).aobb := by
          intro x hx
          apply appendOwn_aobb argsort e1
          intro hm
          rcases hi.toStruct.box_watch ha hm with e | e
          · subst e; exact hnotint hx
          · exact hnotint (hi.children x a ((hi.watch_sound a ha _ hm).1) e).2
        rw [unch p (by rw [k]; rfl), unch l cl.2, unch r cr.2]
        exact hf p hp op l r k
      have hmem := hi.members a ha ms hkind
      have key : ∀ (bs : List ℕ) (h1 : Heap), Inv h1 → AllFresh argsort h1 → Static h h1 → (∀ b ∈ bs, b < h1.size) →
          (∀ b ∈ bs, Allowed h fuel b) →
          bs.foldl (fun (res : Res) b => res.andThen fun h => transform argsort fuel h b m) (h1, none) = (h', none) →
          AllFresh argsort h' := by
        intro bs
        induction bs with
        | nil =>
          intro h1 _ hp1 _ _ _ e
          simp only [List.foldl_nil, Prod.mk.injEq, and_true] at e
          rw [← e]; exact hp1
        | cons b bs ihb =>
          intro h1 hi1 hp1 hst hlt hall e
          rw [List.foldl_cons] at e
          rcases hh : transform argsort fuel h1 b m with ⟨h2, er⟩
          have e' : (Res.andThen (h1, none) fun h => transform argsort fuel h b m) = (h2, er) := hh
          rw [e'] at e
          cases er with
          | some er => rw [foldl_andThen_err] at e; simp at e
          | none =>
            obtain ⟨hi2, mm⟩ := transform_ok argsort m fuel b hi1 (hlt b (by simp)) hh
            exact ihb h2 hi2 (ih b hi1 (hst.tidy ht) (hlt b (by simp)) ((hst.allowed _ _).2 (hall b (by simp))) hp1 hh)
              (hst.trans mm.1)
              (fun x hx => by rw [mm.1.1]; exact hlt x (by simp [hx])) (fun x hx => hall x (by simp [hx])) e
      exact key ms h1 hi1 hf1 hst (fun b hb => by rw [hst.1]; exact hmem b hb) hal e2
    | plain =>
      simp only [hkind, Prod.mk.injEq, and_true] at e2
      subst e2
      have hnotint : ¬ (h.obj a).kind.intersectable := by rw [hkind]; simp [Kind.intersectable]
      intro p hp op l r k
      rw [hst.1] at hp
      rw [(hst.2.2 p).1] at k
      have pl : IsParent h p l := ⟨op, l, r, k, Or.inl rfl⟩
      have pr : IsParent h p r := ⟨op, l, r, k, Or.inr rfl⟩
      have cl := hi.children p l hp pl
      have cr := hi.children p r hp pr
      have unch : ∀ x, (h.obj x).kind.intersectable → (h1.obj x).aobb = (h.obj x).aobb := by
        intro x hx
        apply appendOwn_aobb argsort e1
        intro hm
        rcases hi.toStruct.box_watch ha hm with e | e
        · subst e; exact hnotint hx
        · exact hnotint (hi.children x a ((hi.watch_sound a ha _ hm).1) e).2
      rw [unch p (by rw [k]; rfl), unch l cl.2, unch r cr.2]
      exact hf p hp op l r k

end PyRayT
