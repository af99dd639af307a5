import Verif.Model.World
import Verif.Spec.CsgHistory
import Verif.Proofs.Operations

/-! Helper lemmas on the object heap: frames of the handlers, invariants, effect of `transform`. -/

namespace PyRayT

open Classical Matrix

variable (argsort : List EReal → List ℕ)

@[simp] theorem Heap.set_size (h : Heap) (a : ℕ) (o : Obj) : (h.set a o).size = h.size := rfl
@[simp] theorem Heap.set_counter (h : Heap) (a : ℕ) (o : Obj) : (h.set a o).counter = h.counter := rfl
@[simp] theorem Heap.set_obj_self (h : Heap) (a : ℕ) (o : Obj) : (h.set a o).obj a = o := by
  simp [Heap.set]
theorem Heap.set_obj_ne (h : Heap) {a b : ℕ} (o : Obj) (hab : b ≠ a) : (h.set a o).obj b = h.obj b := by
  simp [Heap.set, hab]
@[simp] theorem Heap.set_set (h : Heap) (a : ℕ) (o o' : Obj) : (h.set a o).set a o' = h.set a o' := by
  simp [Heap.set]
theorem Heap.set_obj (h : Heap) (a b : ℕ) (o : Obj) : (h.set a o).obj b = if b = a then o else h.obj b := by
  simp [Heap.set, Function.update_apply]

/-- everything derived from the world matrix is up to date -/
def Synced (o : Obj) : Prop :=
  o.world.det ≠ 0 ∧ o.objT = o.world⁻¹ ∧ o.origin = o.world *ᵥ point 0 0 0 ∧
    1e-7 ≤ norm4 (o.world *ᵥ vector 0 0 1) ∧ o.dir = normalize (o.world *ᵥ vector 0 0 1)

/-- the box of a surface is up to date -/
def BoxSynced (o : Obj) : Prop := ∀ p, o.kind = .prim p → o.aobb = primBox o.world p

/-- same objects, kinds, ids, matrices, normal scales and watch lists -/
def Core (h h' : Heap) : Prop :=
  h'.size = h.size ∧ h'.counter = h.counter ∧ ∀ a, (h'.obj a).kind = (h.obj a).kind ∧
    (h'.obj a).oid = (h.obj a).oid ∧ (h'.obj a).world = (h.obj a).world ∧
    (h'.obj a).nscale = (h.obj a).nscale ∧ (h'.obj a).watch = (h.obj a).watch

theorem Core.refl (h : Heap) : Core h h := ⟨rfl, rfl, fun _ => ⟨rfl, rfl, rfl, rfl, rfl⟩⟩

theorem Core.trans {h h' h'' : Heap} (h1 : Core h h') (h2 : Core h' h'') : Core h h'' := by
  refine ⟨h2.1.trans h1.1, h2.2.1.trans h1.2.1, fun a => ?_⟩
  obtain ⟨a1, a2, a3, a4, a5⟩ := h1.2.2 a
  obtain ⟨b1, b2, b3, b4, b5⟩ := h2.2.2 a
  exact ⟨b1.trans a1, b2.trans a2, b3.trans a3, b4.trans a4, b5.trans a5⟩

theorem Core.set {h : Heap} {a : ℕ} {o : Obj} (h1 : o.kind = (h.obj a).kind) (h2 : o.oid = (h.obj a).oid)
    (h3 : o.world = (h.obj a).world) (h4 : o.nscale = (h.obj a).nscale) (h5 : o.watch = (h.obj a).watch) :
    Core h (h.set a o) := by
  refine ⟨rfl, rfl, fun b => ?_⟩
  by_cases hb : b = a
  · subst hb; simp [h1, h2, h3, h4, h5]
  · rw [Heap.set_obj_ne _ _ hb]; exact ⟨rfl, rfl, rfl, rfl, rfl⟩

/-- address a handler belongs to -/
def Handler.addr : Handler → ℕ
  | .matrix a => a
  | .box a => a

theorem runHandler_core (h : Heap) (hd : Handler) : Core h (runHandler argsort h hd).1 := by
  cases hd with
  | matrix a =>
    simp only [runHandler]
    split
    · exact Core.set rfl rfl rfl rfl rfl
    · split
      · simp only [Heap.set_obj_self, Heap.set_set]; exact Core.set rfl rfl rfl rfl rfl
      · simp only [Heap.set_obj_self, Heap.set_set]; exact Core.set rfl rfl rfl rfl rfl
  | box a =>
    simp only [runHandler]
    split
    · exact Core.set rfl rfl rfl rfl rfl
    · exact Core.set rfl rfl rfl rfl rfl
    · exact Core.refl h

theorem runHandler_frame (h : Heap) (hd : Handler) {b : ℕ} (hb : b ≠ hd.addr) :
    (runHandler argsort h hd).1.obj b = h.obj b := by
  cases hd with
  | matrix a =>
    simp only [runHandler]
    simp only [Handler.addr] at hb
    split
    · exact Heap.set_obj_ne _ _ hb
    · split <;> simp only [Heap.set_obj_self, Heap.set_set] <;> exact Heap.set_obj_ne _ _ hb
  | box a =>
    simp only [runHandler]
    simp only [Handler.addr] at hb
    split
    · exact Heap.set_obj_ne _ _ hb
    · exact Heap.set_obj_ne _ _ hb
    · rfl

theorem runHandler_matrix_ok {h h' : Heap} {a : ℕ} (hr : runHandler argsort h (.matrix a) = (h', none)) :
    h' = h.set a { h.obj a with
      origin := (h.obj a).world *ᵥ point 0 0 0
      dir := normalize ((h.obj a).world *ᵥ vector 0 0 1)
      objT := (h.obj a).world⁻¹ } ∧ (h.obj a).world.det ≠ 0 ∧
      1e-7 ≤ norm4 ((h.obj a).world *ᵥ vector 0 0 1) := by
  simp only [runHandler] at hr
  split at hr
  · simp at hr
  · rename_i hn
    split at hr
    · simp at hr
    · rename_i hdet
      simp only [Heap.set_obj_self, Heap.set_set, Prod.mk.injEq, and_true] at hr
      exact ⟨hr.symm, hdet, not_lt.1 hn⟩

theorem runHandler_box_ok (h : Heap) (a : ℕ) : (runHandler argsort h (.box a)).2 = none := by
  simp only [runHandler]
  split <;> rfl

theorem runHandler_synced {h h' : Heap} {hd : Handler} (hr : runHandler argsort h hd = (h', none)) (b : ℕ)
    (hs : Synced (h.obj b)) : Synced (h'.obj b) := by
  cases hd with
  | matrix a =>
    obtain ⟨rfl, hdet, hn⟩ := runHandler_matrix_ok argsort hr
    by_cases hb : b = a
    · subst hb; rw [Heap.set_obj_self]; exact ⟨hdet, rfl, rfl, hn, rfl⟩
    · rw [Heap.set_obj_ne _ _ hb]; exact hs
  | box a =>
    by_cases hb : b = a
    · subst hb
      simp only [runHandler] at hr
      split at hr
      · simp only [Prod.mk.injEq, and_true] at hr; rw [← hr, Heap.set_obj_self]; exact hs
      · simp only [Prod.mk.injEq, and_true] at hr; rw [← hr, Heap.set_obj_self]; exact hs
      · simp only [Prod.mk.injEq, and_true] at hr; rw [← hr]; exact hs
    · have := runHandler_frame argsort h (.box a) (b := b) hb
      rw [hr] at this; rw [this]; exact hs

theorem runHandler_matrix_synced {h h' : Heap} {a : ℕ} (hr : runHandler argsort h (.matrix a) = (h', none)) :
    Synced (h'.obj a) := by
  obtain ⟨rfl, hdet, hn⟩ := runHandler_matrix_ok argsort hr
  rw [Heap.set_obj_self]; exact ⟨hdet, rfl, rfl, hn, rfl⟩

theorem runHandler_boxSynced {h h' : Heap} {hd : Handler} (hr : runHandler argsort h hd = (h', none)) (b : ℕ)
    (hs : BoxSynced (h.obj b)) : BoxSynced (h'.obj b) := by
  cases hd with
  | matrix a =>
    obtain ⟨rfl, hdet, hn⟩ := runHandler_matrix_ok argsort hr
    by_cases hb : b = a
    · subst hb; rw [Heap.set_obj_self]; exact hs
    · rw [Heap.set_obj_ne _ _ hb]; exact hs
  | box a =>
    by_cases hb : b = a
    · subst hb
      simp only [runHandler] at hr
      split at hr
      · rename_i q hk
        simp only [Prod.mk.injEq, and_true] at hr; rw [← hr, Heap.set_obj_self]
        intro p hp
        simp only at hp
        rw [hk] at hp
        cases hp
        rfl
      · rename_i hk
        simp only [Prod.mk.injEq, and_true] at hr; rw [← hr, Heap.set_obj_self]
        intro p hp
        simp only at hp
        rw [hk] at hp
        cases hp
      · simp only [Prod.mk.injEq, and_true] at hr; rw [← hr]; exact hs
    · have := runHandler_frame argsort h (.box a) (b := b) hb
      rw [hr] at this; rw [this]; exact hs

theorem runHandler_box_boxSynced {h h' : Heap} {a : ℕ} (hr : runHandler argsort h (.box a) = (h', none)) :
    BoxSynced (h'.obj a) := by
  intro p hp
  simp only [runHandler] at hr
  split at hr
  · rename_i q hk
    simp only [Prod.mk.injEq, and_true] at hr
    rw [← hr, Heap.set_obj_self] at hp ⊢
    simp only at hp
    rw [hk] at hp
    cases hp
    rfl
  · rename_i hk
    simp only [Prod.mk.injEq, and_true] at hr
    rw [← hr, Heap.set_obj_self] at hp
    simp only at hp
    rw [hk] at hp; cases hp
  · rename_i h1 h2
    simp only [Prod.mk.injEq, and_true] at hr
    rw [← hr] at hp
    exact absurd hp (h1 p)

theorem Res.andThen_ok {r : Res} {f : Heap → Res} {h : Heap} (hr : r.andThen f = (h, none)) :
    ∃ h1, r = (h1, none) ∧ f h1 = (h, none) := by
  obtain ⟨h1, e⟩ := r
  cases e with
  | none => exact ⟨h1, rfl, hr⟩
  | some e => simp [Res.andThen] at hr

theorem runHandlers_core (hs : List Handler) : ∀ h : Heap, Core h (runHandlers argsort h hs).1 := by
  induction hs with
  | nil => intro h; exact Core.refl h
  | cons hd tl ih =>
    intro h
    have h1 := runHandler_core argsort h hd
    simp only [runHandlers]
    rcases hh : runHandler argsort h hd with ⟨h', e⟩
    rw [hh] at h1
    cases e with
    | none => exact h1.trans (ih h')
    | some e => exact h1

theorem runHandlers_frame (hs : List Handler) : ∀ (h : Heap) (b : ℕ), (∀ hd ∈ hs, b ≠ hd.addr) →
    (runHandlers argsort h hs).1.obj b = h.obj b := by
  induction hs with
  | nil => intro h b _; rfl
  | cons hd tl ih =>
    intro h b hb
    have h1 := runHandler_frame argsort h hd (hb hd (by simp))
    simp only [runHandlers]
    rcases hh : runHandler argsort h hd with ⟨h', e⟩
    rw [hh] at h1
    cases e with
    | none => exact (ih h' b fun x hx => hb x (by simp [hx])).trans h1
    | some e => exact h1

theorem runHandlers_synced (hs : List Handler) : ∀ {h h' : Heap}, runHandlers argsort h hs = (h', none) →
    ∀ b, (Synced (h.obj b) ∨ .matrix b ∈ hs) → Synced (h'.obj b) := by
  induction hs with
  | nil =>
    intro h h' hr b hb
    simp only [runHandlers, Prod.mk.injEq, and_true] at hr
    rw [← hr]
    simpa using hb
  | cons hd tl ih =>
    intro h h' hr b hb
    obtain ⟨h1, e1, e2⟩ := Res.andThen_ok hr
    refine ih e2 b ?_
    rcases hb with hb | hb
    · exact Or.inl (runHandler_synced argsort e1 b hb)
    · rcases List.mem_cons.1 hb with hb | hb
      · left; rw [← hb] at e1; exact runHandler_matrix_synced argsort e1
      · exact Or.inr hb

theorem runHandlers_boxSynced (hs : List Handler) : ∀ {h h' : Heap}, runHandlers argsort h hs = (h', none) →
    ∀ b, (BoxSynced (h.obj b) ∨ .box b ∈ hs) → BoxSynced (h'.obj b) := by
  induction hs with
  | nil =>
    intro h h' hr b hb
    simp only [runHandlers, Prod.mk.injEq, and_true] at hr
    rw [← hr]
    simpa using hb
  | cons hd tl ih =>
    intro h h' hr b hb
    obtain ⟨h1, e1, e2⟩ := Res.andThen_ok hr
    refine ih e2 b ?_
    rcases hb with hb | hb
    · exact Or.inl (runHandler_boxSynced argsort e1 b hb)
    · rcases List.mem_cons.1 hb with hb | hb
      · left; rw [← hb] at e1; exact runHandler_box_boxSynced argsort e1
      · exact Or.inr hb

/-! ### the invariant -/

/-- structural invariant: watch lists, addresses, ids -/
structure Struct (h : Heap) : Prop where
  self_matrix : ∀ a < h.size, Handler.matrix a ∈ (h.obj a).watch
  own_first : ∀ a < h.size, (h.obj a).kind.intersectable → ∃ rest,
    (h.obj a).watch = .matrix a :: .box a :: rest ∧ ∀ hd ∈ rest, IsParent h hd.addr a
  watch_sound : ∀ a < h.size, ∀ hd ∈ (h.obj a).watch, hd.addr < h.size ∧ (hd.addr = a ∨ IsParent h hd.addr a)
  children : ∀ p a, p < h.size → IsParent h p a → a < p ∧ (h.obj a).kind.intersectable
  attached : ∀ p a, p < h.size → IsParent h p a → Handler.matrix p ∈ (h.obj a).watch ∧ Handler.box p ∈ (h.obj a).watch
  members : ∀ g < h.size, ∀ ms, (h.obj g).kind = .group ms → ∀ m ∈ ms, m < h.size
  ids : ∀ a b, a < b → b < h.size → (h.obj a).oid < (h.obj b).oid
  ids_lt : ∀ a < h.size, (h.obj a).oid < h.counter

theorem Struct.self_box {h : Heap} (hi : Struct h) (a : ℕ) (ha : a < h.size) (hk : (h.obj a).kind.intersectable) :
    Handler.box a ∈ (h.obj a).watch := by
  obtain ⟨rest, hr, -⟩ := hi.own_first a ha hk
  rw [hr]; simp

/-- structure plus up-to-date derived attributes -/
structure Inv (h : Heap) : Prop extends Struct h where
  synced : ∀ a < h.size, Synced (h.obj a)
  boxes : ∀ a < h.size, BoxSynced (h.obj a)

/-- same objects, kinds, ids, normal scales and watch lists (world matrices may differ) -/
def Static (h h' : Heap) : Prop :=
  h'.size = h.size ∧ h'.counter = h.counter ∧ ∀ a, (h'.obj a).kind = (h.obj a).kind ∧
    (h'.obj a).oid = (h.obj a).oid ∧ (h'.obj a).nscale = (h.obj a).nscale ∧ (h'.obj a).watch = (h.obj a).watch

theorem Core.static {h h' : Heap} (hc : Core h h') : Static h h' :=
  ⟨hc.1, hc.2.1, fun a => by obtain ⟨a1, a2, a3, a4, a5⟩ := hc.2.2 a; exact ⟨a1, a2, a4, a5⟩⟩

theorem Static.refl (h : Heap) : Static h h := (Core.refl h).static

theorem Static.trans {h h' h'' : Heap} (h1 : Static h h') (h2 : Static h' h'') : Static h h'' := by
  refine ⟨h2.1.trans h1.1, h2.2.1.trans h1.2.1, fun a => ?_⟩
  obtain ⟨a1, a2, a3, a4⟩ := h1.2.2 a
  obtain ⟨b1, b2, b3, b4⟩ := h2.2.2 a
  exact ⟨b1.trans a1, b2.trans a2, b3.trans a3, b4.trans a4⟩

theorem Static.isParent {h h' : Heap} (hs : Static h h') (p a : ℕ) : IsParent h' p a ↔ IsParent h p a := by
  unfold IsParent; rw [(hs.2.2 p).1]

theorem Static.struct {h h' : Heap} (hs : Static h h') (hi : Struct h) : Struct h' where
  self_matrix a ha := by rw [hs.1] at ha; rw [(hs.2.2 a).2.2.2]; exact hi.self_matrix a ha
  own_first a ha := by
    rw [hs.1] at ha; rw [(hs.2.2 a).2.2.2, (hs.2.2 a).1]; simp only [hs.isParent]; exact hi.own_first a ha
  watch_sound a ha hd := by
    rw [hs.1] at ha; rw [(hs.2.2 a).2.2.2, hs.1, hs.isParent]; exact hi.watch_sound a ha hd
  children p a hp := by rw [hs.1] at hp; rw [hs.isParent, (hs.2.2 a).1]; exact hi.children p a hp
  attached p a hp := by rw [hs.1] at hp; rw [hs.isParent, (hs.2.2 a).2.2.2]; exact hi.attached p a hp
  members g hg ms := by rw [hs.1] at hg ⊢; rw [(hs.2.2 g).1]; exact hi.members g hg ms
  ids a b hab hb := by rw [hs.1] at hb; rw [(hs.2.2 a).2.1, (hs.2.2 b).2.1]; exact hi.ids a b hab hb
  ids_lt a ha := by rw [hs.1] at ha; rw [(hs.2.2 a).2.1, hs.2.1]; exact hi.ids_lt a ha

/-- effect of a movement on the world matrices: object `b` is multiplied `f b` times by `m` -/
def Moves (m : Mat4) (f : ℕ → ℕ) (h h' : Heap) : Prop :=
  Static h h' ∧ ∀ b, (h'.obj b).world = m ^ f b * (h.obj b).world

theorem Moves.refl (m : Mat4) (h : Heap) : Moves m (fun _ => 0) h h :=
  ⟨Static.refl h, fun b => by simp⟩

theorem Moves.trans {m : Mat4} {f g : ℕ → ℕ} {h h' h'' : Heap} (h1 : Moves m f h h') (h2 : Moves m g h' h'') :
    Moves m (fun b => f b + g b) h h'' := by
  refine ⟨h1.1.trans h2.1, fun b => ?_⟩
  rw [h2.2 b, h1.2 b, ← mul_assoc, ← pow_add, Nat.add_comm]

theorem appendOwn_static (h : Heap) (a : ℕ) (m : Mat4) : Static h (appendOwn argsort h a m).1 := by
  unfold appendOwn
  simp only
  refine Static.trans ?_ (runHandlers_core argsort _ _).static
  refine ⟨rfl, rfl, fun b => ?_⟩
  by_cases hb : b = a
  · subst hb; rw [Heap.set_obj_self]; exact ⟨rfl, rfl, rfl, rfl⟩
  · rw [Heap.set_obj_ne _ _ hb]; exact ⟨rfl, rfl, rfl, rfl⟩

theorem appendOwn_moves (h : Heap) (a : ℕ) (m : Mat4) :
    Moves m (fun b => if b = a then 1 else 0) h (appendOwn argsort h a m).1 := by
  refine ⟨appendOwn_static argsort h a m, fun b => ?_⟩
  unfold appendOwn
  simp only
  rw [((runHandlers_core argsort _ _).2.2 b).2.2.1]
  by_cases hb : b = a
  · subst hb; simp
  · rw [Heap.set_obj_ne _ _ hb]; simp [hb]

theorem appendOwn_inv {h h' : Heap} (hi : Inv h) {a : ℕ} (ha : a < h.size) {m : Mat4}
    (hr : appendOwn argsort h a m = (h', none)) : Inv h' := by
  have hst := appendOwn_static argsort h a m
  rw [hr] at hst
  unfold appendOwn at hr
  simp only [Heap.set_obj_self] at hr
  refine { hst.struct hi.toStruct with synced := ?_, boxes := ?_ }
  · intro b hb
    apply runHandlers_synced argsort _ hr b
    by_cases hba : b = a
    · right; subst hba; exact hi.self_matrix b ha
    · left; rw [Heap.set_obj_ne _ _ hba]; exact hi.synced b (by rw [← hst.1]; exact hb)
  · intro b hb
    by_cases hba : b = a
    · subst hba
      by_cases hk : (h.obj b).kind.intersectable
      · exact runHandlers_boxSynced argsort _ hr b (Or.inr (hi.self_box b ha hk))
      · intro p hp
        rw [(hst.2.2 b).1] at hp
        rw [hp] at hk
        simp [Kind.intersectable] at hk
    · apply runHandlers_boxSynced argsort _ hr b
      left; rw [Heap.set_obj_ne _ _ hba]; exact hi.boxes b (by rw [← hst.1]; exact hb)

/-- The addresses visited by a movement of `a`, in order, read off the kinds alone: the object itself,
then the children / members, recursively. -/
def Spec.visits (kind : ℕ → Kind) : ℕ → ℕ → List ℕ
  | 0, _ => []
  | fuel + 1, a => a :: match kind a with
    | .csg _ l r => visits kind fuel l ++ visits kind fuel r
    | .group ms => ms.flatMap (visits kind fuel)
    | _ => []

theorem Static.kinds {h h' : Heap} (hs : Static h h') : (fun a => (h'.obj a).kind) = fun a => (h.obj a).kind := by
  funext a; exact (hs.2.2 a).1

theorem foldl_andThen_err (ms : List ℕ) (f : Heap → ℕ → Res) (h : Heap) (e : Err) :
    ms.foldl (fun (res : Res) b => res.andThen fun h => f h b) (h, some e) = (h, some e) := by
  induction ms with
  | nil => rfl
  | cons b bs ih => exact ih

/-- Effect of a successful movement: the invariant is kept and every object's world matrix is multiplied by
`m` once per visit. -/
theorem transform_ok (m : Mat4) : ∀ (fuel : ℕ) {h h' : Heap} (a : ℕ), Inv h → a < h.size →
    transform argsort fuel h a m = (h', none) →
    Inv h' ∧ Moves m (fun b => (Spec.visits (fun a => (h.obj a).kind) fuel a).count b) h h' := by
  intro fuel
  induction fuel with
  | zero => intro h h' a _ _ hr; simp [transform] at hr
  | succ fuel ih =>
    intro h h' a hi ha hr
    unfold transform at hr
    obtain ⟨h1, e1, e2⟩ := Res.andThen_ok hr
    have hi1 := appendOwn_inv argsort hi ha e1
    have hm1 := appendOwn_moves argsort h a m
    rw [e1] at hm1
    have hk : (h1.obj a).kind = (h.obj a).kind := (hm1.1.2.2 a).1
    have hkinds := hm1.1.kinds
    have hsize : h1.size = h.size := hm1.1.1
    have hone : (fun b => if b = a then 1 else 0) = fun b => List.count b [a] := by
      funext b
      by_cases hb : b = a
      · subst hb; simp
      · rw [if_neg hb, List.count_eq_zero_of_not_mem (by simpa using hb)]
    rw [hone] at hm1
    simp only [hk] at e2
    rw [Spec.visits]
    split at e2
    · rename_i op l r hkind
      have hch : l < a ∧ r < a := by
        have hl := hi.children a l ha ⟨op, l, r, hkind, Or.inl rfl⟩
        have hr := hi.children a r ha ⟨op, l, r, hkind, Or.inr rfl⟩
        exact ⟨hl.1, hr.1⟩
      obtain ⟨h2, e3, e4⟩ := Res.andThen_ok e2
      obtain ⟨hi2, hm2⟩ := ih l hi1 (by omega) e3
      have hsize2 := hm2.1.1
      obtain ⟨hi3, hm3⟩ := ih r hi2 (by omega) e4
      refine ⟨hi3, ?_⟩
      have := (hm1.trans hm2).trans hm3
      rw [hm2.1.kinds, hkinds] at this
      simp only [hkind]
      convert this using 1
      funext b
      rw [List.count_cons, List.count_append, List.count_singleton]
      omega
    · rename_i ms hkind
      have hmem := hi.members a ha ms hkind
      simp only [hkind]
      have key : ∀ (bs : List ℕ) (h1 : Heap), Inv h1 → (∀ b ∈ bs, b < h1.size) →
          (fun a => (h1.obj a).kind) = (fun a => (h.obj a).kind) →
          bs.foldl (fun (res : Res) b => res.andThen fun h => transform argsort fuel h b m) (h1, none) = (h', none) →
          Inv h' ∧ Moves m (fun b => (bs.flatMap (Spec.visits (fun a => (h.obj a).kind) fuel)).count b) h1 h' := by
        intro bs
        induction bs with
        | nil =>
          intro h1 hi1 _ _ e
          simp only [List.foldl_nil, Prod.mk.injEq, and_true] at e
          subst e
          exact ⟨hi1, by simpa using Moves.refl m h1⟩
        | cons b bs ihb =>
          intro h1 hi1 hlt hkk e
          rw [List.foldl_cons] at e
          rcases hh : transform argsort fuel h1 b m with ⟨h2, er⟩
          have e' : (Res.andThen (h1, none) fun h => transform argsort fuel h b m) = (h2, er) := hh
          rw [e'] at e
          cases er with
          | some er => rw [foldl_andThen_err] at e; simp at e
          | none =>
            obtain ⟨hi2, hm2⟩ := ih b hi1 (hlt b (by simp)) hh
            obtain ⟨hi3, hm3⟩ := ihb h2 hi2 (fun x hx => by rw [hm2.1.1]; exact hlt x (by simp [hx]))
              (hm2.1.kinds.trans hkk) e
            refine ⟨hi3, ?_⟩
            have := hm2.trans hm3
            rw [hkk] at this
            convert this using 1
            funext x
            rw [List.flatMap_cons, List.count_append]
      obtain ⟨hi2, hm2⟩ := key ms h1 hi1 (fun b hb => by rw [hsize]; exact hmem b hb) hkinds e2
      refine ⟨hi2, ?_⟩
      have := hm1.trans hm2
      convert this using 1
      funext b
      rw [List.count_cons, List.count_singleton]
      omega
    · rename_i hn1 hn2
      simp only [Prod.mk.injEq, and_true] at e2
      subst e2
      refine ⟨hi1, ?_⟩
      convert hm1 using 1
      funext b
      split
      · rename_i op l r hk2; exact absurd hk2 (hn1 op l r)
      · rename_i ms hk2; exact absurd hk2 (hn2 ms)
      · rfl

/-! ### construction preserves the invariant -/

theorem alloc_obj_lt (h : Heap) (k : Kind) (b : Box) (ex : List Handler) {a : ℕ} (ha : a < h.size) :
    (h.alloc k b ex).obj a = h.obj a := by
  simp [Heap.alloc, Function.update_apply, ha.ne]

theorem alloc_obj_self (h : Heap) (k : Kind) (b : Box) (ex : List Handler) :
    (h.alloc k b ex).obj h.size = ⟨k, h.counter, 1, 1, point 0 0 0, vector 0 0 1, b, 1, .matrix h.size :: ex⟩ := by
  simp [Heap.alloc]

theorem det_one4 : (1 : Mat4).det ≠ 0 := by simp

theorem norm4_z : norm4 (vector 0 0 1) = 1 := by simp [norm4, vector]

theorem synced_init (k : Kind) (i : ℕ) (b : Box) (ns : ℝ) (w : List Handler) :
    Synced ⟨k, i, 1, 1, point 0 0 0, vector 0 0 1, b, ns, w⟩ := by
  refine ⟨det_one4, by simp, by simp, ?_, ?_⟩
  · simp only [one_mulVec, norm4_z]; norm_num
  · simp only [one_mulVec]
    symm
    apply normalize_of_unit
    simp [dot4, vector]

theorem primBox_one (p : Prim) : primBox 1 p = boundingBox (cornerPoints p.boundSpans) := by
  unfold primBox; simp

/-- allocating an object that is not a CSG object -/
theorem alloc_inv {h : Heap} (hi : Inv h) (k : Kind) (bx : Box) (ex : List Handler)
    (hcsg : ∀ op l r, k ≠ .csg op l r)
    (hbox : ∀ p, k = .prim p → bx = primBox 1 p)
    (hex : k.intersectable → ex = [.box h.size])
    (hex2 : ∀ hd ∈ ex, hd.addr = h.size)
    (hmem : ∀ ms, k = .group ms → ∀ m ∈ ms, m < h.size) : Inv (h.alloc k bx ex) := by
  have hsz : (h.alloc k bx ex).size = h.size + 1 := rfl
  have hlt := fun {a : ℕ} (ha : a < h.size) => alloc_obj_lt h k bx ex ha
  have hself := alloc_obj_self h k bx ex
  have hpar : ∀ p a, p < h.size + 1 → IsParent (h.alloc k bx ex) p a → p < h.size ∧ IsParent h p a := by
    intro p a hp hpar
    rcases Nat.lt_succ_iff_lt_or_eq.1 hp with hp | hp
    · refine ⟨hp, ?_⟩
      unfold IsParent at hpar ⊢
      rwa [hlt hp] at hpar
    · subst hp
      obtain ⟨op, l, r, hk, -⟩ := hpar
      rw [hself] at hk
      exact absurd hk (hcsg op l r)
  have hpar' : ∀ p a, p < h.size → IsParent h p a → IsParent (h.alloc k bx ex) p a := by
    intro p a hp hpar
    unfold IsParent at hpar ⊢
    rwa [hlt hp]
  constructor
  · constructor
    · intro a ha
      rcases Nat.lt_succ_iff_lt_or_eq.1 ha with ha | ha
      · rw [hlt ha]; exact hi.self_matrix a ha
      · subst ha; rw [hself]; simp
    · intro a ha
      rcases Nat.lt_succ_iff_lt_or_eq.1 ha with ha | ha
      · rw [hlt ha]; intro hk
        obtain ⟨rest, e1, e2⟩ := hi.own_first a ha hk
        refine ⟨rest, e1, fun hd hm => hpar' _ _ ?_ (e2 hd hm)⟩
        exact (hi.watch_sound a ha hd (by rw [e1]; simp [hm])).1
      · subst ha; rw [hself]; intro hk; exact ⟨[], by rw [hex hk], by simp⟩
    · intro a ha hd hmem
      rcases Nat.lt_succ_iff_lt_or_eq.1 ha with ha | ha
      · rw [hlt ha] at hmem
        obtain ⟨h1, h2⟩ := hi.watch_sound a ha hd hmem
        refine ⟨by rw [hsz]; omega, ?_⟩
        rcases h2 with h2 | h2
        · exact Or.inl h2
        · exact Or.inr (hpar' _ _ h1 h2)
      · subst ha; rw [hself] at hmem
        have : hd.addr = h.size := by
          rcases List.mem_cons.1 hmem with e | e
          · rw [e]; rfl
          · exact hex2 hd e
        exact ⟨by rw [hsz]; omega, Or.inl this⟩
    · intro p a hp hpa
      obtain ⟨hp', hpa'⟩ := hpar p a hp hpa
      obtain ⟨h1, h2⟩ := hi.children p a hp' hpa'
      rw [hlt (by omega)]; exact ⟨h1, h2⟩
    · intro p a hp hpa
      obtain ⟨hp', hpa'⟩ := hpar p a hp hpa
      have h1 := (hi.children p a hp' hpa').1
      rw [hlt (by omega)]; exact hi.attached p a hp' hpa'
    · intro g hg ms hk m hm
      rcases Nat.lt_succ_iff_lt_or_eq.1 hg with hg | hg
      · rw [hlt hg] at hk; have := hi.members g hg ms hk m hm; rw [hsz]; omega
      · subst hg; rw [hself] at hk; have := hmem ms hk m hm; rw [hsz]; omega
    · intro a b hab hb
      rcases Nat.lt_succ_iff_lt_or_eq.1 hb with hb | hb
      · rw [hlt hb, hlt (by omega)]; exact hi.ids a b hab hb
      · subst hb; rw [hlt hab, hself]; exact hi.ids_lt a hab
    · intro a ha
      have hc : (h.alloc k bx ex).counter = h.counter + 1 := rfl
      rw [hc]
      rcases Nat.lt_succ_iff_lt_or_eq.1 ha with ha | ha
      · rw [hlt ha]; have := hi.ids_lt a ha; omega
      · subst ha; rw [hself]; simp
  · intro a ha
    rcases Nat.lt_succ_iff_lt_or_eq.1 ha with ha | ha
    · rw [hlt ha]; exact hi.synced a ha
    · subst ha; rw [hself]; exact synced_init _ _ _ _ _
  · intro a ha
    rcases Nat.lt_succ_iff_lt_or_eq.1 ha with ha | ha
    · rw [hlt ha]; exact hi.boxes a ha
    · subst ha; rw [hself]; intro p hp; exact hbox p hp

theorem newPrim_inv {h : Heap} (hi : Inv h) (p : Prim) : Inv (newPrim h p) := by
  apply alloc_inv hi
  · intro op l r hk; cases hk
  · intro q hq; cases hq; exact (primBox_one p).symm
  · intro _; rfl
  · intro hd hm; rw [List.mem_singleton] at hm; rw [hm]; rfl
  · intro ms hk; cases hk

theorem newPlain_inv {h : Heap} (hi : Inv h) : Inv (newPlain h) := by
  apply alloc_inv hi
  · intro op l r hk; cases hk
  · intro q hq; cases hq
  · intro hk; simp [Kind.intersectable] at hk
  · intro hd hm; simp at hm
  · intro ms hk; cases hk

theorem newGroup_inv {h : Heap} (hi : Inv h) (ms : List ℕ) (hms : ∀ m ∈ ms, m < h.size) : Inv (newGroup h ms) := by
  apply alloc_inv hi
  · intro op l r hk; cases hk
  · intro q hq; cases hq
  · intro hk; simp [Kind.intersectable] at hk
  · intro hd hm; simp at hm
  · intro ms' hk; cases hk; exact hms

theorem groupAppend_inv {h : Heap} (hi : Inv h) (g m : ℕ) (hm : m < h.size) : Inv (groupAppend h g m) := by
  unfold groupAppend
  split
  · rename_i ms hk
    have hpar : ∀ p a, IsParent (h.set g { h.obj g with kind := .group (ms ++ [m]) }) p a ↔ IsParent h p a := by
      intro p a
      unfold IsParent
      by_cases hp : p = g
      · subst hp
        rw [Heap.set_obj_self, hk]
        constructor <;> rintro ⟨_, _, _, hx, _⟩ <;> cases hx
      · rw [Heap.set_obj_ne _ _ hp]
    have hkind : ∀ a, ((h.set g { h.obj g with kind := .group (ms ++ [m]) }).obj a).kind.intersectable =
        (h.obj a).kind.intersectable := by
      intro a
      by_cases ha : a = g
      · subst ha; rw [Heap.set_obj_self, hk]; rfl
      · rw [Heap.set_obj_ne _ _ ha]
    have hw : ∀ a, ((h.set g { h.obj g with kind := .group (ms ++ [m]) }).obj a).watch = (h.obj a).watch := by
      intro a
      by_cases ha : a = g
      · subst ha; rw [Heap.set_obj_self]
      · rw [Heap.set_obj_ne _ _ ha]
    have ho : ∀ a, ((h.set g { h.obj g with kind := .group (ms ++ [m]) }).obj a).oid = (h.obj a).oid := by
      intro a
      by_cases ha : a = g
      · subst ha; rw [Heap.set_obj_self]
      · rw [Heap.set_obj_ne _ _ ha]
    constructor
    · constructor
      · intro a ha; rw [hw]; exact hi.self_matrix a ha
      · intro a ha; rw [hw, hkind]; simp only [hpar]; exact hi.own_first a ha
      · intro a ha hd; rw [hw, hpar]; exact hi.watch_sound a ha hd
      · intro p a hp; rw [hpar, hkind]; exact hi.children p a hp
      · intro p a hp; rw [hpar, hw]; exact hi.attached p a hp
      · intro g' hg' ms' hk' m' hm'
        by_cases hgg : g' = g
        · subst hgg; rw [Heap.set_obj_self] at hk'
          cases hk'
          rcases List.mem_append.1 hm' with h1 | h1
          · exact hi.members g' hg' ms hk m' h1
          · rw [List.mem_singleton] at h1; rw [h1]; exact hm
        · rw [Heap.set_obj_ne _ _ hgg] at hk'; exact hi.members g' hg' ms' hk' m' hm'
      · intro a b hab hb; rw [ho, ho]; exact hi.ids a b hab hb
      · intro a ha; rw [ho]; exact hi.ids_lt a ha
    · intro a ha
      by_cases hag : a = g
      · subst hag; rw [Heap.set_obj_self]; exact hi.synced a ha
      · rw [Heap.set_obj_ne _ _ hag]; exact hi.synced a ha
    · intro a ha
      by_cases hag : a = g
      · subst hag; rw [Heap.set_obj_self]; intro p hp; cases hp
      · rw [Heap.set_obj_ne _ _ hag]; exact hi.boxes a ha
  · exact hi

/-- equal up to the normal scales -/
def SameButNormals (h h' : Heap) : Prop :=
  h'.size = h.size ∧ h'.counter = h.counter ∧ ∀ a, h'.obj a = { h.obj a with nscale := (h'.obj a).nscale }

theorem SameButNormals.refl (h : Heap) : SameButNormals h h := ⟨rfl, rfl, fun _ => rfl⟩

theorem SameButNormals.trans {h h' h'' : Heap} (h1 : SameButNormals h h') (h2 : SameButNormals h' h'') :
    SameButNormals h h'' := by
  refine ⟨h2.1.trans h1.1, h2.2.1.trans h1.2.1, fun a => ?_⟩
  rw [h2.2.2 a, h1.2.2 a]

theorem invertNormals_same : ∀ (fuel : ℕ) (h : Heap) (a : ℕ), SameButNormals h (invertNormals fuel h a) := by
  intro fuel
  induction fuel with
  | zero => intro h a; exact SameButNormals.refl h
  | succ fuel ih =>
    intro h a
    unfold invertNormals
    split
    · exact (ih h _).trans (ih _ _)
    · refine ⟨rfl, rfl, fun b => ?_⟩
      by_cases hb : b = a
      · subst hb; rw [Heap.set_obj_self]
      · rw [Heap.set_obj_ne _ _ hb]

theorem SameButNormals.inv {h h' : Heap} (hs : SameButNormals h h') (hi : Inv h) : Inv h' := by
  have e := hs.2.2
  have hk : ∀ a, (h'.obj a).kind = (h.obj a).kind := fun a => by rw [e a]
  have hw : ∀ a, (h'.obj a).watch = (h.obj a).watch := fun a => by rw [e a]
  have ho : ∀ a, (h'.obj a).oid = (h.obj a).oid := fun a => by rw [e a]
  have hp : ∀ p a, IsParent h' p a ↔ IsParent h p a := fun p a => by unfold IsParent; rw [hk]
  constructor
  · constructor
    · intro a ha; rw [hw]; rw [hs.1] at ha; exact hi.self_matrix a ha
    · intro a ha; rw [hw, hk]; simp only [hp]; rw [hs.1] at ha; exact hi.own_first a ha
    · intro a ha hd; rw [hw, hp, hs.1]; rw [hs.1] at ha; exact hi.watch_sound a ha hd
    · intro p a hpp; rw [hp, hk]; rw [hs.1] at hpp; exact hi.children p a hpp
    · intro p a hpp; rw [hp, hw]; rw [hs.1] at hpp; exact hi.attached p a hpp
    · intro g hg ms; rw [hk, hs.1]; rw [hs.1] at hg; exact hi.members g hg ms
    · intro a b hab hb; rw [ho, ho]; rw [hs.1] at hb; exact hi.ids a b hab hb
    · intro a ha; rw [ho, hs.2.1]; rw [hs.1] at ha; exact hi.ids_lt a ha
  · intro a ha; rw [hs.1] at ha; have := hi.synced a ha; rw [e a]; exact this
  · intro a ha; rw [hs.1] at ha; have := hi.boxes a ha; rw [e a]; exact this

theorem attachTo_same (h : Heap) (c p a : ℕ) :
    (attachTo h c p).obj a = { h.obj a with watch := ((attachTo h c p).obj a).watch } := by
  unfold attachTo
  by_cases ha : a = c
  · subst ha; rw [Heap.set_obj_self]
  · rw [Heap.set_obj_ne _ _ ha]

theorem attachTo_watch (h : Heap) (c p a : ℕ) :
    ((attachTo h c p).obj a).watch = (h.obj a).watch ++ if a = c then (h.obj p).watch else [] := by
  unfold attachTo
  by_cases ha : a = c
  · subst ha; rw [Heap.set_obj_self]; simp
  · rw [Heap.set_obj_ne _ _ ha]; simp [ha]

/-- state after `attach_to` of both children, before the normals are touched -/
theorem attached_inv {h : Heap} (hi : Inv h) (op : Operation) (l r : ℕ) (hl : l < h.size) (hr : r < h.size)
    (hkl : (h.obj l).kind.intersectable) (hkr : (h.obj r).kind.intersectable) :
    Inv (attachTo (attachTo (h.alloc (.csg op l r) (fun _ => (0, 0)) [.box h.size]) l h.size) r h.size) := by
  set h1 := h.alloc (.csg op l r) (fun _ => (0, 0)) [.box h.size] with hh1
  set h2 := attachTo (attachTo h1 l h.size) r h.size with hh2
  have hsz : h2.size = h.size + 1 := rfl
  have hc : h2.counter = h.counter + 1 := rfl
  have hself1 := alloc_obj_self h (.csg op l r) (fun _ => (0, 0)) [.box h.size]
  have hlt1 := fun {a : ℕ} (ha : a < h.size) => alloc_obj_lt h (.csg op l r) (fun _ => (0, 0)) [.box h.size] ha
  -- only watch lists change
  have same : ∀ a, h2.obj a = { h1.obj a with watch := (h2.obj a).watch } := by
    intro a
    have e1 := attachTo_same h1 l h.size a
    have e2 := attachTo_same (attachTo h1 l h.size) r h.size a
    rw [e1] at e2
    exact e2
  have hself2 : h2.obj h.size = h1.obj h.size := by
    rw [hh2]; unfold attachTo
    rw [Heap.set_obj_ne _ _ hr.ne', Heap.set_obj_ne _ _ hl.ne']
  have hwp : ((attachTo h1 l h.size).obj h.size).watch = [.matrix h.size, .box h.size] := by
    unfold attachTo; rw [Heap.set_obj_ne _ _ hl.ne', hself1]
  have hw : ∀ a, a < h.size → (h2.obj a).watch = (h.obj a).watch ++ (if a = l then [.matrix h.size, .box h.size] else [])
      ++ (if a = r then [.matrix h.size, .box h.size] else []) := by
    intro a ha
    rw [hh2, attachTo_watch, attachTo_watch, hwp, hh1, hlt1 ha, hself1]
  have hkind : ∀ a, (h2.obj a).kind = (h1.obj a).kind := fun a => by rw [same a]
  have hkind_lt : ∀ a, a < h.size → (h2.obj a).kind = (h.obj a).kind := fun a ha => by rw [hkind, hh1, hlt1 ha]
  have hkind_self : (h2.obj h.size).kind = .csg op l r := by rw [hkind, hh1, hself1]
  have hoid_lt : ∀ a, a < h.size → (h2.obj a).oid = (h.obj a).oid := fun a ha => by rw [same a, hh1, hlt1 ha]
  have hpar : ∀ p a, p < h.size + 1 → IsParent h2 p a → (p < h.size ∧ IsParent h p a) ∨ (p = h.size ∧ (a = l ∨ a = r)) := by
    intro p a hp hpa
    rcases Nat.lt_succ_iff_lt_or_eq.1 hp with hp | hp
    · left; refine ⟨hp, ?_⟩
      unfold IsParent at hpa ⊢; rwa [hkind_lt p hp] at hpa
    · right; refine ⟨hp, ?_⟩
      obtain ⟨op', l', r', hk, hor⟩ := hpa
      rw [hp, hkind_self] at hk
      cases hk; exact hor
  have hpar' : ∀ p a, p < h.size → IsParent h p a → IsParent h2 p a := by
    intro p a hp hpa; unfold IsParent at hpa ⊢; rwa [hkind_lt p hp]
  have hparl : IsParent h2 h.size l := ⟨op, l, r, hkind_self, Or.inl rfl⟩
  have hparr : IsParent h2 h.size r := ⟨op, l, r, hkind_self, Or.inr rfl⟩
  have hsub : ∀ a, a < h.size → ∀ hd ∈ (h.obj a).watch, hd ∈ (h2.obj a).watch := by
    intro a ha hd hm; rw [hw a ha]; simp [hm]
  constructor
  · constructor
    · intro a ha
      rcases Nat.lt_succ_iff_lt_or_eq.1 ha with ha | ha
      · exact hsub a ha _ (hi.self_matrix a ha)
      · rw [ha, hself2, hh1, hself1]; simp
    · intro a ha
      rcases Nat.lt_succ_iff_lt_or_eq.1 ha with ha | ha
      · rw [hkind_lt a ha]; intro hk
        obtain ⟨rest, e1, e2⟩ := hi.own_first a ha hk
        rw [hw a ha, e1]
        refine ⟨_, rfl, fun hd hm => ?_⟩
        rcases List.mem_append.1 hm with hm | hm
        · rcases List.mem_append.1 hm with hm | hm
          · exact hpar' _ _ (hi.watch_sound a ha hd (by rw [e1]; simp [hm])).1 (e2 hd hm)
          · split at hm
            · rename_i hal
              have hadd : hd.addr = h.size := by
                simp only [List.mem_cons, List.not_mem_nil, or_false] at hm
                rcases hm with hm | hm <;> rw [hm] <;> rfl
              rw [hadd, hal]; exact hparl
            · simp at hm
        · split at hm
          · rename_i har
            have hadd : hd.addr = h.size := by
              simp only [List.mem_cons, List.not_mem_nil, or_false] at hm
              rcases hm with hm | hm <;> rw [hm] <;> rfl
            rw [hadd, har]; exact hparr
          · simp at hm
      · intro _; rw [ha, hself2, hh1, hself1]; exact ⟨[], rfl, by simp⟩
    · intro a ha hd hm
      rcases Nat.lt_succ_iff_lt_or_eq.1 ha with ha | ha
      · rw [hw a ha] at hm
        rcases List.mem_append.1 hm with hm | hm
        · rcases List.mem_append.1 hm with hm | hm
          · obtain ⟨k1, k2⟩ := hi.watch_sound a ha hd hm
            refine ⟨by rw [hsz]; omega, ?_⟩
            rcases k2 with k2 | k2
            · exact Or.inl k2
            · exact Or.inr (hpar' _ _ k1 k2)
          · split at hm
            · rename_i hal
              have hadd : hd.addr = h.size := by
                simp only [List.mem_cons, List.not_mem_nil, or_false] at hm
                rcases hm with hm | hm <;> rw [hm] <;> rfl
              refine ⟨by rw [hsz]; omega, Or.inr ?_⟩
              rw [hadd, hal]; exact hparl
            · simp at hm
        · split at hm
          · rename_i har
            have hadd : hd.addr = h.size := by
              simp only [List.mem_cons, List.not_mem_nil, or_false] at hm
              rcases hm with hm | hm <;> rw [hm] <;> rfl
            refine ⟨by rw [hsz]; omega, Or.inr ?_⟩
            rw [hadd, har]; exact hparr
          · simp at hm
      · rw [ha, hself2, hh1, hself1] at hm
        have hadd : hd.addr = h.size := by
          simp only [List.mem_cons, List.not_mem_nil, or_false] at hm
          rcases hm with hm | hm <;> rw [hm] <;> rfl
        exact ⟨by rw [hsz]; omega, Or.inl (by rw [hadd, ha])⟩
    · intro p a hp hpa
      rcases hpar p a hp hpa with ⟨hp', hpa'⟩ | ⟨rfl, ha⟩
      · obtain ⟨k1, k2⟩ := hi.children p a hp' hpa'
        rw [hkind_lt a (by omega)]; exact ⟨k1, k2⟩
      · rcases ha with rfl | rfl
        · rw [hkind_lt _ hl]; exact ⟨hl, hkl⟩
        · rw [hkind_lt _ hr]; exact ⟨hr, hkr⟩
    · intro p a hp hpa
      rcases hpar p a hp hpa with ⟨hp', hpa'⟩ | ⟨rfl, ha⟩
      · have k1 := (hi.children p a hp' hpa').1
        obtain ⟨k2, k3⟩ := hi.attached p a hp' hpa'
        exact ⟨hsub a (by omega) _ k2, hsub a (by omega) _ k3⟩
      · rcases ha with rfl | rfl
        · rw [hw _ hl]; simp
        · rw [hw _ hr]; simp
    · intro g hg ms hk m hm
      rcases Nat.lt_succ_iff_lt_or_eq.1 hg with hg | hg
      · rw [hkind_lt g hg] at hk; have := hi.members g hg ms hk m hm; rw [hsz]; omega
      · rw [hg, hkind_self] at hk; cases hk
    · intro a b hab hb
      rcases Nat.lt_succ_iff_lt_or_eq.1 hb with hb | hb
      · rw [hoid_lt a (by omega), hoid_lt b hb]; exact hi.ids a b hab hb
      · rw [hb] at hab ⊢; rw [hoid_lt a hab, hself2, hh1, hself1]; exact hi.ids_lt a hab
    · intro a ha
      rw [hc]
      rcases Nat.lt_succ_iff_lt_or_eq.1 ha with ha | ha
      · rw [hoid_lt a ha]; have := hi.ids_lt a ha; omega
      · rw [ha, hself2, hh1, hself1]; simp
  · intro a ha
    rcases Nat.lt_succ_iff_lt_or_eq.1 ha with ha | ha
    · rw [same a, hh1, hlt1 ha]; exact hi.synced a ha
    · rw [ha, hself2, hh1, hself1]; exact synced_init _ _ _ _ _
  · intro a ha
    rcases Nat.lt_succ_iff_lt_or_eq.1 ha with ha | ha
    · rw [same a, hh1, hlt1 ha]; exact hi.boxes a ha
    · rw [ha, hself2, hh1, hself1]; intro p hp; cases hp

theorem newCsg_inv {h : Heap} (hi : Inv h) (op : Operation) (l r : ℕ) (hl : l < h.size) (hr : r < h.size)
    (hkl : (h.obj l).kind.intersectable) (hkr : (h.obj r).kind.intersectable) : Inv (newCsg argsort h op l r) := by
  have h2 := attached_inv hi op l r hl hr hkl hkr
  unfold newCsg
  simp only
  set g := attachTo (attachTo (h.alloc (.csg op l r) (fun _ => (0, 0)) [.box h.size]) l h.size) r h.size
  have h3 : Inv (if op = .difference then invertNormals g.size g r else g) := by
    split
    · exact (invertNormals_same _ _ _).inv h2
    · exact h2
  set g3 := if op = .difference then invertNormals g.size g r else g
  rcases hh : runHandler argsort g3 (.box h.size) with ⟨g4, e⟩
  have he := runHandler_box_ok argsort g3 h.size
  rw [hh] at he
  simp only at he
  subst he
  have hcore := runHandler_core argsort g3 (.box h.size)
  rw [hh] at hcore
  refine { hcore.static.struct h3.toStruct with synced := ?_, boxes := ?_ }
  · intro a ha; exact runHandler_synced argsort hh a (h3.synced a (by rw [← hcore.1]; exact ha))
  · intro a ha; exact runHandler_boxSynced argsort hh a (h3.boxes a (by rw [← hcore.1]; exact ha))

theorem empty_inv : Inv Heap.empty := by
  constructor
  · constructor <;> intro a <;> simp [Heap.empty]
  · intro a ha; simp [Heap.empty] at ha
  · intro a ha; simp [Heap.empty] at ha

theorem exec_inv {fuel : ℕ} {h h' : Heap} (hi : Inv h) (c : Cmd) (hv : c.valid h)
    (hr : exec argsort fuel h c = (h', none)) : Inv h' := by
  cases c with
  | newPrim p => simp only [exec, Prod.mk.injEq, and_true] at hr; rw [← hr]; exact newPrim_inv hi p
  | newPlain => simp only [exec, Prod.mk.injEq, and_true] at hr; rw [← hr]; exact newPlain_inv hi
  | newGroup ms => simp only [exec, Prod.mk.injEq, and_true] at hr; rw [← hr]; exact newGroup_inv hi ms hv
  | append g m => simp only [exec, Prod.mk.injEq, and_true] at hr; rw [← hr]; exact groupAppend_inv hi g m hv.2
  | newCsg op l r =>
    simp only [exec, Prod.mk.injEq, and_true] at hr; rw [← hr]
    exact newCsg_inv argsort hi op l r hv.1 hv.2.1 hv.2.2.1 hv.2.2.2
  | movement a mv =>
    simp only [exec, callMovement] at hr
    split at hr
    · simp at hr
    · exact (transform_ok argsort _ fuel a hi hv hr).1

theorem reaches_inv {fuel : ℕ} {h h' : Heap} (hi : Inv h) (hr : Reaches argsort fuel h h') : Inv h' := by
  induction hr with
  | refl => exact hi
  | step c _ hv he ih => exact exec_inv argsort ih c hv he

end PyRayT
