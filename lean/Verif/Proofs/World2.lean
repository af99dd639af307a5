import Verif.Proofs.World
import Verif.Model.Pin
import Verif.Proofs.Primitives

/-! More helper lemmas on the heap: statics under errors, success of rigid movements, matrices. -/

namespace PyRayT

open Classical Matrix

variable (argsort : List EReal → List ℕ)

/-! ### histories with exceptions -/

theorem transform_static (m : Mat4) : ∀ (fuel : ℕ) (h : Heap) (a : ℕ), Static h (transform argsort fuel h a m).1 := by
  intro fuel
  induction fuel with
  | zero => intro h a; exact Static.refl h
  | succ fuel ih =>
    intro h a
    unfold transform
    have h1 := appendOwn_static argsort h a m
    rcases hh : appendOwn argsort h a m with ⟨g, e⟩
    rw [hh] at h1
    cases e with
    | some e => exact h1
    | none =>
      simp only [Res.andThen]
      refine Static.trans (h' := g) h1 ?_
      split
      · rename_i op l r _
        have h2 := ih g l
        rcases hl : transform argsort fuel g l m with ⟨g2, e2⟩
        rw [hl] at h2
        cases e2 with
        | some e => exact h2
        | none => exact Static.trans (h' := g2) h2 (ih g2 r)
      · rename_i ms _
        have key : ∀ (bs : List ℕ) (res : Res), Static g res.1 → Static g
            (bs.foldl (fun (res : Res) b => res.andThen fun h => transform argsort fuel h b m) res).1 := by
          intro bs
          induction bs with
          | nil => intro res hr; exact hr
          | cons b bs ihb =>
            intro res hr
            apply ihb
            obtain ⟨g2, e2⟩ := res
            cases e2 with
            | some e => exact hr
            | none => exact Static.trans (h' := g2) hr (ih g2 b)
        exact key ms (g, none) (Static.refl g)
      · exact Static.refl g

/-- ids are handed out in increasing order -/
def Ids (h : Heap) : Prop :=
  (∀ a b, a < b → b < h.size → (h.obj a).oid < (h.obj b).oid) ∧ ∀ a < h.size, (h.obj a).oid < h.counter

theorem Ids.of_same {h h' : Heap} (hs : h'.size = h.size) (hc : h'.counter = h.counter)
    (ho : ∀ a, (h'.obj a).oid = (h.obj a).oid) (hi : Ids h) : Ids h' := by
  refine ⟨fun a b hab hb => ?_, fun a ha => ?_⟩
  · rw [ho, ho]; exact hi.1 a b hab (by rw [← hs]; exact hb)
  · rw [ho, hc]; exact hi.2 a (by rw [← hs]; exact ha)

theorem alloc_ids {h : Heap} (hi : Ids h) (k : Kind) (b : Box) (ex : List Handler) : Ids (h.alloc k b ex) := by
  have hsz : (h.alloc k b ex).size = h.size + 1 := rfl
  have hc : (h.alloc k b ex).counter = h.counter + 1 := rfl
  refine ⟨fun x y hxy hy => ?_, fun x hx => ?_⟩
  · rcases Nat.lt_succ_iff_lt_or_eq.1 hy with hy | hy
    · rw [alloc_obj_lt _ _ _ _ hy, alloc_obj_lt _ _ _ _ (by omega)]; exact hi.1 x y hxy hy
    · subst hy; rw [alloc_obj_lt _ _ _ _ hxy, alloc_obj_self]; exact hi.2 x hxy
  · rw [hc]
    rcases Nat.lt_succ_iff_lt_or_eq.1 hx with hx | hx
    · rw [alloc_obj_lt _ _ _ _ hx]; have := hi.2 x hx; omega
    · subst hx; rw [alloc_obj_self]; simp

theorem attachTo_ids {h : Heap} (hi : Ids h) (c p : ℕ) : Ids (attachTo h c p) := by
  refine Ids.of_same (h := h) rfl rfl (fun a => ?_) hi
  rw [attachTo_same]

theorem exec_ids {fuel : ℕ} {h : Heap} (hi : Ids h) (c : Cmd) : Ids (exec argsort fuel h c).1 := by
  cases c with
  | newPrim p => exact alloc_ids hi _ _ _
  | newPlain => exact alloc_ids hi _ _ _
  | newGroup ms => exact alloc_ids hi _ _ _
  | append g m =>
    simp only [exec, groupAppend]
    split
    · refine Ids.of_same (h := h) rfl rfl (fun a => ?_) hi
      by_cases ha : a = g
      · subst ha; rw [Heap.set_obj_self]
      · rw [Heap.set_obj_ne _ _ ha]
    · exact hi
  | newCsg op l r =>
    simp only [exec, newCsg]
    have h2 := attachTo_ids (attachTo_ids (alloc_ids hi (.csg op l r) (fun _ => (0, 0)) [.box h.size]) l h.size) r h.size
    set g := attachTo (attachTo (h.alloc (.csg op l r) (fun _ => (0, 0)) [.box h.size]) l h.size) r h.size
    have h3 : Ids (if op = .difference then invertNormals g.size g r else g) := by
      split
      · have := invertNormals_same g.size g r
        apply h2.of_same (h := g) this.1 this.2.1
        intro a; rw [this.2.2 a]
      · exact h2
    have hcore := runHandler_core argsort (if op = .difference then invertNormals g.size g r else g) (.box h.size)
    exact h3.of_same hcore.1 hcore.2.1 fun a => (hcore.2.2 a).2.1
  | movement a mv =>
    simp only [exec, callMovement]
    split
    · exact hi
    · rename_i m _
      have := transform_static argsort m fuel h a
      exact hi.of_same this.1 this.2.1 fun a => (this.2.2 a).2.1

theorem reachesAny_ids {fuel : ℕ} {h h' : Heap} (hi : Ids h) (hr : ReachesAny argsort fuel h h') : Ids h' := by
  induction hr with
  | refl => exact hi
  | @step h1 h2 e c _ _ he ih =>
    have := exec_ids argsort (fuel := fuel) ih c
    rw [he] at this; exact this

theorem empty_ids : Ids Heap.empty := ⟨fun a b _ hb => by simp [Heap.empty] at hb, fun a ha => by simp [Heap.empty] at ha⟩

/-! ### rigid movements succeed -/

/-- an invertible affine placement whose z axis is not squashed below the tolerance of line 114 -/
def GoodWorld (w : Mat4) : Prop :=
  w.det ≠ 0 ∧ w 3 = ![0, 0, 0, 1] ∧ 1e-7 ≤ norm4 (w *ᵥ vector 0 0 1)

/-- the recursion stays within the given depth -/
def Spec.fits (kind : ℕ → Kind) : ℕ → ℕ → Prop
  | 0, _ => False
  | fuel + 1, a => match kind a with
    | .csg _ l r => fits kind fuel l ∧ fits kind fuel r
    | .group ms => ∀ m ∈ ms, fits kind fuel m
    | _ => True

theorem runHandler_ok_of_good {h : Heap} (hd : Handler) (hg : GoodWorld (h.obj hd.addr).world) :
    ∃ h', runHandler argsort h hd = (h', none) := by
  cases hd with
  | box a =>
    refine ⟨(runHandler argsort h (.box a)).1, ?_⟩
    exact Prod.ext rfl (runHandler_box_ok argsort h a)
  | matrix a =>
    simp only [runHandler]
    simp only [Handler.addr] at hg
    rw [if_neg (not_lt.2 hg.2.2), if_neg hg.1]
    exact ⟨_, rfl⟩

theorem runHandlers_ok_of_good (hs : List Handler) : ∀ {h : Heap}, (∀ hd ∈ hs, GoodWorld (h.obj hd.addr).world) →
    ∃ h', runHandlers argsort h hs = (h', none) := by
  induction hs with
  | nil => intro h _; exact ⟨h, rfl⟩
  | cons hd tl ih =>
    intro h hg
    obtain ⟨h1, e1⟩ := runHandler_ok_of_good argsort hd (hg hd (by simp))
    have hc := runHandler_core argsort h hd
    rw [e1] at hc
    obtain ⟨h2, e2⟩ := ih (h := h1) (fun x hx => by rw [(hc.2.2 x.addr).2.2.1]; exact hg x (by simp [hx]))
    refine ⟨h2, ?_⟩
    simp only [runHandlers, e1, Res.andThen, e2]

/-- A matrix that keeps placements good can be applied to any object of a good heap. -/
theorem transform_succeeds {m : Mat4} (hm : ∀ w, GoodWorld w → GoodWorld (m * w)) :
    ∀ (fuel : ℕ) {h : Heap} (a : ℕ), Inv h → (∀ b < h.size, GoodWorld (h.obj b).world) → a < h.size →
    Spec.fits (fun a => (h.obj a).kind) fuel a →
    ∃ h', transform argsort fuel h a m = (h', none) ∧ ∀ b < h'.size, GoodWorld (h'.obj b).world := by
  intro fuel
  induction fuel with
  | zero => intro h a _ _ _ hf; exact hf.elim
  | succ fuel ih =>
    intro h a hi hg ha hf
    have hgood1 : ∀ b < h.size, GoodWorld ((h.set a { h.obj a with world := m * (h.obj a).world }).obj b).world := by
      intro b hb
      by_cases hba : b = a
      · subst hba; rw [Heap.set_obj_self]; exact hm _ (hg b hb)
      · rw [Heap.set_obj_ne _ _ hba]; exact hg b hb
    obtain ⟨h1, e1⟩ : ∃ h1, appendOwn argsort h a m = (h1, none) := by
      unfold appendOwn
      simp only [Heap.set_obj_self]
      apply runHandlers_ok_of_good
      intro hd hmem
      exact hgood1 _ (hi.watch_sound a ha hd hmem).1
    have hi1 := appendOwn_inv argsort hi ha e1
    have hm1 := appendOwn_moves argsort h a m
    rw [e1] at hm1
    have hsize : h1.size = h.size := hm1.1.1
    have hkinds : (fun a => (h1.obj a).kind) = fun a => (h.obj a).kind := hm1.1.kinds
    have hg1 : ∀ b < h1.size, GoodWorld (h1.obj b).world := by
      intro b hb
      have := hm1.2 b
      simp only at this
      rw [this]
      split
      · rw [pow_one]; exact hm _ (hg b (by omega))
      · rw [pow_zero, one_mul]; exact hg b (by omega)
    unfold transform
    simp only [e1, Res.andThen]
    have hk : (h1.obj a).kind = (h.obj a).kind := congrFun hkinds a
    rw [hk]
    rw [Spec.fits] at hf
    split
    · rename_i op l r hkind
      simp only [hkind] at hf
      have hl := hi.children a l ha ⟨op, l, r, hkind, Or.inl rfl⟩
      have hr := hi.children a r ha ⟨op, l, r, hkind, Or.inr rfl⟩
      obtain ⟨h2, e2, hg2⟩ := ih l hi1 hg1 (by omega) (by rw [hkinds]; exact hf.1)
      obtain ⟨hi2, hm2⟩ := transform_ok argsort m fuel l hi1 (by omega) e2
      have hsize2 := hm2.1.1
      obtain ⟨h3, e3, hg3⟩ := ih r hi2 hg2 (by omega) (by rw [hm2.1.kinds, hkinds]; exact hf.2)
      exact ⟨h3, by simp only [e2, e3], hg3⟩
    · rename_i ms hkind
      simp only [hkind] at hf
      have hmem := hi.members a ha ms hkind
      have key : ∀ (bs : List ℕ) (h1 : Heap), Inv h1 → (∀ b < h1.size, GoodWorld (h1.obj b).world) →
          (∀ b ∈ bs, b < h1.size) → (fun a => (h1.obj a).kind) = (fun a => (h.obj a).kind) →
          (∀ b ∈ bs, Spec.fits (fun a => (h.obj a).kind) fuel b) →
          ∃ h', bs.foldl (fun (res : Res) b => res.andThen fun h => transform argsort fuel h b m) (h1, none)
            = (h', none) ∧ ∀ b < h'.size, GoodWorld (h'.obj b).world := by
        intro bs
        induction bs with
        | nil => intro h1 _ hg1 _ _ _; exact ⟨h1, rfl, hg1⟩
        | cons b bs ihb =>
          intro h1 hi1 hg1 hlt hkk hff
          obtain ⟨h2, e2, hg2⟩ := ih b hi1 hg1 (hlt b (by simp)) (by rw [hkk]; exact hff b (by simp))
          obtain ⟨hi2, hm2⟩ := transform_ok argsort m fuel b hi1 (hlt b (by simp)) e2
          obtain ⟨h3, e3, hg3⟩ := ihb h2 hi2 hg2 (fun x hx => by rw [hm2.1.1]; exact hlt x (by simp [hx]))
            (hm2.1.kinds.trans hkk) (fun x hx => hff x (by simp [hx]))
          refine ⟨h3, ?_, hg3⟩
          rw [List.foldl_cons]
          have e' : (Res.andThen (h1, none) fun h => transform argsort fuel h b m) = (h2, none) := e2
          rw [e', e3]
      exact key ms h1 hi1 hg1 (fun b hb => by rw [hsize]; exact hmem b hb) hkinds hf
    · exact ⟨h1, rfl, hg1⟩

/-- movements that keep lengths: `move` and the rotations -/
def Rigid (m : Mat4) : Prop :=
  m 3 = ![0, 0, 0, 1] ∧ m.det = 1 ∧ ∀ v : Vec4, v 3 = 0 → norm4 (m *ᵥ v) = norm4 v

theorem mulVec4 (m : Mat4) (v : Vec4) (i : Fin 4) :
    (m *ᵥ v) i = m i 0 * v 0 + m i 1 * v 1 + m i 2 * v 2 + m i 3 * v 3 := by
  simp [Matrix.mulVec, dotProduct, Fin.sum_univ_four]

theorem rigid_good {m : Mat4} (hm : Rigid m) : ∀ w, GoodWorld w → GoodWorld (m * w) := by
  intro w ⟨h1, h2, h3⟩
  refine ⟨by rw [det_mul, hm.2.1, one_mul]; exact h1, ?_, ?_⟩
  · funext j
    have e : ∀ j, (m * w) 3 j = w 3 j := by
      intro j
      rw [Matrix.mul_apply, Fin.sum_univ_four]
      have := hm.1
      have a0 : m 3 0 = 0 := by rw [this]; rfl
      have a1 : m 3 1 = 0 := by rw [this]; rfl
      have a2 : m 3 2 = 0 := by rw [this]; rfl
      have a3 : m 3 3 = 1 := by rw [this]; rfl
      rw [a0, a1, a2, a3]; ring
    rw [e j, h2]
  · rw [← Matrix.mulVec_mulVec, hm.2.2]
    · exact h3
    · rw [mulVec4]
      have a0 : w 3 0 = 0 := by rw [h2]; rfl
      have a1 : w 3 1 = 0 := by rw [h2]; rfl
      have a2 : w 3 2 = 0 := by rw [h2]; rfl
      have a3 : w 3 3 = 1 := by rw [h2]; rfl
      simp [a0, a1, a2, a3, vector]

theorem det4 (m : Mat4) : m.det =
    m 0 0 * (m 1 1 * (m 2 2 * m 3 3 - m 2 3 * m 3 2) - m 1 2 * (m 2 1 * m 3 3 - m 2 3 * m 3 1)
      + m 1 3 * (m 2 1 * m 3 2 - m 2 2 * m 3 1))
    - m 0 1 * (m 1 0 * (m 2 2 * m 3 3 - m 2 3 * m 3 2) - m 1 2 * (m 2 0 * m 3 3 - m 2 3 * m 3 0)
      + m 1 3 * (m 2 0 * m 3 2 - m 2 2 * m 3 0))
    + m 0 2 * (m 1 0 * (m 2 1 * m 3 3 - m 2 3 * m 3 1) - m 1 1 * (m 2 0 * m 3 3 - m 2 3 * m 3 0)
      + m 1 3 * (m 2 0 * m 3 1 - m 2 1 * m 3 0))
    - m 0 3 * (m 1 0 * (m 2 1 * m 3 2 - m 2 2 * m 3 1) - m 1 1 * (m 2 0 * m 3 2 - m 2 2 * m 3 0)
      + m 1 2 * (m 2 0 * m 3 1 - m 2 1 * m 3 0)) := by
  rw [Matrix.det_succ_row_zero]
  simp [Fin.sum_univ_succ, Matrix.det_fin_three, Matrix.submatrix_apply, Fin.succAbove]
  ring

theorem move_rigid (x y z : ℝ) : Rigid (moveMatrix x y z) := by
  refine ⟨rfl, ?_, ?_⟩
  · rw [det4]; simp [moveMatrix]
  · intro v hv
    unfold norm4
    simp only [mulVec4, hv]
    simp [moveMatrix, hv]

theorem rotX_rigid {s c : ℝ} (h : s ^ 2 + c ^ 2 = 1) : Rigid (rotXMatrix s c) := by
  refine ⟨rfl, ?_, ?_⟩
  · rw [det4]; simp [rotXMatrix]; nlinarith
  · intro v hv
    unfold norm4
    simp only [mulVec4, hv]
    simp [rotXMatrix, hv]
    congr 1
    linear_combination (v 1 ^ 2 + v 2 ^ 2) * h

theorem rotY_rigid {s c : ℝ} (h : s ^ 2 + c ^ 2 = 1) : Rigid (rotYMatrix s c) := by
  refine ⟨rfl, ?_, ?_⟩
  · rw [det4]; simp [rotYMatrix]; nlinarith
  · intro v hv
    unfold norm4
    simp only [mulVec4, hv]
    simp [rotYMatrix, hv]
    congr 1
    linear_combination (v 0 ^ 2 + v 2 ^ 2) * h

theorem rotZ_rigid {s c : ℝ} (h : s ^ 2 + c ^ 2 = 1) : Rigid (rotZMatrix s c) := by
  refine ⟨rfl, ?_, ?_⟩
  · rw [det4]; simp [rotZMatrix]; nlinarith
  · intro v hv
    unfold norm4
    simp only [mulVec4, hv]
    simp [rotZMatrix, hv]
    congr 1
    linear_combination (v 0 ^ 2 + v 1 ^ 2) * h

theorem sinCos_sq {t : ℝ} {u : Units} {s c : ℝ} (h : sinCos t u = some (s, c)) : s ^ 2 + c ^ 2 = 1 := by
  cases u with
  | deg => simp only [sinCos, Option.some.injEq, Prod.mk.injEq] at h; rw [← h.1, ← h.2]; exact Real.sin_sq_add_cos_sq _
  | rad => simp only [sinCos, Option.some.injEq, Prod.mk.injEq] at h; rw [← h.1, ← h.2]; exact Real.sin_sq_add_cos_sq _
  | other => simp [sinCos] at h

/-! ### bounding boxes -/

theorem foldr_min_le (pts : List Vec4) (i : Fin 4) {q : Vec4} (hq : q ∈ pts) :
    pts.foldr (fun p acc => min ((p i : ℝ) : EReal) acc) ⊤ ≤ ((q i : ℝ) : EReal) := by
  induction pts with
  | nil => simp at hq
  | cons p ps ih =>
    rw [List.foldr_cons]
    rcases List.mem_cons.1 hq with h | h
    · rw [h]; exact min_le_left _ _
    · exact (min_le_right _ _).trans (ih h)

theorem le_foldr_max (pts : List Vec4) (i : Fin 4) {q : Vec4} (hq : q ∈ pts) :
    ((q i : ℝ) : EReal) ≤ pts.foldr (fun p acc => max ((p i : ℝ) : EReal) acc) ⊥ := by
  induction pts with
  | nil => simp at hq
  | cons p ps ih =>
    rw [List.foldr_cons]
    rcases List.mem_cons.1 hq with h | h
    · rw [h]; exact le_max_left _ _
    · exact (ih h).trans (le_max_right _ _)

theorem boundingBox_contains (pts : List Vec4) (i : Fin 3) (x : ℝ) {q q' : Vec4} (hq : q ∈ pts) (hq' : q' ∈ pts)
    (h1 : q i.castSucc ≤ x) (h2 : x ≤ q' i.castSucc) :
    (boundingBox pts i).1 ≤ (x : EReal) ∧ (x : EReal) ≤ (boundingBox pts i).2 := by
  have a1 := foldr_min_le pts i.castSucc hq
  have a2 := le_foldr_max pts i.castSucc hq'
  have b1 : ((q i.castSucc : ℝ) : EReal) ≤ (x : EReal) := EReal.coe_le_coe_iff.2 h1
  have b2 : (x : EReal) ≤ ((q' i.castSucc : ℝ) : EReal) := EReal.coe_le_coe_iff.2 h2
  unfold boundingBox sort2
  exact ⟨(min_le_left _ _).trans (a1.trans b1), (b2.trans a2).trans (le_max_right _ _)⟩

theorem corner_mem (s : Fin 3 → ℝ × ℝ) (x y z : ℝ) (hx : x = (s 0).1 ∨ x = (s 0).2) (hy : y = (s 1).1 ∨ y = (s 1).2)
    (hz : z = (s 2).1 ∨ z = (s 2).2) : point x y z ∈ cornerPoints s := by
  unfold cornerPoints
  simp only [List.mem_flatMap, List.mem_map, List.mem_cons, List.not_mem_nil, or_false]
  exact ⟨x, hx, y, hy, z, hz, rfl⟩

/-- an affine function on an interval is at least its value at one of the ends -/
theorem exists_end_le (a x lo hi : ℝ) (h1 : lo ≤ x) (h2 : x ≤ hi) : ∃ e, (e = lo ∨ e = hi) ∧ a * e ≤ a * x := by
  rcases le_total 0 a with ha | ha
  · exact ⟨lo, Or.inl rfl, mul_le_mul_of_nonneg_left h1 ha⟩
  · exact ⟨hi, Or.inr rfl, mul_le_mul_of_nonpos_left h2 ha⟩

theorem exists_le_end (a x lo hi : ℝ) (h1 : lo ≤ x) (h2 : x ≤ hi) : ∃ e, (e = lo ∨ e = hi) ∧ a * x ≤ a * e := by
  rcases le_total 0 a with ha | ha
  · exact ⟨hi, Or.inr rfl, mul_le_mul_of_nonneg_left h2 ha⟩
  · exact ⟨lo, Or.inl rfl, mul_le_mul_of_nonpos_left h1 ha⟩

/-- points in the local box are mapped into the bounding box of the mapped corners -/
theorem box_contains (w : Mat4) (s : Fin 3 → ℝ × ℝ) (q : Vec4) (hw : q 3 = 1)
    (hq : ∀ i : Fin 3, (s i).1 ≤ q i.castSucc ∧ q i.castSucc ≤ (s i).2) (i : Fin 3) :
    (boundingBox ((cornerPoints s).map fun p => w *ᵥ p) i).1 ≤ ((w *ᵥ q) i.castSucc : ℝ) ∧
    (((w *ᵥ q) i.castSucc : ℝ) : EReal) ≤ (boundingBox ((cornerPoints s).map fun p => w *ᵥ p) i).2 := by
  have q0 := hq 0; have q1 := hq 1; have q2 := hq 2
  obtain ⟨x1, hx1, ex1⟩ := exists_end_le (w i.castSucc 0) (q 0) _ _ q0.1 q0.2
  obtain ⟨y1, hy1, ey1⟩ := exists_end_le (w i.castSucc 1) (q 1) _ _ q1.1 q1.2
  obtain ⟨z1, hz1, ez1⟩ := exists_end_le (w i.castSucc 2) (q 2) _ _ q2.1 q2.2
  obtain ⟨x2, hx2, ex2⟩ := exists_le_end (w i.castSucc 0) (q 0) _ _ q0.1 q0.2
  obtain ⟨y2, hy2, ey2⟩ := exists_le_end (w i.castSucc 1) (q 1) _ _ q1.1 q1.2
  obtain ⟨z2, hz2, ez2⟩ := exists_le_end (w i.castSucc 2) (q 2) _ _ q2.1 q2.2
  refine boundingBox_contains _ i _ (List.mem_map_of_mem (corner_mem s x1 y1 z1 hx1 hy1 hz1))
    (List.mem_map_of_mem (corner_mem s x2 y2 z2 hx2 hy2 hz2)) ?_ ?_
  · simp only [mulVec4, hw, point]
    simp
    linarith
  · simp only [mulVec4, hw, point]
    simp
    linarith

/-- constructor arguments that make sense (a sphere or cylinder of negative radius is the one with the absolute value) -/
def Prim.Valid : Prim → Prop
  | .paraboloid f h => 0 < f ∧ 0 < h
  | _ => True

theorem abs_le_of_sq_le {x r : ℝ} (hr : 0 ≤ r) (h : x ^ 2 ≤ r ^ 2) : -r ≤ x ∧ x ≤ r :=
  abs_le.1 (abs_le_of_sq_le_sq h hr)

theorem span_of_sq_le {x r : ℝ} (h : x ^ 2 ≤ r ^ 2) : min (-r) r ≤ x ∧ x ≤ max (-r) r := by
  have h1 := abs_le.1 (sq_le_sq.1 h)
  rcases abs_cases r with ⟨e, -⟩ | ⟨e, -⟩ <;> rw [e] at h1
  · exact ⟨(min_le_left _ _).trans h1.1, h1.2.trans (le_max_right _ _)⟩
  · rw [neg_neg] at h1
    exact ⟨(min_le_right _ _).trans h1.1, h1.2.trans (le_max_left _ _)⟩

/-- the solid lies in its local box -/
theorem closed_in_spans (p : Prim) (hv : p.Valid) (q : Vec4) (hq : Spec.Closed p q) (i : Fin 3) :
    (p.boundSpans i).1 ≤ q i.castSucc ∧ q i.castSucc ≤ (p.boundSpans i).2 := by
  cases p with
  | sphere r =>
    simp only [Spec.Closed] at hq
    have h0 := span_of_sq_le (x := q 0) (r := r) (by nlinarith [sq_nonneg (q 1), sq_nonneg (q 2)])
    have h1 := span_of_sq_le (x := q 1) (r := r) (by nlinarith [sq_nonneg (q 0), sq_nonneg (q 2)])
    have h2 := span_of_sq_le (x := q 2) (r := r) (by nlinarith [sq_nonneg (q 0), sq_nonneg (q 1)])
    fin_cases i <;> [exact h0; exact h1; exact h2]
  | paraboloid f h =>
    obtain ⟨hf, hh⟩ := hv
    obtain ⟨c1, c2⟩ := hq
    have hz : 0 ≤ q 2 := by
      by_contra hneg
      have : 4 * f * q 2 < 0 := mul_neg_of_pos_of_neg (by linarith) (by linarith)
      nlinarith [sq_nonneg (q 0), sq_nonneg (q 1)]
    have hle : 4 * f * q 2 ≤ 4 * f * h := by nlinarith
    have hs : √(4 * f * h) ^ 2 = 4 * f * h := Real.sq_sqrt (by positivity)
    have h0 := abs_le_of_sq_le (Real.sqrt_nonneg (4 * f * h)) (x := q 0) (by rw [hs]; nlinarith [sq_nonneg (q 1)])
    have h1 := abs_le_of_sq_le (Real.sqrt_nonneg (4 * f * h)) (x := q 1) (by rw [hs]; nlinarith [sq_nonneg (q 0)])
    fin_cases i <;> simp only [Prim.boundSpans, cubeSpans]
    · exact ⟨(min_le_left _ _).trans h0.1, h0.2.trans (le_max_right _ _)⟩
    · exact ⟨(min_le_left _ _).trans h1.1, h1.2.trans (le_max_right _ _)⟩
    · exact ⟨(min_le_left _ _).trans hz, c2.trans (le_max_right _ _)⟩
  | plane w l =>
    obtain ⟨c1, c2, c3⟩ := hq
    rw [abs_le] at c2 c3
    fin_cases i <;> simp only [Prim.boundSpans, cubeSpans]
    · refine ⟨(min_le_left _ _).trans ?_, le_trans ?_ (le_max_right _ _)⟩
      · show -w / 2 ≤ q 0; linarith [c2.1]
      · exact c2.2
    · refine ⟨(min_le_left _ _).trans ?_, le_trans ?_ (le_max_right _ _)⟩
      · show -l / 2 ≤ q 1; linarith [c3.1]
      · exact c3.2
    · refine ⟨(min_le_left _ _).trans ?_, le_trans ?_ (le_max_right _ _)⟩
      · show -0.01 ≤ q 2; rw [c1]; norm_num
      · show q 2 ≤ 0.01; rw [c1]; norm_num
  | cube a b => exact hq i
  | cylinder r a b =>
    obtain ⟨c1, c2, c3⟩ := hq
    have h0 := span_of_sq_le (x := q 0) (r := r) (by nlinarith [sq_nonneg (q 1)])
    have h1 := span_of_sq_le (x := q 1) (r := r) (by nlinarith [sq_nonneg (q 0)])
    fin_cases i <;> [exact h0; exact h1; exact ⟨c2, c3⟩]

end PyRayT
