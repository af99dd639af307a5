import Verif.Proofs.World2

/-! Attributes of freshly built objects, and sequences of movements. -/

namespace PyRayT

open Classical Matrix

variable (argsort : List EReal → List ℕ)

theorem newCsg_size (h : Heap) (op : Operation) (l r : ℕ) : (newCsg argsort h op l r).size = h.size + 1 := by
  unfold newCsg
  simp only
  rw [(runHandler_core argsort _ _).1]
  split
  · rw [(invertNormals_same _ _ _).1]; rfl
  · rfl

/-- attributes (other than box, normal scale and watch list) of the objects after building a CSG object -/
theorem newCsg_obj (h : Heap) (op : Operation) (l r : ℕ) (a : ℕ) :
    ((newCsg argsort h op l r).obj a).kind = ((h.alloc (.csg op l r) (fun _ => (0, 0)) [.box h.size]).obj a).kind ∧
    ((newCsg argsort h op l r).obj a).world = ((h.alloc (.csg op l r) (fun _ => (0, 0)) [.box h.size]).obj a).world := by
  unfold newCsg
  simp only
  set g := attachTo (attachTo (h.alloc (.csg op l r) (fun _ => (0, 0)) [.box h.size]) l h.size) r h.size with hg
  have hc := (runHandler_core argsort (if op = .difference then invertNormals g.size g r else g) (.box h.size)).2.2 a
  rw [hc.1, hc.2.2.1]
  have e1 : (g.obj a).kind = ((h.alloc (.csg op l r) (fun _ => (0, 0)) [.box h.size]).obj a).kind ∧
      (g.obj a).world = ((h.alloc (.csg op l r) (fun _ => (0, 0)) [.box h.size]).obj a).world := by
    rw [hg, attachTo_same, attachTo_same]; exact ⟨rfl, rfl⟩
  split
  · rw [(invertNormals_same g.size g r).2.2 a]; exact e1
  · exact e1

theorem newCsg_kind_self (h : Heap) (op : Operation) (l r : ℕ) :
    ((newCsg argsort h op l r).obj h.size).kind = .csg op l r := by
  rw [(newCsg_obj argsort h op l r h.size).1, alloc_obj_self]

theorem newCsg_kind_lt (h : Heap) (op : Operation) (l r : ℕ) {a : ℕ} (ha : a < h.size) :
    ((newCsg argsort h op l r).obj a).kind = (h.obj a).kind := by
  rw [(newCsg_obj argsort h op l r a).1, alloc_obj_lt _ _ _ _ ha]

theorem newCsg_world_self (h : Heap) (op : Operation) (l r : ℕ) :
    ((newCsg argsort h op l r).obj h.size).world = 1 := by
  rw [(newCsg_obj argsort h op l r h.size).2, alloc_obj_self]

theorem newCsg_world_lt (h : Heap) (op : Operation) (l r : ℕ) {a : ℕ} (ha : a < h.size) :
    ((newCsg argsort h op l r).obj a).world = (h.obj a).world := by
  rw [(newCsg_obj argsort h op l r a).2, alloc_obj_lt _ _ _ _ ha]

theorem norm4_normalize {v : Vec4} (hv : 0 < norm4 v) : norm4 (normalize v) = 1 := by
  have hne : v ≠ 0 := by
    rintro rfl
    simp [norm4] at hv
  have := dot4_normalize_self hne
  unfold norm4
  rw [show normalize v 0 ^ 2 + normalize v 1 ^ 2 + normalize v 2 ^ 2 + normalize v 3 ^ 2 = dot4 (normalize v) (normalize v)
    by unfold dot4; ring, this, Real.sqrt_one]

theorem goodWorld_one : GoodWorld 1 := by
  refine ⟨by simp, ?_, ?_⟩
  · funext j; fin_cases j <;> first | (simp; done) | exact Matrix.one_apply_eq 3
  · rw [one_mulVec, norm4_z]; norm_num

/-- a list of movement calls, stopping at the first exception -/
noncomputable def runMovements (fuel : ℕ) : Heap → List (ℕ × Movement) → Res
  | h, [] => (h, none)
  | h, (a, mv) :: tl => (callMovement argsort fuel h a mv).andThen fun h => runMovements fuel h tl

theorem callMovement_ok {fuel : ℕ} {h h' : Heap} {a : ℕ} {mv : Movement}
    (hr : callMovement argsort fuel h a mv = (h', none)) :
    ∃ m, mv.matrix = .ok m ∧ transform argsort fuel h a m = (h', none) := by
  unfold callMovement at hr
  split at hr
  · simp at hr
  · rename_i m hm; exact ⟨m, hm, hr⟩

theorem reaches_trans {fuel : ℕ} {h h' h'' : Heap} (h1 : Reaches argsort fuel h h') (h2 : Reaches argsort fuel h' h'') :
    Reaches argsort fuel h h'' := by
  induction h2 with
  | refl => exact h1
  | step c _ hv he ih => exact Reaches.step c ih hv he

theorem exec_size {fuel : ℕ} {h h' : Heap} {e : Option Err} (c : Cmd) (he : exec argsort fuel h c = (h', e)) :
    h.size ≤ h'.size := by
  have h1 : h' = (exec argsort fuel h c).1 := by rw [he]
  rw [h1]
  cases c with
  | newPrim p => exact Nat.le_succ _
  | newPlain => exact Nat.le_succ _
  | newGroup ms => exact Nat.le_succ _
  | append g m => simp only [exec, groupAppend]; split <;> exact le_refl _
  | newCsg op l r => simp only [exec, newCsg_size]; exact Nat.le_succ _
  | movement a mv =>
    simp only [exec, callMovement]
    split
    · exact le_refl _
    · exact (transform_static argsort _ fuel h a).1.ge

theorem reaches_size {fuel : ℕ} {h h' : Heap} (hr : Reaches argsort fuel h h') : h.size ≤ h'.size := by
  induction hr with
  | refl => exact le_refl _
  | step c _ _ he ih => exact ih.trans (exec_size argsort c he)

end PyRayT
