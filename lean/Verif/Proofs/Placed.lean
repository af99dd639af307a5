import Verif.Proofs.World3
import Verif.Proofs.PrimAll

/-! Which world matrices objects can have: histories that use some of the movements only. -/

namespace PyRayT

open Classical Matrix

variable (argsort : List EReal → List ℕ)

/-- `move`, `rotate_x`, `rotate_y`, `rotate_z` -/
def Movement.IsRigid (mv : Movement) : Prop :=
  (∃ x y z, mv = .move x y z) ∨ ∃ t u, mv = .rotateX t u ∨ mv = .rotateY t u ∨ mv = .rotateZ t u

/-- every movement method, where a matrix given to `transform` must have the last row 0 0 0 1 -/
def Movement.IsAffine (mv : Movement) : Prop := ∀ m, mv = .transform m → m 3 = ![0, 0, 0, 1]

/-- `Reaches` with restricted movements -/
inductive ReachesBy (P : Movement → Prop) (fuel : ℕ) : Heap → Heap → Prop where
  | refl (h : Heap) : ReachesBy P fuel h h
  | step {h h' h'' : Heap} (c : Cmd) : ReachesBy P fuel h h' → c.valid h' → (∀ a mv, c = .movement a mv → P mv) →
      exec argsort fuel h' c = (h'', none) → ReachesBy P fuel h h''

variable {argsort}

theorem ReachesBy.reaches {P : Movement → Prop} {fuel : ℕ} {h h' : Heap} (hr : ReachesBy argsort P fuel h h') :
    Reaches argsort fuel h h' := by
  induction hr with
  | refl => exact .refl _
  | step c _ hv _ he ih => exact .step c ih hv he

/-- a property of matrices closed under products and true of the movements' matrices holds of all world matrices -/
theorem ReachesBy.world {P : Movement → Prop} {Q : Mat4 → Prop} (h1 : Q 1) (hmul : ∀ m w, Q m → Q w → Q (m * w))
    (hP : ∀ mv m, P mv → mv.matrix = .ok m → Q m) {fuel : ℕ} {h : Heap} (hr : ReachesBy argsort P fuel Heap.empty h) (a : ℕ) :
    Q (h.obj a).world := by
  have hpow : ∀ m, Q m → ∀ n : ℕ, Q (m ^ n) := by
    intro m hm n
    induction n with
    | zero => rw [pow_zero]; exact h1
    | succ n ih => rw [pow_succ]; exact hmul _ _ ih hm
  have hal : ∀ (h : Heap) k b ex, (∀ a, Q (h.obj a).world) → ∀ a, Q ((h.alloc k b ex).obj a).world := by
    intro h k b ex hq a
    by_cases ha : a = h.size
    · subst ha; rw [alloc_obj_self]; exact h1
    · have : (h.alloc k b ex).obj a = h.obj a := by simp [Heap.alloc, ha]
      rw [this]; exact hq a
  have key : ∀ g h, ReachesBy argsort P fuel g h → (∀ a, Q (g.obj a).world) → Inv g → ∀ a, Q (h.obj a).world := by
    intro g h hr hg hi
    clear * - hr hg hi hal hpow h1 hmul hP
    induction hr with
    | refl => exact hg
    | step c hr' hv hc he ih =>
      rename_i h' h''
      have hi' := reaches_inv argsort hi hr'.reaches
      intro a
      cases c with
      | newPrim p => simp only [exec, Prod.mk.injEq, and_true] at he; rw [← he]; exact hal _ _ _ _ ih a
      | newPlain => simp only [exec, Prod.mk.injEq, and_true] at he; rw [← he]; exact hal _ _ _ _ ih a
      | newGroup ms => simp only [exec, Prod.mk.injEq, and_true] at he; rw [← he]; exact hal _ _ _ _ ih a
      | append g m =>
        simp only [exec, Prod.mk.injEq, and_true] at he
        rw [← he]
        unfold groupAppend
        split
        · rw [Heap.set_obj]
          split
          · exact ih g
          · exact ih a
        · exact ih a
      | newCsg op l r =>
        simp only [exec, Prod.mk.injEq, and_true] at he
        rw [← he, (newCsg_obj argsort _ op l r a).2]
        exact hal _ _ _ _ ih a
      | movement b mv =>
        obtain ⟨m, hm, ht⟩ := callMovement_ok argsort he
        rw [((transform_ok argsort m fuel b hi' hv ht).2).2 a]
        exact hmul _ _ (hpow m (hP mv m (hc b mv rfl) hm) _) (ih a)
  exact key _ _ hr (fun a => h1) empty_inv a

theorem row_mul {m w : Mat4} (hm : m 3 = ![0, 0, 0, 1]) (hw : w 3 = ![0, 0, 0, 1]) : (m * w) 3 = ![0, 0, 0, 1] := by
  have e : ∀ j, (m * w) 3 j = w 3 j := by
    intro j
    rw [Matrix.mul_apply, Fin.sum_univ_four, hm]
    simp
  funext j
  rw [e, hw]

theorem row_one : (1 : Mat4) 3 = ![0, 0, 0, 1] := by
  funext j; fin_cases j <;> first | (simp; done) | exact Matrix.one_apply_eq 3

theorem rigid_one : Rigid 1 := ⟨row_one, by simp, fun v _ => by rw [one_mulVec]⟩

theorem rigid_mul {m w : Mat4} (hm : Rigid m) (hw : Rigid w) : Rigid (m * w) := by
  refine ⟨row_mul hm.1 hw.1, by rw [det_mul, hm.2.1, hw.2.1, one_mul], fun v hv => ?_⟩
  rw [← mulVec_mulVec, hm.2.2 _ ?_, hw.2.2 v hv]
  rw [mulVec4, hw.1]
  simp [hv]

theorem rigid_affine {m : Mat4} (hm : Rigid m) : Affine m := ⟨hm.1, by rw [hm.2.1]; norm_num⟩

theorem Movement.IsRigid.rigid {mv : Movement} (hk : mv.IsRigid) {m : Mat4} (hm : mv.matrix = .ok m) : Rigid m := by
  rcases hk with ⟨x, y, z, rfl⟩ | ⟨t, u, rfl | rfl | rfl⟩
  · simp only [Movement.matrix, Except.ok.injEq] at hm; rw [← hm]; exact move_rigid x y z
  · simp only [Movement.matrix] at hm
    split at hm
    · rename_i s c hsc
      simp only [Except.ok.injEq] at hm
      rw [← hm]
      exact rotX_rigid (sinCos_sq hsc)
    · simp at hm
  · simp only [Movement.matrix] at hm
    split at hm
    · rename_i s c hsc
      simp only [Except.ok.injEq] at hm
      rw [← hm]
      exact rotY_rigid (sinCos_sq hsc)
    · simp at hm
  · simp only [Movement.matrix] at hm
    split at hm
    · rename_i s c hsc
      simp only [Except.ok.injEq] at hm
      rw [← hm]
      exact rotZ_rigid (sinCos_sq hsc)
    · simp at hm

theorem Movement.IsAffine.row {mv : Movement} (hk : mv.IsAffine) {m : Mat4} (hm : mv.matrix = .ok m) : m 3 = ![0, 0, 0, 1] := by
  cases mv with
  | move x y z =>
    exact (Movement.IsRigid.rigid (.inl ⟨x, y, z, rfl⟩) hm).1
  | scale x y z =>
    simp only [Movement.matrix] at hm
    split at hm
    · simp at hm
    · simp only [Except.ok.injEq] at hm
      rw [← hm]; rfl
  | rotateX t u => exact (Movement.IsRigid.rigid (.inr ⟨t, u, .inl rfl⟩) hm).1
  | rotateY t u => exact (Movement.IsRigid.rigid (.inr ⟨t, u, .inr (.inl rfl)⟩) hm).1
  | rotateZ t u => exact (Movement.IsRigid.rigid (.inr ⟨t, u, .inr (.inr rfl)⟩) hm).1
  | transform m' =>
    simp only [Movement.matrix, Except.ok.injEq] at hm
    rw [← hm]; exact hk m' rfl

/-- after any history of `move`s and rotations every object is placed rigidly -/
theorem reachesBy_rigid {fuel : ℕ} {h : Heap} (hr : ReachesBy argsort Movement.IsRigid fuel Heap.empty h) (a : ℕ) :
    Rigid (h.obj a).world :=
  hr.world rigid_one (fun _ _ => rigid_mul) (fun _ _ hk hm => hk.rigid hm) a

/-- after any history (with affine matrices given to `transform`) every object has an invertible affine world matrix -/
theorem reachesBy_affine {fuel : ℕ} {h : Heap} (hr : ReachesBy argsort Movement.IsAffine fuel Heap.empty h) {a : ℕ} (ha : a < h.size) :
    Affine (h.obj a).world :=
  ⟨hr.world (Q := fun m => m 3 = ![0, 0, 0, 1]) row_one (fun _ _ => row_mul) (fun _ _ hk hm => hk.row hm) a,
    ((reaches_inv argsort empty_inv hr.reaches).synced a ha).1⟩

end PyRayT
