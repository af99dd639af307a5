import Verif.Model.Getters
import Verif.Proofs.World

/-!
# Property C85: what the getters return
-/

namespace PyRayT

open Matrix

namespace Spec

/-- the product of the movement matrices of a program, the last one leftmost -/
noncomputable def placement : List GetOp → Mat4
  | [] => 1
  | .move m :: ops => placement ops * m
  | _ :: ops => placement ops

/-- a position or orientation array is overwritten after the last movement -/
def EditsAttribute : List GetOp → Prop
  | [] => False
  | o :: ops => (∃ i v, o = .editVec i v ∧ ∀ m, .move m ∉ ops) ∨ EditsAttribute ops

end Spec

/-- invariant: attributes and held matrices are different arrays; the matrices are right -/
structure GetOk (p : GetProg) (w : Mat4) : Prop where
  world : p.state.mats p.state.world = w
  objT : p.state.mats p.state.objT = w⁻¹
  lt1 : p.state.world < p.state.nextM
  lt2 : p.state.objT < p.state.nextM
  lt3 : p.state.pos < p.state.nextV
  lt4 : p.state.dir < p.state.nextV
  heldLt : ∀ i ∈ p.heldM, i < p.state.nextM
  held1 : p.state.world ∉ p.heldM
  held2 : p.state.objT ∉ p.heldM
  heldV : ∀ i ∈ p.heldV, i < p.state.nextV

/-- position and orientation are right -/
def PosOk (p : GetProg) (w : Mat4) : Prop :=
  p.state.vecs p.state.pos = w *ᵥ point 0 0 0 ∧ p.state.vecs p.state.dir = normalize (w *ᵥ vector 0 0 1)

theorem getStep_ok {p p' : GetProg} {w : Mat4} {o : GetOp} (ok : GetOk p w) (h : p.step o = some p') :
    (∀ m, o = .move m → GetOk p' (m * w) ∧ PosOk p' (m * w)) ∧
    ((∀ m, o ≠ .move m) → GetOk p' w ∧ ((∀ i v, o ≠ .editVec i v) → PosOk p w → PosOk p' w)) := by
  have l1 := ok.lt1
  have l2 := ok.lt2
  have l3 := ok.lt3
  have l4 := ok.lt4
  cases o with
  | move m =>
    refine ⟨fun m' e => ?_, fun hn => absurd rfl (hn m)⟩
    cases e
    simp only [GetProg.step, Option.map_eq_some_iff] at h
    obtain ⟨s, hs, rfl⟩ := h
    unfold GetState.move at hs
    simp only [ok.world] at hs
    split at hs
    · cases hs
    · cases hs
      refine ⟨⟨by simp, by simp, by simp, by simp, by simp, by simp, ?_, ?_, ?_, ?_⟩, by simp, by simp [normalize]; rfl⟩
      · intro i hi; have := ok.heldLt i hi; simp only; omega
      · intro hi; have := ok.heldLt _ hi; simp only at this; omega
      · intro hi; have := ok.heldLt _ hi; simp only at this; omega
      · intro i hi; have := ok.heldV i hi; simp only; omega
  | getPosition =>
    refine ⟨fun m e => (by cases e), fun _ => ?_⟩
    cases h
    refine ⟨⟨ok.world, ok.objT, l1, l2, l3, l4, ok.heldLt, ok.held1, ok.held2, ?_⟩, fun _ h => h⟩
    intro i hi
    simp only [List.mem_cons] at hi
    rcases hi with rfl | hi
    · exact l3
    · exact ok.heldV i hi
  | getOrientation =>
    refine ⟨fun m e => (by cases e), fun _ => ?_⟩
    cases h
    refine ⟨⟨ok.world, ok.objT, l1, l2, l3, l4, ok.heldLt, ok.held1, ok.held2, ?_⟩, fun _ h => h⟩
    intro i hi
    simp only [List.mem_cons] at hi
    rcases hi with rfl | hi
    · exact l4
    · exact ok.heldV i hi
  | getWorldTransform =>
    refine ⟨fun m e => (by cases e), fun _ => ?_⟩
    cases h
    refine ⟨⟨?_, ?_, ?_, ?_, l3, l4, ?_, ?_, ?_, ok.heldV⟩, fun _ h => h⟩
    · simp only [GetState.getWorldTransform]; rw [Function.update_of_ne (by omega)]; exact ok.world
    · simp only [GetState.getWorldTransform]; rw [Function.update_of_ne (by omega)]; exact ok.objT
    · simp only [GetState.getWorldTransform]; omega
    · simp only [GetState.getWorldTransform]; omega
    · intro i hi
      simp only [GetState.getWorldTransform, List.mem_cons] at hi ⊢
      rcases hi with rfl | hi
      · omega
      · have := ok.heldLt i hi; omega
    · intro hi
      simp only [GetState.getWorldTransform, List.mem_cons] at hi
      exact hi.elim (fun e => by omega) ok.held1
    · intro hi
      simp only [GetState.getWorldTransform, List.mem_cons] at hi
      exact hi.elim (fun e => by omega) ok.held2
  | getObjectTransform =>
    refine ⟨fun m e => (by cases e), fun _ => ?_⟩
    cases h
    refine ⟨⟨?_, ?_, ?_, ?_, l3, l4, ?_, ?_, ?_, ok.heldV⟩, fun _ h => h⟩
    · simp only [GetState.getObjectTransform]; rw [Function.update_of_ne (by omega)]; exact ok.world
    · simp only [GetState.getObjectTransform]; rw [Function.update_of_ne (by omega)]; exact ok.objT
    · simp only [GetState.getObjectTransform]; omega
    · simp only [GetState.getObjectTransform]; omega
    · intro i hi
      simp only [GetState.getObjectTransform, List.mem_cons] at hi ⊢
      rcases hi with rfl | hi
      · omega
      · have := ok.heldLt i hi; omega
    · intro hi
      simp only [GetState.getObjectTransform, List.mem_cons] at hi
      exact hi.elim (fun e => by omega) ok.held1
    · intro hi
      simp only [GetState.getObjectTransform, List.mem_cons] at hi
      exact hi.elim (fun e => by omega) ok.held2
  | editVec i v =>
    refine ⟨fun m e => (by cases e), fun _ => ?_⟩
    simp only [GetProg.step] at h
    split at h
    · cases h
      exact ⟨⟨ok.world, ok.objT, l1, l2, l3, l4, ok.heldLt, ok.held1, ok.held2, ok.heldV⟩, fun hn => absurd rfl (hn i v)⟩
    · cases h
  | editMat i m =>
    refine ⟨fun m e => (by cases e), fun _ => ?_⟩
    simp only [GetProg.step] at h
    split at h
    · rename_i hi
      cases h
      refine ⟨⟨?_, ?_, l1, l2, l3, l4, ok.heldLt, ok.held1, ok.held2, ok.heldV⟩, fun _ h => h⟩
      · simp only; rw [Function.update_of_ne (fun e => ok.held1 (by rw [e]; exact hi))]; exact ok.world
      · simp only; rw [Function.update_of_ne (fun e => ok.held2 (by rw [e]; exact hi))]; exact ok.objT
    · cases h

theorem getRun_ok {p p' : GetProg} {ops : List GetOp} (hr : GetProg.Runs p ops p') : ∀ {w : Mat4}, GetOk p w →
    GetOk p' (Spec.placement ops * w) ∧
      ((PosOk p w ∨ ∃ m, .move m ∈ ops) → ¬ Spec.EditsAttribute ops → PosOk p' (Spec.placement ops * w)) := by
  induction hr with
  | nil p => intro w ok; simp only [Spec.placement, one_mul]; exact ⟨ok, fun h _ => h.elim id (by simp)⟩
  | @cons p p1 p' o os hs _ ih =>
    intro w ok
    obtain ⟨h1, h2⟩ := getStep_ok ok hs
    by_cases hm : ∃ m, o = .move m
    · obtain ⟨m, rfl⟩ := hm
      obtain ⟨g1, g2⟩ := h1 m rfl
      obtain ⟨i1, i2⟩ := ih g1
      simp only [Spec.placement, Matrix.mul_assoc]
      exact ⟨i1, fun _ hn => i2 (Or.inl g2) (fun he => hn (Or.inr he))⟩
    · have hn : ∀ m, o ≠ .move m := fun m e => hm ⟨m, e⟩
      obtain ⟨g1, g2⟩ := h2 hn
      obtain ⟨i1, i2⟩ := ih g1
      have e : Spec.placement (o :: os) = Spec.placement os := by
        cases o <;> first | rfl | exact absurd rfl (hn _)
      rw [e]
      refine ⟨i1, fun hpos hne => i2 ?_ (fun he => hne (Or.inr he))⟩
      rcases hpos with hp | ⟨m, hmem⟩
      · by_cases hv : ∃ i v, o = .editVec i v
        · obtain ⟨i, v, rfl⟩ := hv
          right
          by_contra hcon
          push Not at hcon
          exact hne (Or.inl ⟨i, v, rfl, hcon⟩)
        · exact Or.inl (g2 (fun i v e => hv ⟨i, v, e⟩) hp)
      · right
        simp only [List.mem_cons] at hmem
        rcases hmem with e | hmem
        · exact absurd e.symm (hn m)
        · exact ⟨m, hmem⟩

theorem getInit_ok : GetOk .init 1 ∧ PosOk .init 1 := by
  refine ⟨⟨rfl, by simp [GetProg.init, GetState.init], by simp [GetProg.init, GetState.init], by simp [GetProg.init, GetState.init],
    by simp [GetProg.init, GetState.init], by simp [GetProg.init, GetState.init], by simp [GetProg.init],
    by simp [GetProg.init], by simp [GetProg.init], by simp [GetProg.init]⟩, ?_, ?_⟩
  · simp [GetProg.init, GetState.init]
  · have : norm4 (vector 0 0 1) = 1 := by simp [norm4, vector]
    simp only [GetProg.init, GetState.init, one_ne_zero, if_false, one_mulVec]
    funext i
    simp [normalize, this]

/-- **C85, matrices.** Whatever a program does with arrays it got from the getters of an object, `get_world_transform()` returns the
product of all movements and `get_object_transform()` its inverse. -/
theorem C85_transforms (ops : List GetOp) (p : GetProg) (hr : GetProg.Runs .init ops p) :
    p.state.getWorldTransform.1.mats p.state.getWorldTransform.2 = Spec.placement ops ∧
    p.state.getObjectTransform.1.mats p.state.getObjectTransform.2 = (Spec.placement ops)⁻¹ := by
  obtain ⟨h, -⟩ := getRun_ok hr getInit_ok.1
  rw [mul_one] at h
  simp only [GetState.getWorldTransform, GetState.getObjectTransform, Function.update_self]
  exact ⟨h.world, h.objT⟩

/-- **C85, position, partial.** `get_position()` and `get_orientation()` return the moved origin and the moved z axis as a unit
vector, unless the program has overwritten an array it got from one of them after the last movement. Missing: programs that
do (`C85_position_false`). -/
theorem C85_position_partial (ops : List GetOp) (p : GetProg) (hr : GetProg.Runs .init ops p) (he : ¬ Spec.EditsAttribute ops) :
    p.state.vecs p.state.getPosition = Spec.placement ops *ᵥ point 0 0 0 ∧
    p.state.vecs p.state.getOrientation = normalize (Spec.placement ops *ᵥ vector 0 0 1) := by
  obtain ⟨-, h⟩ := getRun_ok hr getInit_ok.1
  have := h (Or.inl getInit_ok.2) he
  rw [mul_one] at this
  exact this

/-- **C85 is false for `get_position`**: it returns the attribute itself. After `p = obj.get_position(); p[0] = 5` the next
`get_position()` returns (5, 0, 0) although the object was not moved and its world transform is still the identity. -/
theorem C85_position_false : ∃ p, GetProg.Runs .init [.getPosition, .editVec 0 (point 5 0 0)] p ∧
    p.state.vecs p.state.getPosition = point 5 0 0 ∧
    p.state.getWorldTransform.1.mats p.state.getWorldTransform.2 = 1 := by
  refine ⟨_, .cons rfl (.cons (by simp [GetProg.step, GetProg.init, GetState.getPosition, GetState.init]; rfl) (.nil _)), ?_, ?_⟩
  · simp [GetState.getPosition]
  · simp [GetState.getWorldTransform]

/-- Non-vacuity of C85: a returned matrix is overwritten, then the object moves, then the position is read. -/
example : ∃ p, GetProg.Runs .init [.getWorldTransform, .editMat 2 0, .move (moveMatrix 1 2 3), .getPosition] p ∧
    ¬ Spec.EditsAttribute [.getWorldTransform, .editMat 2 0, .move (moveMatrix 1 2 3), .getPosition] ∧
    p.state.vecs p.state.getPosition = point 1 2 3 := by
  have hd : (moveMatrix 1 2 3).det = 1 := by
    rw [moveMatrix, Matrix.det_succ_row_zero]
    simp [Fin.sum_univ_succ, Matrix.det_fin_three, Fin.succAbove]
  have hv : moveMatrix 1 2 3 *ᵥ vector 0 0 1 = vector 0 0 1 := by
    funext i; fin_cases i <;> simp [moveMatrix, vector, Matrix.mulVec, dotProduct, Fin.sum_univ_succ]
  have hn : norm4 (vector 0 0 1) = 1 := by simp [norm4, vector]
  have hnot : ¬ Spec.EditsAttribute [.getWorldTransform, .editMat 2 0, .move (moveMatrix 1 2 3), .getPosition] := by
    simp [Spec.EditsAttribute]
  have hrun : ∃ p, GetProg.Runs .init [.getWorldTransform, .editMat 2 0, .move (moveMatrix 1 2 3), .getPosition] p := by
    have hmove : ∀ q : GetProg, q.state.mats q.state.world = 1 → ∃ q', q.step (.move (moveMatrix 1 2 3)) = some q' := by
      intro q hq
      simp only [GetProg.step, GetState.move, hq, mul_one, hv, hn, hd]
      rw [if_neg (by norm_num)]
      exact ⟨_, rfl⟩
    obtain ⟨q, hq⟩ : ∃ q, GetProg.Runs .init [.getWorldTransform, .editMat 2 0] q :=
      ⟨_, .cons rfl (.cons (by simp [GetProg.step, GetState.getWorldTransform, GetProg.init, GetState.init]; rfl) (.nil _))⟩
    have hw := (getRun_ok hq getInit_ok.1).1.world
    obtain ⟨q', hq'⟩ := hmove q (by rw [hw]; simp [Spec.placement])
    cases hq with
    | cons h1 h2 => cases h2 with
      | cons h2 h3 => cases h3; exact ⟨_, .cons h1 (.cons h2 (.cons hq' (.cons rfl (.nil _))))⟩
  obtain ⟨p, hp⟩ := hrun
  refine ⟨p, hp, hnot, ?_⟩
  rw [(C85_position_partial _ p hp hnot).1]
  simp only [Spec.placement, one_mul]
  funext i; fin_cases i <;> simp [moveMatrix, point, Matrix.mulVec, dotProduct, Fin.sum_univ_succ]

end PyRayT
