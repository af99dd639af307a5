import Verif.Proofs.World3
import Mathlib.Tactic.IntervalCases

/-!
# Properties C13 - C18 and C56: placement of objects

`Reaches argsort fuel Heap.empty h`: `h` is the state after some history of constructor and movement
calls, none of which raised. `ReachesAny`: calls may have raised and the program carried on.
`Spec.visits kind fuel a`: `a` followed by everything below it (CSG children, group members), in order,
with repetitions when an object occurs several times.
-/

namespace PyRayT

open Classical Matrix

variable (argsort : List EReal → List ℕ)

/-! ### C13 -/

/-- **C13 (frames).** After every history without exceptions, for every object: the two coordinate changes are
mutually inverse, the position is the image of the origin, and the orientation is the unit vector along the
image of the z axis. -/
theorem C13_frames (fuel : ℕ) (h : Heap) (hr : Reaches argsort fuel Heap.empty h) (a : ℕ) (ha : a < h.size) :
    let o := h.obj a
    (∀ v, o.objT *ᵥ (o.world *ᵥ v) = v) ∧ (∀ v, o.world *ᵥ (o.objT *ᵥ v) = v) ∧
    o.origin = o.world *ᵥ ![0, 0, 0, 1] ∧
    (∃ k : ℝ, 0 < k ∧ o.world *ᵥ ![0, 0, 1, 0] = k • o.dir) ∧ norm4 o.dir = 1 := by
  have hs := (reaches_inv argsort empty_inv hr).synced a ha
  obtain ⟨h1, h2, h3, h4, h5⟩ := hs
  have hu : IsUnit (h.obj a).world.det := isUnit_iff_ne_zero.2 h1
  have hpos : 0 < norm4 ((h.obj a).world *ᵥ vector 0 0 1) := lt_of_lt_of_le (by norm_num) h4
  refine ⟨fun v => ?_, fun v => ?_, h3, ⟨norm4 ((h.obj a).world *ᵥ vector 0 0 1), hpos, ?_⟩, ?_⟩
  · rw [h2, mulVec_mulVec, nonsing_inv_mul _ hu, one_mulVec]
  · rw [h2, mulVec_mulVec, mul_nonsing_inv _ hu, one_mulVec]
  · rw [h5]
    funext i
    simp only [Pi.smul_apply, smul_eq_mul, normalize]
    rw [mul_div_cancel₀ _ hpos.ne']; rfl
  · rw [h5]; exact norm4_normalize hpos

/-- The world matrix an object should have after a list of movement calls: one factor per call, on the left, and
per occurrence below the object the call was made on. -/
noncomputable def Spec.worldAfter (kind : ℕ → Kind) (fuel b : ℕ) : List (ℕ × Movement) → Mat4 → Mat4
  | [], w => w
  | (a, mv) :: tl, w => Spec.worldAfter kind fuel b tl
      (match mv.matrix with
        | .ok m => m ^ (Spec.visits kind fuel a).count b * w
        | .error _ => w)

theorem runMovements_ok {fuel : ℕ} (ops : List (ℕ × Movement)) : ∀ {h h' : Heap}, Inv h →
    (∀ p ∈ ops, p.1 < h.size) → runMovements argsort fuel h ops = (h', none) →
    Inv h' ∧ Static h h' ∧
      ∀ b, (h'.obj b).world = Spec.worldAfter (fun a => (h.obj a).kind) fuel b ops (h.obj b).world := by
  induction ops with
  | nil =>
    intro h h' hi _ hr
    simp only [runMovements, Prod.mk.injEq, and_true] at hr
    subst hr
    exact ⟨hi, Static.refl _, fun b => rfl⟩
  | cons p tl ih =>
    obtain ⟨a, mv⟩ := p
    intro h h' hi hlt hr
    obtain ⟨h1, e1, e2⟩ := Res.andThen_ok hr
    obtain ⟨m, hm, et⟩ := callMovement_ok argsort e1
    obtain ⟨hi1, hm1⟩ := transform_ok argsort m fuel a hi (hlt (a, mv) (by simp)) et
    obtain ⟨hi2, hs2, hw2⟩ := ih hi1 (fun p hp => by rw [hm1.1.1]; exact hlt p (by simp [hp])) e2
    refine ⟨hi2, hm1.1.trans hs2, fun b => ?_⟩
    rw [hw2 b, hm1.1.kinds, hm1.2 b, Spec.worldAfter, hm]

/-- **C13 (history).** In a reachable state, after any list of movement calls on any objects (none raising), every
object's world matrix is the product of the applied matrices, the latest on the left; a call on a parent
counts once per occurrence of the object below it. -/
theorem C13_history (fuel : ℕ) (h h' : Heap) (hr : Reaches argsort fuel Heap.empty h)
    (ops : List (ℕ × Movement)) (hlt : ∀ p ∈ ops, p.1 < h.size)
    (hrun : runMovements argsort fuel h ops = (h', none)) (b : ℕ) :
    (h'.obj b).world = Spec.worldAfter (fun a => (h.obj a).kind) fuel b ops (h.obj b).world :=
  (runMovements_ok argsort ops (reaches_inv argsort empty_inv hr) hlt hrun).2.2 b

theorem worldAfter_single (kind : ℕ → Kind) (fuel b : ℕ) (hk : kind b = .plain ∨ ∃ p, kind b = .prim p)
    (mvs : List Movement) : ∀ (mats : List Mat4), List.Forall₂ (fun mv m => mv.matrix = .ok m) mvs mats → ∀ w,
    Spec.worldAfter kind (fuel + 1) b (mvs.map fun mv => (b, mv)) w = mats.reverse.prod * w := by
  have hv : Spec.visits kind (fuel + 1) b = [b] := by
    unfold Spec.visits
    rcases hk with hk | ⟨p, hk⟩ <;> rw [hk]
  induction mvs with
  | nil => intro mats hm w; cases hm; simp [Spec.worldAfter]
  | cons mv mvs ih =>
    intro mats hm w
    obtain ⟨m, ms, h1, h2, rfl⟩ := List.forall₂_cons_left_iff.1 hm
    simp only [List.map_cons, Spec.worldAfter, h1, hv, List.count_singleton_self, pow_one]
    rw [ih ms h2, List.reverse_cons, List.prod_append, List.prod_singleton, mul_assoc]

/-- For a surface, camera or source moved directly the product is the plain product of the matrices. -/
theorem C13_history_single (fuel : ℕ) (h h' : Heap) (hr : Reaches argsort (fuel + 1) Heap.empty h) (b : ℕ)
    (hb : b < h.size) (hk : (h.obj b).kind = .plain ∨ ∃ p, (h.obj b).kind = .prim p)
    (mvs : List Movement) (mats : List Mat4) (hmats : List.Forall₂ (fun mv m => mv.matrix = .ok m) mvs mats)
    (hrun : runMovements argsort (fuel + 1) h (mvs.map fun mv => (b, mv)) = (h', none)) :
    (h'.obj b).world = mats.reverse.prod * (h.obj b).world := by
  rw [C13_history argsort _ h h' hr _ (by simp; intro _ _; exact hb) hrun b]
  exact worldAfter_single _ fuel b hk mvs mats hmats _

/-! #### a concrete state used by the examples -/

/-- two surfaces, their union, a camera, and a group of the union and the camera -/
noncomputable def demo : Heap :=
  newGroup (newPlain (newCsg argsort (newPrim (newPrim Heap.empty (.sphere 1)) (.cylinder 1 0 2)) .union 0 1)) [2, 3]

theorem demo_spec : (demo argsort).size = 5 ∧
    ((demo argsort).obj 0).kind = .prim (.sphere 1) ∧ ((demo argsort).obj 1).kind = .prim (.cylinder 1 0 2) ∧
    ((demo argsort).obj 2).kind = .csg .union 0 1 ∧ ((demo argsort).obj 3).kind = .plain ∧
    ((demo argsort).obj 4).kind = .group [2, 3] ∧ ∀ a < 5, ((demo argsort).obj a).world = 1 := by
  set h2 := newPrim (newPrim Heap.empty (.sphere 1)) (.cylinder 1 0 2) with hh2
  have k0 : (h2.obj 0).kind = .prim (.sphere 1) ∧ (h2.obj 0).world = 1 := by
    simp [hh2, newPrim, Heap.alloc, Heap.empty]
  have k1 : (h2.obj 1).kind = .prim (.cylinder 1 0 2) ∧ (h2.obj 1).world = 1 := by
    simp [hh2, newPrim, Heap.alloc, Heap.empty]
  have s2 : h2.size = 2 := rfl
  set h3 := newCsg argsort h2 .union 0 1 with hh3
  have s3 : h3.size = 3 := by rw [hh3, newCsg_size, s2]
  have k2 := newCsg_kind_self argsort h2 .union 0 1
  have w2 := newCsg_world_self argsort h2 .union 0 1
  rw [s2] at k2 w2
  have lt3 : ∀ a < 2, (h3.obj a).kind = (h2.obj a).kind ∧ (h3.obj a).world = (h2.obj a).world := fun a ha =>
    ⟨newCsg_kind_lt argsort h2 .union 0 1 (by omega), newCsg_world_lt argsort h2 .union 0 1 (by omega)⟩
  set h4 := newPlain h3 with hh4
  have s4 : h4.size = 4 := by show h3.size + 1 = 4; omega
  have lt4 : ∀ a < 3, h4.obj a = h3.obj a := fun a ha => alloc_obj_lt _ _ _ _ (by omega)
  have k3 : (h4.obj 3).kind = .plain ∧ (h4.obj 3).world = 1 := by
    have := alloc_obj_self h3 .plain (fun _ => (0, 0)) []
    rw [s3] at this
    rw [hh4, newPlain, this]; exact ⟨rfl, rfl⟩
  have e : demo argsort = newGroup h4 [2, 3] := rfl
  have s5 : (demo argsort).size = 5 := by rw [e]; show h4.size + 1 = 5; omega
  have lt5 : ∀ a < 4, (demo argsort).obj a = h4.obj a := fun a ha => by
    rw [e]; exact alloc_obj_lt _ _ _ _ (by omega)
  have k4 : ((demo argsort).obj 4).kind = .group [2, 3] ∧ ((demo argsort).obj 4).world = 1 := by
    have := alloc_obj_self h4 (.group [2, 3]) (fun _ => (0, 0)) []
    rw [s4] at this
    rw [e, newGroup, this]; exact ⟨rfl, rfl⟩
  refine ⟨s5, ?_, ?_, ?_, ?_, k4.1, ?_⟩
  · rw [lt5 0 (by omega), lt4 0 (by omega), (lt3 0 (by omega)).1, k0.1]
  · rw [lt5 1 (by omega), lt4 1 (by omega), (lt3 1 (by omega)).1, k1.1]
  · rw [lt5 2 (by omega), lt4 2 (by omega), k2]
  · rw [lt5 3 (by omega), k3.1]
  · intro a ha
    interval_cases a
    · rw [lt5 0 (by omega), lt4 0 (by omega), (lt3 0 (by omega)).2, k0.2]
    · rw [lt5 1 (by omega), lt4 1 (by omega), (lt3 1 (by omega)).2, k1.2]
    · rw [lt5 2 (by omega), lt4 2 (by omega), w2]
    · rw [lt5 3 (by omega), k3.2]
    · exact k4.2

theorem demo_reaches (fuel : ℕ) : Reaches argsort fuel Heap.empty (demo argsort) := by
  have r1 : Reaches argsort fuel Heap.empty (newPrim Heap.empty (.sphere 1)) :=
    Reaches.step (.newPrim (.sphere 1)) (Reaches.refl _) trivial rfl
  have r2 : Reaches argsort fuel Heap.empty (newPrim (newPrim Heap.empty (.sphere 1)) (.cylinder 1 0 2)) :=
    Reaches.step (.newPrim (.cylinder 1 0 2)) r1 trivial rfl
  set h2 := newPrim (newPrim Heap.empty (.sphere 1)) (.cylinder 1 0 2) with hh2
  have r3 : Reaches argsort fuel Heap.empty (newCsg argsort h2 .union 0 1) := by
    refine Reaches.step (.newCsg .union 0 1) r2 ⟨by show 0 < 2; omega, by show 1 < 2; omega, ?_, ?_⟩ rfl
    · simp [hh2, newPrim, Heap.alloc, Heap.empty, Kind.intersectable]
    · simp [hh2, newPrim, Heap.alloc, Heap.empty, Kind.intersectable]
  set h3 := newCsg argsort h2 .union 0 1 with hh3
  have s3 : h3.size = 3 := by rw [hh3, newCsg_size]; rfl
  have r4 : Reaches argsort fuel Heap.empty (newPlain h3) := Reaches.step .newPlain r3 trivial rfl
  refine Reaches.step (.newGroup [2, 3]) r4 ?_ rfl
  intro m hm
  have : (newPlain h3).size = 4 := by show h3.size + 1 = 4; omega
  rw [this]
  simp at hm
  omega

theorem demo_visits (fuel : ℕ) : Spec.visits (fun a => ((demo argsort).obj a).kind) (fuel + 3) 4 = [4, 2, 0, 1, 3] := by
  obtain ⟨-, k0, k1, k2, k3, k4, -⟩ := demo_spec argsort
  simp [Spec.visits, k0, k1, k2, k3, k4]

/-- every movement of a rigid kind works on the demo state -/
theorem demo_moves (m : Mat4) (hm : Rigid m) (fuel : ℕ) : ∃ h', transform argsort (fuel + 3) (demo argsort) 4 m = (h', none) := by
  obtain ⟨hs, k0, k1, k2, k3, k4, hw⟩ := demo_spec argsort
  have hi := reaches_inv argsort empty_inv (demo_reaches argsort 0)
  obtain ⟨h', e, -⟩ := transform_succeeds argsort (rigid_good hm) (fuel + 3) (h := demo argsort) 4 hi
    (fun b hb => by rw [hw b (by omega)]; exact goodWorld_one) (by omega)
    (by simp [Spec.fits, k0, k1, k2, k3, k4])
  exact ⟨h', e⟩

/-- C13 is about something: moving the group moves the sphere inside the union inside the group. -/
example : ∃ h', runMovements argsort 3 (demo argsort) [(4, .move 1 2 3)] = (h', none) ∧
    (h'.obj 0).world = moveMatrix 1 2 3 ∧ (h'.obj 0).origin = ![1, 2, 3, 1] := by
  obtain ⟨h', e⟩ := demo_moves argsort _ (move_rigid 1 2 3) 0
  have hrun : runMovements argsort 3 (demo argsort) [(4, .move 1 2 3)] = (h', none) := by
    simp [runMovements, callMovement, Movement.matrix, e, Res.andThen]
  obtain ⟨hs, k0, k1, k2, k3, k4, hw⟩ := demo_spec argsort
  have hwld : (h'.obj 0).world = moveMatrix 1 2 3 := by
    rw [C13_history argsort 3 _ h' (demo_reaches argsort 3) _ (by simp [hs]) hrun 0]
    simp only [Spec.worldAfter, Movement.matrix]
    rw [show (3 : ℕ) = 0 + 3 from rfl, demo_visits argsort 0, hw 0 (by omega)]
    simp
  have hreach : Reaches argsort 3 Heap.empty h' :=
    Reaches.step (.movement 4 (.move 1 2 3)) (demo_reaches argsort 3) (by simp [Cmd.valid, hs])
      (by simp [exec, callMovement, Movement.matrix, e])
  have hsz : h'.size = 5 := by
    have := transform_static argsort (moveMatrix 1 2 3) 3 (demo argsort) 4
    rw [e] at this
    exact this.1.trans hs
  obtain ⟨-, -, ho, -⟩ := C13_frames argsort 3 h' hreach 0 (by omega)
  refine ⟨h', hrun, hwld, ?_⟩
  rw [ho, hwld]
  funext i
  rw [mulVec4]
  fin_cases i <;> simp [moveMatrix]

/-! ### C14 -/

/-- **C14.** The matrices of the movement methods compose as documented. -/
theorem C14_laws :
    (∀ a b c a' b' c', moveMatrix a' b' c' * moveMatrix a b c = moveMatrix (a + a') (b + b') (c + c') ∧
      moveMatrix a' b' c' * moveMatrix a b c = moveMatrix a b c * moveMatrix a' b' c') ∧
    (∀ u, u ≠ .other → ∀ rot ∈ [Movement.rotateX, .rotateY, .rotateZ], ∀ t t' : ℝ, ∃ m m' m'',
      (rot t u).matrix = .ok m ∧ (rot t' u).matrix = .ok m' ∧ (rot (t + t') u).matrix = .ok m'' ∧ m' * m = m'') ∧
    (∀ u, u ≠ .other → ∀ rot ∈ [Movement.rotateX, .rotateY, .rotateZ], ∀ t : ℝ, ∃ m m',
      (rot t u).matrix = .ok m ∧ (rot (-t) u).matrix = .ok m' ∧ m' * m = 1) ∧
    (∀ rot ∈ [Movement.rotateX, .rotateY, .rotateZ], ∀ (t : ℝ) (k : ℤ),
      (rot (t + 360 * k) .deg).matrix = (rot t .deg).matrix ∧
      (rot (t + 2 * Real.pi * k) .rad).matrix = (rot t .rad).matrix ∧
      (rot (t * 180 / Real.pi) .deg).matrix = (rot t .rad).matrix) ∧
    (∀ x y z, 0 < x → 0 < y → 0 < z → ∃ m m', (Movement.scale x y z).matrix = .ok m ∧
      (Movement.scale (1 / x) (1 / y) (1 / z)).matrix = .ok m' ∧ m' * m = 1) := by
  refine ⟨?_, ?_, ?_, ?_, ?_⟩
  · intro a b c a' b' c'
    constructor
    · ext i j; fin_cases i <;> fin_cases j <;> simp [moveMatrix, Matrix.mul_apply, Fin.sum_univ_four]
    · ext i j; fin_cases i <;> fin_cases j <;> simp [moveMatrix, Matrix.mul_apply, Fin.sum_univ_four, add_comm]
  · intro u hu rot hrot t t'
    have key : ∃ f : ℝ → ℝ, (∀ t, sinCos t u = some (Real.sin (f t), Real.cos (f t))) ∧ ∀ t t', f (t + t') = f t + f t' := by
      cases u with
      | deg => exact ⟨fun t => t * Real.pi / 180, fun t => rfl, fun t t' => by ring⟩
      | rad => exact ⟨fun t => t, fun t => rfl, fun t t' => rfl⟩
      | other => exact absurd rfl hu
    obtain ⟨f, hf, hadd⟩ := key
    simp only [List.mem_cons, List.not_mem_nil, or_false] at hrot
    rcases hrot with rfl | rfl | rfl
    · simp only [Movement.matrix, hf, hadd]
      refine ⟨_, _, _, rfl, rfl, rfl, ?_⟩
      ext i j; fin_cases i <;> fin_cases j <;>
        simp [rotXMatrix, Matrix.mul_apply, Fin.sum_univ_four, Real.sin_add, Real.cos_add] <;> ring
    · simp only [Movement.matrix, hf, hadd]
      refine ⟨_, _, _, rfl, rfl, rfl, ?_⟩
      ext i j; fin_cases i <;> fin_cases j <;>
        simp [rotYMatrix, Matrix.mul_apply, Fin.sum_univ_four, Real.sin_add, Real.cos_add] <;> ring
    · simp only [Movement.matrix, hf, hadd]
      refine ⟨_, _, _, rfl, rfl, rfl, ?_⟩
      ext i j; fin_cases i <;> fin_cases j <;>
        simp [rotZMatrix, Matrix.mul_apply, Fin.sum_univ_four, Real.sin_add, Real.cos_add] <;> ring
  · intro u hu rot hrot t
    have key : ∃ f : ℝ → ℝ, (∀ t, sinCos t u = some (Real.sin (f t), Real.cos (f t))) ∧ ∀ t, f (-t) = - f t := by
      cases u with
      | deg => exact ⟨fun t => t * Real.pi / 180, fun t => rfl, fun t => by ring⟩
      | rad => exact ⟨fun t => t, fun t => rfl, fun t => rfl⟩
      | other => exact absurd rfl hu
    obtain ⟨f, hf, hneg⟩ := key
    have hsc := Real.sin_sq_add_cos_sq (f t)
    simp only [List.mem_cons, List.not_mem_nil, or_false] at hrot
    rcases hrot with rfl | rfl | rfl
    · simp only [Movement.matrix, hf, hneg, Real.sin_neg, Real.cos_neg]
      refine ⟨_, _, rfl, rfl, ?_⟩
      ext i j; fin_cases i <;> fin_cases j <;>
        simp [rotXMatrix, Matrix.mul_apply, Fin.sum_univ_four] <;> linarith
    · simp only [Movement.matrix, hf, hneg, Real.sin_neg, Real.cos_neg]
      refine ⟨_, _, rfl, rfl, ?_⟩
      ext i j; fin_cases i <;> fin_cases j <;>
        simp [rotYMatrix, Matrix.mul_apply, Fin.sum_univ_four] <;> linarith
    · simp only [Movement.matrix, hf, hneg, Real.sin_neg, Real.cos_neg]
      refine ⟨_, _, rfl, rfl, ?_⟩
      ext i j; fin_cases i <;> fin_cases j <;>
        simp [rotZMatrix, Matrix.mul_apply, Fin.sum_univ_four] <;> linarith
  · intro rot hrot t k
    have e1 : sinCos (t + 360 * k) .deg = sinCos t .deg := by
      have : (t + 360 * k) * Real.pi / 180 = t * Real.pi / 180 + k * (2 * Real.pi) := by ring
      simp only [sinCos, this, Real.sin_add_int_mul_two_pi, Real.cos_add_int_mul_two_pi]
    have e2 : sinCos (t + 2 * Real.pi * k) .rad = sinCos t .rad := by
      have : t + 2 * Real.pi * k = t + k * (2 * Real.pi) := by ring
      simp only [sinCos, this, Real.sin_add_int_mul_two_pi, Real.cos_add_int_mul_two_pi]
    have e3 : sinCos (t * 180 / Real.pi) .deg = sinCos t .rad := by
      have : t * 180 / Real.pi * Real.pi / 180 = t := by field_simp
      simp only [sinCos, this]
    simp only [List.mem_cons, List.not_mem_nil, or_false] at hrot
    rcases hrot with rfl | rfl | rfl <;> simp only [Movement.matrix, e1, e2, e3] <;> exact ⟨trivial, trivial, trivial⟩
  · intro x y z hx hy hz
    refine ⟨scaleMatrix x y z, scaleMatrix (1 / x) (1 / y) (1 / z), ?_, ?_, ?_⟩
    · simp [Movement.matrix, not_lt.2 hx.le, not_lt.2 hy.le, not_lt.2 hz.le]
    · simp [Movement.matrix, hx.le, hy.le, hz.le]
    · ext i j; fin_cases i <;> fin_cases j <;>
        simp [scaleMatrix, Matrix.mul_apply, Fin.sum_univ_four, hx.ne', hy.ne', hz.ne']

/-- **C14 (rigidity).** `move` and the rotations keep the distance of any two points, and each rotation keeps the
points of its axis. -/
theorem C14_rigid (mv : Movement) (m : Mat4) (hm : mv.matrix = .ok m)
    (hk : (∃ x y z, mv = .move x y z) ∨ ∃ t u, mv = .rotateX t u ∨ mv = .rotateY t u ∨ mv = .rotateZ t u) :
    (∀ p q : Vec4, p 3 = 1 → q 3 = 1 → norm4 (m *ᵥ p - m *ᵥ q) = norm4 (p - q)) ∧
    (∀ t u, mv = .rotateX t u → ∀ s, m *ᵥ point s 0 0 = point s 0 0) ∧
    (∀ t u, mv = .rotateY t u → ∀ s, m *ᵥ point 0 s 0 = point 0 s 0) ∧
    (∀ t u, mv = .rotateZ t u → ∀ s, m *ᵥ point 0 0 s = point 0 0 s) := by
  have rig : Rigid m := by
    rcases hk with ⟨x, y, z, rfl⟩ | ⟨t, u, rfl | rfl | rfl⟩
    · simp only [Movement.matrix, Except.ok.injEq] at hm; rw [← hm]; exact move_rigid x y z
    · simp only [Movement.matrix] at hm
      split at hm
      · rename_i s c hsc
        simp only [Except.ok.injEq] at hm
        rw [← hm]
        exact rotX_rigid (sinCos_sq hsc)
      · simp at hm
    · simp only [Movement.matrix] at hm
      split at hm
      · rename_i s c hsc
        simp only [Except.ok.injEq] at hm
        rw [← hm]
        exact rotY_rigid (sinCos_sq hsc)
      · simp at hm
    · simp only [Movement.matrix] at hm
      split at hm
      · rename_i s c hsc
        simp only [Except.ok.injEq] at hm
        rw [← hm]
        exact rotZ_rigid (sinCos_sq hsc)
      · simp at hm
  refine ⟨?_, ?_, ?_, ?_⟩
  · intro p q hp hq
    rw [← Matrix.mulVec_sub]
    exact rig.2.2 _ (by simp [hp, hq])
  · rintro t u rfl s
    simp only [Movement.matrix] at hm
    split at hm
    · simp only [Except.ok.injEq] at hm
      rw [← hm]; funext i; rw [mulVec4]; fin_cases i <;> simp [rotXMatrix, point]
    · simp at hm
  · rintro t u rfl s
    simp only [Movement.matrix] at hm
    split at hm
    · simp only [Except.ok.injEq] at hm
      rw [← hm]; funext i; rw [mulVec4]; fin_cases i <;> simp [rotYMatrix, point]
    · simp at hm
  · rintro t u rfl s
    simp only [Movement.matrix] at hm
    split at hm
    · simp only [Except.ok.injEq] at hm
      rw [← hm]; funext i; rw [mulVec4]; fin_cases i <;> simp [rotZMatrix, point]
    · simp at hm

/-- **C14 (directions).** `move` shifts points by its arguments, `scale` multiplies their coordinates, and the rotations are
right-handed: rotating about x by a positive angle turns y towards z, about y turns z towards x, about z turns x towards y. -/
theorem C14_directions (x y z θ : ℝ) :
    (∀ a b c : ℝ, ∃ m, (Movement.move a b c).matrix = .ok m ∧ m *ᵥ point x y z = point (x + a) (y + b) (z + c) ∧
      m *ᵥ vector x y z = vector x y z) ∧
    (∀ a b c : ℝ, 0 ≤ a → 0 ≤ b → 0 ≤ c → ∃ m, (Movement.scale a b c).matrix = .ok m ∧
      m *ᵥ point x y z = point (a * x) (b * y) (c * z)) ∧
    (∃ m, (Movement.rotateX θ .rad).matrix = .ok m ∧ m *ᵥ vector 0 1 0 = vector 0 (Real.cos θ) (Real.sin θ) ∧
      m *ᵥ vector 0 0 1 = vector 0 (-Real.sin θ) (Real.cos θ)) ∧
    (∃ m, (Movement.rotateY θ .rad).matrix = .ok m ∧ m *ᵥ vector 0 0 1 = vector (Real.sin θ) 0 (Real.cos θ) ∧
      m *ᵥ vector 1 0 0 = vector (Real.cos θ) 0 (-Real.sin θ)) ∧
    (∃ m, (Movement.rotateZ θ .rad).matrix = .ok m ∧ m *ᵥ vector 1 0 0 = vector (Real.cos θ) (Real.sin θ) 0 ∧
      m *ᵥ vector 0 1 0 = vector (-Real.sin θ) (Real.cos θ) 0) := by
  refine ⟨fun a b c => ⟨_, rfl, ?_, ?_⟩, fun a b c ha hb hc => ⟨scaleMatrix a b c, ?_, ?_⟩, ⟨_, rfl, ?_, ?_⟩, ⟨_, rfl, ?_, ?_⟩,
    ⟨_, rfl, ?_, ?_⟩⟩
  · funext i; rw [mulVec4]; fin_cases i <;> simp [moveMatrix, point]
  · funext i; rw [mulVec4]; fin_cases i <;> simp [moveMatrix, vector]
  · simp [Movement.matrix, not_lt.2 ha, not_lt.2 hb, not_lt.2 hc]
  · funext i; rw [mulVec4]; fin_cases i <;> simp [scaleMatrix, point]
  · funext i; rw [mulVec4]; fin_cases i <;> simp [rotXMatrix, vector]
  · funext i; rw [mulVec4]; fin_cases i <;> simp [rotXMatrix, vector]
  · funext i; rw [mulVec4]; fin_cases i <;> simp [rotYMatrix, vector]
  · funext i; rw [mulVec4]; fin_cases i <;> simp [rotYMatrix, vector]
  · funext i; rw [mulVec4]; fin_cases i <;> simp [rotZMatrix, vector]
  · funext i; rw [mulVec4]; fin_cases i <;> simp [rotZMatrix, vector]

/-- A quarter turn about z takes the x axis to the y axis (the handedness is the documented one). -/
example : ∃ m, (Movement.rotateZ 90 .deg).matrix = .ok m ∧ m *ᵥ point 1 0 0 = point 0 1 0 := by
  refine ⟨_, rfl, ?_⟩
  have : (90 : ℝ) * Real.pi / 180 = Real.pi / 2 := by ring
  rw [this, Real.sin_pi_div_two, Real.cos_pi_div_two]
  funext i; rw [mulVec4]; fin_cases i <;> simp [rotZMatrix, point]

/-- **C14 (objects).** Two movements of an object give every object the placement one movement with the product
matrix gives, when nothing occurs twice below the moved object. -/
theorem C14_compose (fuel : ℕ) (h h1 h2 h3 : Heap) (hr : Reaches argsort fuel Heap.empty h) (a : ℕ) (ha : a < h.size)
    (hnd : (Spec.visits (fun a => (h.obj a).kind) fuel a).Nodup) (mv1 mv2 mv3 : Movement) (m1 m2 : Mat4)
    (e1 : mv1.matrix = .ok m1) (e2 : mv2.matrix = .ok m2) (e3 : mv3.matrix = .ok (m2 * m1))
    (c1 : callMovement argsort fuel h a mv1 = (h1, none)) (c2 : callMovement argsort fuel h1 a mv2 = (h2, none))
    (c3 : callMovement argsort fuel h a mv3 = (h3, none)) (b : ℕ) : (h2.obj b).world = (h3.obj b).world := by
  have hi := reaches_inv argsort empty_inv hr
  simp only [callMovement, e1] at c1
  simp only [callMovement, e2] at c2
  simp only [callMovement, e3] at c3
  obtain ⟨hi1, mm1⟩ := transform_ok argsort m1 fuel a hi ha c1
  obtain ⟨hi2, mm2⟩ := transform_ok argsort m2 fuel a hi1 (by rw [mm1.1.1]; exact ha) c2
  obtain ⟨hi3, mm3⟩ := transform_ok argsort (m2 * m1) fuel a hi ha c3
  rw [mm2.2 b, mm1.2 b, mm3.2 b, mm1.1.kinds]
  simp only
  have hle : (Spec.visits (fun a => (h.obj a).kind) fuel a).count b ≤ 1 := List.nodup_iff_count_le_one.1 hnd b
  generalize (Spec.visits (fun a => (h.obj a).kind) fuel a).count b = k at hle
  interval_cases k
  · simp
  · simp [mul_assoc]

example : (Spec.visits (fun a => ((demo argsort).obj a).kind) 3 4).Nodup := by
  rw [show (3 : ℕ) = 0 + 3 from rfl, demo_visits]; decide

/-! ### C15 -/

/-- **C15 (partial).** A call rejected because of a negative scale or a bad unit string changes nothing. Missing: a
zero scale and a singular matrix are only noticed after the placement has been overwritten
(`C15_zero_scale_false`). -/
theorem C15_rejected_partial (fuel : ℕ) (h : Heap) (a : ℕ) :
    (∀ x y z, (x < 0 ∨ y < 0 ∨ z < 0) →
      callMovement argsort fuel h a (.scale x y z) = (h, some .negativeScale)) ∧
    (∀ t, ∀ mv ∈ [Movement.rotateX t .other, .rotateY t .other, .rotateZ t .other],
      callMovement argsort fuel h a mv = (h, some .badUnits)) := by
  constructor
  · intro x y z hneg
    simp [callMovement, Movement.matrix, hneg]
  · intro t mv hmv
    simp only [List.mem_cons, List.not_mem_nil, or_false] at hmv
    rcases hmv with rfl | rfl | rfl <;> simp [callMovement, Movement.matrix, sinCos]

/-- **C15 (moves and rotations are never rejected).** In a state whose placements are affine, invertible and not
squashed, a move or rotation (with a valid unit) of any object succeeds, and leaves such a state. -/
theorem C15_rigid_never_rejected (fuel : ℕ) (h : Heap) (hr : Reaches argsort fuel Heap.empty h)
    (hg : ∀ b < h.size, GoodWorld (h.obj b).world) (a : ℕ) (ha : a < h.size)
    (hf : Spec.fits (fun a => (h.obj a).kind) fuel a) (mv : Movement)
    (hk : (∃ x y z, mv = .move x y z) ∨
      ∃ t u, u ≠ .other ∧ (mv = .rotateX t u ∨ mv = .rotateY t u ∨ mv = .rotateZ t u)) :
    ∃ h', callMovement argsort fuel h a mv = (h', none) ∧ ∀ b < h'.size, GoodWorld (h'.obj b).world := by
  have hi := reaches_inv argsort empty_inv hr
  have rig : ∃ m, mv.matrix = .ok m ∧ Rigid m := by
    rcases hk with ⟨x, y, z, rfl⟩ | ⟨t, u, hu, hk⟩
    · exact ⟨_, rfl, move_rigid x y z⟩
    · obtain ⟨s, c, hsc⟩ : ∃ s c, sinCos t u = some (s, c) := by
        cases u with
        | deg => exact ⟨_, _, rfl⟩
        | rad => exact ⟨_, _, rfl⟩
        | other => exact absurd rfl hu
      rcases hk with rfl | rfl | rfl
      · exact ⟨_, by simp only [Movement.matrix, hsc], rotX_rigid (sinCos_sq hsc)⟩
      · exact ⟨_, by simp only [Movement.matrix, hsc], rotY_rigid (sinCos_sq hsc)⟩
      · exact ⟨_, by simp only [Movement.matrix, hsc], rotZ_rigid (sinCos_sq hsc)⟩
  obtain ⟨m, e, hm⟩ := rig
  obtain ⟨h', e', hg'⟩ := transform_succeeds argsort (rigid_good hm) fuel a hi hg ha hf
  exact ⟨h', by simp only [callMovement, e, e'], hg'⟩

example : ∃ h', callMovement argsort 3 (demo argsort) 4 (.rotateY 30 .deg) = (h', none) := by
  obtain ⟨hs, k0, k1, k2, k3, k4, hw⟩ := demo_spec argsort
  obtain ⟨h', e, -⟩ := C15_rigid_never_rejected argsort 3 (demo argsort) (demo_reaches argsort 3)
    (fun b hb => by rw [hw b (by omega)]; exact goodWorld_one) 4 (by omega)
    (by simp [Spec.fits, k0, k1, k2, k3, k4]) (.rotateY 30 .deg)
    (Or.inr ⟨30, .deg, by simp, Or.inr (Or.inl rfl)⟩)
  exact ⟨h', e⟩

/-- `Sphere(1).scale(0, 1, 1)` raises, and the sphere's world matrix has been overwritten by a singular one. -/
theorem C15_zero_scale_false : ∃ h', callMovement argsort 1 (newPrim Heap.empty (.sphere 1)) 0 (.scale 0 1 1) =
    (h', some .singular) ∧ ((newPrim Heap.empty (.sphere 1)).obj 0).world = 1 ∧
    (h'.obj 0).world = scaleMatrix 0 1 1 ∧ (h'.obj 0).world ≠ 1 := by
  have hn : ¬ norm4 (scaleMatrix 0 1 1 *ᵥ vector 0 0 1) < 1e-7 := by
    simp [norm4, mulVec4, scaleMatrix, vector]; norm_num
  have hdet : (scaleMatrix 0 1 1).det = 0 := by rw [det4]; simp [scaleMatrix]
  have hne : scaleMatrix 0 1 1 ≠ 1 := by
    intro h
    have := congrFun (congrFun h 0) 0
    simp [scaleMatrix] at this
  simp only [callMovement, Movement.matrix]
  norm_num
  simp [transform, appendOwn, newPrim, Heap.alloc, Heap.empty, Heap.set]
  unfold runHandlers
  simp [runHandler, Heap.set, Res.andThen, hn, hdet, hne]

/-! ### C16 -/

/-- the product of a list of movement matrices, latest on the left -/
noncomputable def Spec.product : List Movement → Mat4
  | [] => 1
  | mv :: tl => Spec.product tl * (match mv.matrix with
    | .ok m => m
    | .error _ => 1)

theorem worldAfter_same (kind : ℕ → Kind) (fuel g b : ℕ) (hc : (Spec.visits kind fuel g).count b = 1)
    (mvs : List Movement) : ∀ w, Spec.worldAfter kind fuel b (mvs.map fun mv => (g, mv)) w = Spec.product mvs * w := by
  induction mvs with
  | nil => intro w; simp [Spec.worldAfter, Spec.product]
  | cons mv mvs ih =>
    intro w
    simp only [List.map_cons, Spec.worldAfter, Spec.product]
    rw [ih, mul_assoc]
    cases mv.matrix with
    | ok m => simp [hc]
    | error e => simp

theorem worldAfter_other (kind : ℕ → Kind) (fuel g b : ℕ) (hc : (Spec.visits kind fuel g).count b = 0)
    (mvs : List Movement) : ∀ w, Spec.worldAfter kind fuel b (mvs.map fun mv => (g, mv)) w = w := by
  induction mvs with
  | nil => intro w; rfl
  | cons mv mvs ih =>
    intro w
    simp only [List.map_cons, Spec.worldAfter]
    rw [ih]
    cases mv.matrix with
    | ok m => simp [hc]
    | error e => rfl

/-- **C16 (partial).** When no object occurs twice below a group (or composite) `g`, movements of `g` apply the same
matrix once to everything below it and nothing else, and keep the relative placement of any two objects below
it. Missing: an object listed twice is moved twice (`C16_listed_twice_false`). -/
theorem C16_group_partial (fuel : ℕ) (h h' : Heap) (hr : Reaches argsort fuel Heap.empty h) (g : ℕ) (hg : g < h.size)
    (hnd : (Spec.visits (fun a => (h.obj a).kind) fuel g).Nodup) (mvs : List Movement)
    (hrun : runMovements argsort fuel h (mvs.map fun mv => (g, mv)) = (h', none)) :
    (∀ b ∈ Spec.visits (fun a => (h.obj a).kind) fuel g, (h'.obj b).world = Spec.product mvs * (h.obj b).world) ∧
    (∀ b ∉ Spec.visits (fun a => (h.obj a).kind) fuel g, (h'.obj b).world = (h.obj b).world) ∧
    (∀ a ∈ Spec.visits (fun a => (h.obj a).kind) fuel g, ∀ b ∈ Spec.visits (fun a => (h.obj a).kind) fuel g,
      a < h.size → b < h.size →
      (h'.obj a).objT * (h'.obj b).world = (h.obj a).objT * (h.obj b).world) := by
  have hi := reaches_inv argsort empty_inv hr
  obtain ⟨hi', hst, hw⟩ := runMovements_ok argsort _ hi (by simp; intro _ _; exact hg) hrun
  have hin : ∀ b ∈ Spec.visits (fun a => (h.obj a).kind) fuel g,
      (h'.obj b).world = Spec.product mvs * (h.obj b).world := by
    intro b hb
    rw [hw b]
    exact worldAfter_same _ fuel g b (List.count_eq_one_of_mem hnd hb) mvs _
  refine ⟨hin, ?_, ?_⟩
  · intro b hb
    rw [hw b]
    exact worldAfter_other _ fuel g b (List.count_eq_zero_of_not_mem hb) mvs _
  · intro a ha b hb hla hlb
    obtain ⟨d1, i1, -⟩ := hi'.synced a (by rw [hst.1]; exact hla)
    obtain ⟨d2, i2, -⟩ := hi.synced a hla
    rw [i1, i2, hin b hb, hin a ha]
    rw [hin a ha, det_mul] at d1
    have hP : IsUnit (Spec.product mvs).det := isUnit_iff_ne_zero.2 (left_ne_zero_of_mul d1)
    rw [Matrix.mul_inv_rev, mul_assoc, ← mul_assoc (Spec.product mvs)⁻¹, nonsing_inv_mul _ hP, one_mul]

example : ∃ h', runMovements argsort 3 (demo argsort) ([Movement.move 1 2 3].map fun mv => (4, mv)) = (h', none) ∧
    (Spec.visits (fun a => ((demo argsort).obj a).kind) 3 4).Nodup := by
  obtain ⟨h', e⟩ := demo_moves argsort _ (move_rigid 1 2 3) 0
  refine ⟨h', by simp [runMovements, callMovement, Movement.matrix, e, Res.andThen], ?_⟩
  rw [show (3 : ℕ) = 0 + 3 from rfl, demo_visits]; decide

/-- A group listing one camera twice: moving the group by 1 moves the camera by 2. -/
theorem C16_listed_twice_false : ∃ h h', Reaches argsort 2 Heap.empty h ∧
    (h.obj 1).kind = .group [0, 0] ∧ callMovement argsort 2 h 1 (.move 1 0 0) = (h', none) ∧
    (h.obj 0).world = 1 ∧ (h'.obj 1).world = moveMatrix 1 0 0 ∧ (h'.obj 0).world = moveMatrix 2 0 0 := by
  set h : Heap := newGroup (newPlain Heap.empty) [0, 0] with hh
  have hr : Reaches argsort 2 Heap.empty h := by
    refine Reaches.step (.newGroup [0, 0]) (Reaches.step .newPlain (Reaches.refl _) trivial rfl) ?_ rfl
    intro m hm
    simp at hm
    subst hm
    show 0 < 1
    omega
  have hs : h.size = 2 := rfl
  have k0 : (h.obj 0).kind = .plain ∧ (h.obj 0).world = 1 := by
    simp [hh, newGroup, newPlain, Heap.alloc, Heap.empty]
  have k1 : (h.obj 1).kind = .group [0, 0] ∧ (h.obj 1).world = 1 := by
    simp [hh, newGroup, newPlain, Heap.alloc, Heap.empty]
  have hi := reaches_inv argsort empty_inv hr
  obtain ⟨h', e, -⟩ := transform_succeeds argsort (rigid_good (move_rigid 1 0 0)) 2 (h := h) 1 hi
    (fun b hb => by
      rw [hs] at hb
      interval_cases b
      · rw [k0.2]; exact goodWorld_one
      · rw [k1.2]; exact goodWorld_one) (by omega) (by simp [Spec.fits, k0.1, k1.1])
  obtain ⟨-, mm⟩ := transform_ok argsort _ 2 1 hi (by omega) e
  have hv : Spec.visits (fun a => (h.obj a).kind) 2 1 = [1, 0, 0] := by simp [Spec.visits, k0.1, k1.1]
  refine ⟨h, h', hr, k1.1, e, k0.2, ?_, ?_⟩
  · rw [mm.2 1, hv, k1.2]; simp
  · rw [mm.2 0, hv, k0.2]
    have : List.count 0 [1, 0, 0] = 2 := by decide
    simp only
    rw [this, mul_one, pow_two, (C14_laws.1 1 0 0 1 0 0).1]
    norm_num

/-! ### C17 -/

theorem pinRestore_ok {fuel : ℕ} {h h' : Heap} (hi : Inv h) {a : ℕ} (ha : a < h.size) {start : Mat4} (hst : start.det ≠ 0)
    (hr : pinRestore argsort fuel h a start = (h', none)) :
    Inv h' ∧ Moves (((h.obj a).world * start⁻¹)⁻¹) (fun b => (Spec.visits (fun a => (h.obj a).kind) fuel a).count b) h h' := by
  unfold pinRestore at hr
  rw [if_neg hst] at hr
  simp only at hr
  split at hr
  · simp at hr
  · exact transform_ok argsort _ fuel a hi ha hr

theorem restore_world {w start : Mat4} (hw : w.det ≠ 0) (hs : start.det ≠ 0) : (w * start⁻¹)⁻¹ * w = start := by
  have h1 : IsUnit w.det := isUnit_iff_ne_zero.2 hw
  have h2 : IsUnit start.det := isUnit_iff_ne_zero.2 hs
  rw [Matrix.mul_inv_rev, Matrix.nonsing_inv_nonsing_inv _ h2, mul_assoc, nonsing_inv_mul _ h1, mul_one]

theorem pinExit_restores {fuel : ℕ} (pairs : List (ℕ × Mat4)) : ∀ {h h' : Heap}, Inv h →
    (∀ p ∈ pairs, p.1 < h.size ∧ p.2.det ≠ 0 ∧ (Spec.visits (fun a => (h.obj a).kind) fuel p.1).count p.1 = 1) →
    pairs.Pairwise (fun p q => p.1 ∉ Spec.visits (fun a => (h.obj a).kind) fuel q.1) →
    pinExit argsort fuel h pairs = (h', none) →
    Static h h' ∧ (∀ p ∈ pairs, (h'.obj p.1).world = p.2) ∧
    (∀ b, (∀ p ∈ pairs, b ∉ Spec.visits (fun a => (h.obj a).kind) fuel p.1) → (h'.obj b).world = (h.obj b).world) := by
  induction pairs with
  | nil =>
    intro h h' hi _ _ hr
    simp only [pinExit, List.foldl_nil, Prod.mk.injEq, and_true] at hr
    subst hr
    exact ⟨Static.refl _, by simp, fun _ _ => rfl⟩
  | cons p tl ih =>
    intro h h' hi hp hpw hr
    obtain ⟨a, start⟩ := p
    unfold pinExit at hr
    rw [List.foldl_cons] at hr
    rcases hh : pinRestore argsort fuel h a start with ⟨h1, e⟩
    have e' : (Res.andThen (h, none) fun h => pinRestore argsort fuel h (a, start).1 (a, start).2) = (h1, e) := hh
    rw [e'] at hr
    cases e with
    | some e =>
      have herr : ∀ (l : List (ℕ × Mat4)) (g : Heap), l.foldl (fun (res : Res) p => res.andThen fun h =>
          pinRestore argsort fuel h p.1 p.2) (g, some e) = (g, some e) := by
        intro l g
        induction l with
        | nil => rfl
        | cons b bs ih => exact ih
      rw [herr] at hr
      simp at hr
    | none =>
      obtain ⟨ha, hst, hcount⟩ := hp (a, start) (by simp)
      obtain ⟨hi1, mm⟩ := pinRestore_ok argsort hi ha hst hh
      have hk := mm.1.kinds
      rw [List.pairwise_cons] at hpw
      obtain ⟨hs2, hw2, hu2⟩ := ih hi1 (fun q hq => by rw [mm.1.1, hk]; exact hp q (by simp [hq]))
        (by rw [hk]; exact hpw.2) hr
      refine ⟨mm.1.trans hs2, ?_, ?_⟩
      · intro q hq
        rcases List.mem_cons.1 hq with rfl | hq
        · rw [hu2 a (fun q hq => by rw [hk]; exact hpw.1 q hq), mm.2 a]
          simp only at hcount ⊢
          rw [hcount, pow_one]
          exact restore_world (hi.synced a ha).1 hst
        · exact hw2 q hq
      · intro b hb
        rw [hu2 b (fun q hq => by rw [hk]; exact hb q (by simp [hq])), mm.2 b]
        have := List.count_eq_zero_of_not_mem (hb (a, start) (by simp))
        simp only at this ⊢
        rw [this, pow_zero, one_mul]

/-- **C17 (partial).** `with pin(*objs): body`, in any reachable state, for any body that performs movement and
constructor calls that succeed (and possibly raises an exception of its own afterwards): when the exit does
not raise, every pinned object has its old world matrix back. Missing: an object pinned before a group or composite
containing it is not restored (`C17_member_first_false`), and a body whose movement raised halfway can
leave a singular matrix from which the exit cannot recover. -/
theorem C17_pin_partial (fuel : ℕ) (objs : List ℕ) (body : Heap → Res) (h : Heap)
    (hr : Reaches argsort fuel Heap.empty h) (hbody : Reaches argsort fuel h (body h).1) (hobjs : ∀ a ∈ objs, a < h.size)
    (hone : ∀ a ∈ objs, (Spec.visits (fun a => ((body h).1.obj a).kind) fuel a).count a = 1)
    (hsep : objs.Pairwise fun a b => a ∉ Spec.visits (fun a => ((body h).1.obj a).kind) fuel b)
    (hexit : (pinExit argsort fuel (body h).1 (objs.zip (pinEnter h objs))).2 = none) :
    let out := withPin argsort fuel objs body h
    out.2 = (body h).2 ∧ ∀ a ∈ objs, (out.1.obj a).world = (h.obj a).world := by
  have hi := reaches_inv argsort empty_inv hr
  have hib := reaches_inv argsort hi hbody
  have hgrow := reaches_size argsort hbody
  have hz : objs.zip (pinEnter h objs) = objs.map fun a => (a, (h.obj a).world) := by
    unfold pinEnter
    clear hobjs hone hsep hexit
    induction objs with
    | nil => rfl
    | cons a as ih => simp [ih]
  refine ⟨by simp only [withPin, hexit], ?_⟩
  have hx' : pinExit argsort fuel (body h).1 (objs.zip (pinEnter h objs)) =
      ((withPin argsort fuel objs body h).1, none) := Prod.ext rfl hexit
  rw [hz] at hx'
  obtain ⟨-, hw, -⟩ := pinExit_restores argsort _ hib (by
    intro p hp
    obtain ⟨a, ha, rfl⟩ := List.mem_map.1 hp
    exact ⟨lt_of_lt_of_le (hobjs a ha) hgrow, (hi.synced a (hobjs a ha)).1, hone a ha⟩)
    (by rw [List.pairwise_map]; exact hsep) hx'
  intro a ha
  exact hw (a, (h.obj a).world) (List.mem_map_of_mem ha)

/-- **C17 (parts).** Pinning one group or composite, with a body that only moves it: everything below it is also
back in place, and nothing else has moved. -/
theorem C17_pin_parts (fuel : ℕ) (g : ℕ) (mvs : List Movement) (h h1 : Heap)
    (hr : Reaches argsort fuel Heap.empty h) (hg : g < h.size)
    (hnd : (Spec.visits (fun a => (h.obj a).kind) fuel g).Nodup)
    (hself : g ∈ Spec.visits (fun a => (h.obj a).kind) fuel g)
    (hrun : runMovements argsort fuel h (mvs.map fun mv => (g, mv)) = (h1, none))
    (hexit : (pinExit argsort fuel h1 ([g].zip (pinEnter h [g]))).2 = none) (b : ℕ) :
    ((withPin argsort fuel [g] (fun h => runMovements argsort fuel h (mvs.map fun mv => (g, mv))) h).1.obj b).world =
      (h.obj b).world := by
  have hi := reaches_inv argsort empty_inv hr
  obtain ⟨hi1, hst, hw⟩ := runMovements_ok argsort _ hi (by simp; intro _ _; exact hg) hrun
  obtain ⟨hin, hout, -⟩ := C16_group_partial argsort fuel h h1 hr g hg hnd mvs hrun
  have hdet : (h.obj g).world.det ≠ 0 := (hi.synced g hg).1
  have hdet1 : (h1.obj g).world.det ≠ 0 := (hi1.synced g (by rw [hst.1]; exact hg)).1
  rw [hin g hself, det_mul] at hdet1
  have hP : IsUnit (Spec.product mvs).det := isUnit_iff_ne_zero.2 (left_ne_zero_of_mul hdet1)
  have hW : IsUnit (h.obj g).world.det := isUnit_iff_ne_zero.2 hdet
  have e : pinRestore argsort fuel h1 g (h.obj g).world =
      ((withPin argsort fuel [g] (fun h => runMovements argsort fuel h (mvs.map fun mv => (g, mv))) h).1, none) := by
    refine Prod.ext ?_ hexit
    simp only [withPin, hrun]
    rfl
  obtain ⟨-, mm⟩ := pinRestore_ok argsort hi1 (by rw [hst.1]; exact hg) hdet e
  rw [mm.2 b, hst.kinds, hin g hself, mul_assoc, mul_nonsing_inv _ hW, mul_one]
  simp only
  by_cases hb : b ∈ Spec.visits (fun a => (h.obj a).kind) fuel g
  · rw [List.count_eq_one_of_mem hnd hb, hin b hb, pow_one, ← mul_assoc, nonsing_inv_mul _ hP, one_mul]
  · rw [List.count_eq_zero_of_not_mem hb, hout b hb, pow_zero, one_mul]

theorem move_inv (x y z : ℝ) : (moveMatrix x y z)⁻¹ = moveMatrix (-x) (-y) (-z) := by
  apply Matrix.inv_eq_left_inv
  rw [(C14_laws.1 x y z (-x) (-y) (-z)).1]
  ext i j; fin_cases i <;> fin_cases j <;> simp [moveMatrix]

theorem move_zero : moveMatrix 0 0 0 = 1 := by
  ext i j; fin_cases i <;> fin_cases j <;> simp [moveMatrix]

/-- a camera and a group containing it -/
noncomputable def pinDemo : Heap := newGroup (newPlain Heap.empty) [0]

theorem pinDemo_spec (fuel : ℕ) : Reaches argsort fuel Heap.empty pinDemo ∧ pinDemo.size = 2 ∧
    (pinDemo.obj 0).kind = .plain ∧ (pinDemo.obj 1).kind = .group [0] ∧ (pinDemo.obj 0).world = 1 ∧
    (pinDemo.obj 1).world = 1 := by
  refine ⟨?_, rfl, ?_⟩
  · refine Reaches.step (.newGroup [0]) (Reaches.step .newPlain (Reaches.refl _) trivial rfl) ?_ rfl
    intro m hm
    simp at hm
    subst hm
    show 0 < 1
    omega
  · simp [pinDemo, newGroup, newPlain, Heap.alloc, Heap.empty]

/-- movements of the two objects of `pinDemo`: what happens to the two placements -/
theorem pinDemo_move {h : Heap} (hi : Inv h) (hs : Static pinDemo h) (hg : ∀ b < h.size, GoodWorld (h.obj b).world)
    (x y z : ℝ) :
    (∃ h', transform argsort 2 h 0 (moveMatrix x y z) = (h', none) ∧ Inv h' ∧ Static pinDemo h' ∧
      (∀ b < h'.size, GoodWorld (h'.obj b).world) ∧
      (h'.obj 0).world = moveMatrix x y z * (h.obj 0).world ∧ (h'.obj 1).world = (h.obj 1).world) ∧
    (∃ h', transform argsort 2 h 1 (moveMatrix x y z) = (h', none) ∧ Inv h' ∧ Static pinDemo h' ∧
      (∀ b < h'.size, GoodWorld (h'.obj b).world) ∧
      (h'.obj 0).world = moveMatrix x y z * (h.obj 0).world ∧
      (h'.obj 1).world = moveMatrix x y z * (h.obj 1).world) := by
  obtain ⟨-, s0, k0, k1, -, -⟩ := pinDemo_spec argsort 0
  have hk0 : (h.obj 0).kind = .plain := (hs.2.2 0).1.trans k0
  have hk1 : (h.obj 1).kind = .group [0] := (hs.2.2 1).1.trans k1
  have hsz : h.size = 2 := hs.1.trans s0
  constructor
  · obtain ⟨h', e, hg'⟩ := transform_succeeds argsort (rigid_good (move_rigid x y z)) 2 0 hi hg (by omega)
      (by simp [Spec.fits, hk0])
    obtain ⟨hi', mm⟩ := transform_ok argsort _ 2 0 hi (by omega) e
    have hv : Spec.visits (fun a => (h.obj a).kind) 2 0 = [0] := by simp [Spec.visits, hk0]
    refine ⟨h', e, hi', hs.trans mm.1, hg', ?_, ?_⟩
    · rw [mm.2 0, hv]; simp
    · rw [mm.2 1, hv]; simp
  · obtain ⟨h', e, hg'⟩ := transform_succeeds argsort (rigid_good (move_rigid x y z)) 2 1 hi hg (by omega)
      (by simp [Spec.fits, hk0, hk1])
    obtain ⟨hi', mm⟩ := transform_ok argsort _ 2 1 hi (by omega) e
    have hv : Spec.visits (fun a => (h.obj a).kind) 2 1 = [1, 0] := by simp [Spec.visits, hk0, hk1]
    refine ⟨h', e, hi', hs.trans mm.1, hg', ?_, ?_⟩
    · rw [mm.2 0, hv]; simp
    · rw [mm.2 1, hv]; simp

/-- `with pin(camera, group): group.move(x=1)` — without any exception the camera is left displaced by `-1`;
`with pin(group, camera)` restores both (this is also an instance meeting the hypotheses of `C17_pin_partial`). -/
theorem C17_member_first_false :
    (∃ h', withPin argsort 2 [0, 1] (fun h => callMovement argsort 2 h 1 (.move 1 0 0)) pinDemo = (h', none) ∧
      (pinDemo.obj 0).world = 1 ∧ (h'.obj 0).world = moveMatrix (-1) 0 0 ∧ (h'.obj 0).world ≠ 1) ∧
    (∃ h', withPin argsort 2 [1, 0] (fun h => callMovement argsort 2 h 1 (.move 1 0 0)) pinDemo = (h', none) ∧
      (h'.obj 0).world = (pinDemo.obj 0).world ∧ (h'.obj 1).world = (pinDemo.obj 1).world) := by
  obtain ⟨hr, s0, k0, k1, w0, w1⟩ := pinDemo_spec argsort 0
  have hi := reaches_inv argsort empty_inv hr
  have hg : ∀ b < pinDemo.size, GoodWorld (pinDemo.obj b).world := by
    intro b hb
    rw [s0] at hb
    interval_cases b
    · rw [w0]; exact goodWorld_one
    · rw [w1]; exact goodWorld_one
  obtain ⟨h1, e1, hi1, hs1, hg1, a0, a1⟩ := (pinDemo_move argsort hi (Static.refl _) hg 1 0 0).2
  rw [w0, mul_one] at a0
  rw [w1, mul_one] at a1
  have hbody : callMovement argsort 2 pinDemo 1 (.move 1 0 0) = (h1, none) := by
    simp [callMovement, Movement.matrix, e1]
  have d1 : (1 : Mat4).det ≠ 0 := det_one4
  have dm : ∀ x y z, (moveMatrix x y z).det ≠ 0 := fun x y z => by rw [(move_rigid x y z).2.1]; exact one_ne_zero
  have rest : ∀ (h : Heap) (a : ℕ) (x y z : ℝ), (h.obj a).world = moveMatrix x y z →
      pinRestore argsort 2 h a 1 = transform argsort 2 h a (moveMatrix (-x) (-y) (-z)) := by
    intro h a x y z hw
    unfold pinRestore
    rw [if_neg d1, hw, inv_one, mul_one]
    simp only
    rw [if_neg (dm x y z), move_inv]
  constructor
  · -- camera first
    obtain ⟨h2, e2, hi2, hs2, hg2, b0, b1⟩ := (pinDemo_move argsort hi1 hs1 hg1 (-1) (-0) (-0)).1
    obtain ⟨h3, e3, hi3, hs3, hg3, c0, c1⟩ := (pinDemo_move argsort hi2 hs2 hg2 (-1) (-0) (-0)).2
    have r1 := rest h1 0 1 0 0 a0
    have r2 := rest h2 1 1 0 0 (b1.trans a1)
    rw [e2] at r1
    rw [e3] at r2
    refine ⟨h3, ?_, w0, ?_, ?_⟩
    · simp only [withPin, pinEnter, pinExit, hbody, List.map_cons, List.map_nil, w0, w1, List.zip_cons_cons,
        List.zip_nil_right, List.foldl_cons, List.foldl_nil, Res.andThen, r1, r2]
    · rw [c0, b0, a0, (C14_laws.1 _ _ _ _ _ _).1, (C14_laws.1 _ _ _ _ _ _).1]; norm_num
    · rw [c0, b0, a0, (C14_laws.1 _ _ _ _ _ _).1, (C14_laws.1 _ _ _ _ _ _).1]
      intro h
      have := congrFun (congrFun h 0) 3
      simp [moveMatrix] at this
  · -- group first
    obtain ⟨h2, e2, hi2, hs2, hg2, b0, b1⟩ := (pinDemo_move argsort hi1 hs1 hg1 (-1) (-0) (-0)).2
    obtain ⟨h3, e3, hi3, hs3, hg3, c0, c1⟩ := (pinDemo_move argsort hi2 hs2 hg2 (-0) (-0) (-0)).1
    have r1 := rest h1 1 1 0 0 a1
    have b0' : (h2.obj 0).world = moveMatrix 0 0 0 := by
      rw [b0, a0, (C14_laws.1 _ _ _ _ _ _).1]; norm_num
    have b1' : (h2.obj 1).world = moveMatrix 0 0 0 := by
      rw [b1, a1, (C14_laws.1 _ _ _ _ _ _).1]; norm_num
    have r2 := rest h2 0 0 0 0 b0'
    rw [e2] at r1
    rw [e3] at r2
    refine ⟨h3, ?_, ?_, ?_⟩
    · simp only [withPin, pinEnter, pinExit, hbody, List.map_cons, List.map_nil, w0, w1, List.zip_cons_cons,
        List.zip_nil_right, List.foldl_cons, List.foldl_nil, Res.andThen, r1, r2]
    · rw [c0, b0', w0, (C14_laws.1 _ _ _ _ _ _).1]; simp [move_zero]
    · rw [c1, b1', w1, move_zero]

/-! ### C18 -/

/-- **C18.** After every history without exceptions, the axis-aligned bounding box of a surface contains the
world position of every point of the (closed) solid. -/
theorem C18_leaf_box (fuel : ℕ) (h : Heap) (hr : Reaches argsort fuel Heap.empty h) (a : ℕ) (ha : a < h.size)
    (p : Prim) (hk : (h.obj a).kind = .prim p) (hv : p.Valid) (q : Vec4) (hq : q 3 = 1) (hin : Spec.Closed p q)
    (i : Fin 3) :
    ((h.obj a).aobb i).1 ≤ (((h.obj a).world *ᵥ q) i.castSucc : ℝ) ∧
    ((((h.obj a).world *ᵥ q) i.castSucc : ℝ) : EReal) ≤ ((h.obj a).aobb i).2 := by
  have hb := (reaches_inv argsort empty_inv hr).boxes a ha p hk
  rw [hb]
  exact box_contains _ _ q hq (fun i => closed_in_spans p hv q hin i) i

/-- The point `(1, 0, 0)` of the unit sphere in the moved demo state. -/
example : ∃ h', Reaches argsort 3 Heap.empty h' ∧ (h'.obj 0).kind = .prim (.sphere 1) ∧
    Spec.Closed (.sphere 1) (point 1 0 0) ∧ (h'.obj 0).world *ᵥ point 1 0 0 = point 2 2 3 := by
  obtain ⟨h', e⟩ := demo_moves argsort _ (move_rigid 1 2 3) 0
  obtain ⟨hs, k0, k1, k2, k3, k4, hw⟩ := demo_spec argsort
  have hreach : Reaches argsort 3 Heap.empty h' :=
    Reaches.step (.movement 4 (.move 1 2 3)) (demo_reaches argsort 3) (by simp [Cmd.valid, hs])
      (by simp [exec, callMovement, Movement.matrix, e])
  obtain ⟨-, mm⟩ := transform_ok argsort _ 3 4 (reaches_inv argsort empty_inv (demo_reaches argsort 3)) (by omega) e
  have hv := demo_visits argsort 0
  refine ⟨h', hreach, (mm.1.2.2 0).1.trans k0, by simp [Spec.Closed, point], ?_⟩
  rw [mm.2 0, hw 0 (by omega), show (3 : ℕ) = 0 + 3 from rfl, hv]
  simp only [mul_one]
  have : List.count 0 [4, 2, 0, 1, 3] = 1 := by decide
  rw [this, pow_one]
  funext i; rw [mulVec4]; fin_cases i <;> simp [moveMatrix, point] <;> norm_num

/-! ### C56 -/

/-- **C56.** In every history (calls may raise) two different objects have different ids, and ids are never the
marker `-1`; movement calls, even those that raise, change no id. -/
theorem C56_unique_ids (fuel : ℕ) (h : Heap) (hr : ReachesAny argsort fuel Heap.empty h) :
    (∀ a b, a < h.size → b < h.size → a ≠ b → (h.obj a).oid ≠ (h.obj b).oid) ∧
    (∀ a, ((h.obj a).oid : ℤ) ≠ -1) ∧
    (∀ a mv b, ((callMovement argsort fuel h a mv).1.obj b).oid = (h.obj b).oid) := by
  have hi := reachesAny_ids argsort empty_ids hr
  refine ⟨?_, ?_, ?_⟩
  · intro a b ha hb hab
    rcases lt_or_gt_of_ne hab with hlt | hlt
    · exact (hi.1 a b hlt hb).ne
    · exact (hi.1 b a hlt ha).ne'
  · intro a; omega
  · intro a mv b
    unfold callMovement
    split
    · rfl
    · exact ((transform_static argsort _ fuel h a).2.2 b).2.1

/-- A history with an exception in it. -/
example : ∃ h, ReachesAny argsort 1 Heap.empty h ∧ h.size = 2 ∧ (h.obj 0).world = scaleMatrix 0 1 1 := by
  obtain ⟨h', e, -, hw, -⟩ := C15_zero_scale_false argsort
  have r1 : ReachesAny argsort 1 Heap.empty h' :=
    ReachesAny.step (.movement 0 (.scale 0 1 1))
      (ReachesAny.step (.newPrim (.sphere 1)) (ReachesAny.refl _) trivial rfl) (by show 0 < 1; omega) e
  have hs : h'.size = 1 := by
    have := transform_static argsort (scaleMatrix 0 1 1) 1 (newPrim Heap.empty (.sphere 1)) 0
    have e2 : transform argsort 1 (newPrim Heap.empty (.sphere 1)) 0 (scaleMatrix 0 1 1) = (h', some .singular) := by
      rw [← e]; simp only [callMovement, Movement.matrix]; norm_num
    rw [e2] at this
    exact this.1
  refine ⟨newPlain h', ReachesAny.step .newPlain r1 trivial rfl, by show h'.size + 1 = 2; omega, ?_⟩
  rw [newPlain, alloc_obj_lt _ _ _ _ (by omega)]; exact hw

end PyRayT
