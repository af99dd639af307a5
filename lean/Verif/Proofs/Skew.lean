import Verif.Props.Paraxial

/-!
# Surfaces of revolution

What it means for the normals of a surface that it is round about an axis, and which surfaces and components are.
-/

namespace PyRayT

open Classical Matrix Spec

variable {argsort : List EReal → List ℕ} {fuel : ℕ}

/-- The surface at address `x` is round about the axis through the point `c` with direction `a`: at every point the normal lies in the plane of the
point and the axis. -/
def Spec.RoundAbout (h : Heap) (x : ℕ) (c a : Vec4) : Prop :=
  ∀ p : Vec4, p 3 = 1 → ∃ α β : ℝ, surfaceNormal h x p = α • (p - c) + β • a

theorem Spec.RoundAbout.shift {h : Heap} {x : ℕ} {c a : Vec4} (hr : RoundAbout h x c a) (k : ℝ) : RoundAbout h x (c + k • a) a := by
  intro p hp
  obtain ⟨α, β, e⟩ := hr p hp
  refine ⟨α, β + α * k, ?_⟩
  rw [e]; module

/-- moving the surface moves the axis along -/
theorem Spec.RoundAbout.moved {h h' : Heap} {x : ℕ} {c a : Vec4} (hr : RoundAbout h x c a) {m : Mat4} (hm : Isometry m)
    (hk : (h'.obj x).kind = (h.obj x).kind) (hn : (h'.obj x).nscale = (h.obj x).nscale) (ho : (h'.obj x).objT = (h.obj x).objT * m⁻¹) :
    RoundAbout h' x (m *ᵥ c) (m *ᵥ a) := by
  intro p hp
  obtain ⟨α, β, e⟩ := hr (m⁻¹ *ᵥ p) (by rw [← hm.three (m⁻¹ *ᵥ p), hm.mulVec_inv, hp])
  refine ⟨α, β, ?_⟩
  conv_lhs => rw [← hm.mulVec_inv p]
  rw [surfaceNormal_moved hm hk hn ho, e, mulVec_add, mulVec_smul, mulVec_smul, mulVec_sub, hm.mulVec_inv]

/-- the primitives that are round about their own z-axis: all but the cube -/
def Prim.IsRound : Prim → Prop
  | .cube _ _ => False
  | _ => True

theorem normalize_eq_smul (v : Vec4) : normalize v = (norm4 v)⁻¹ • v := by
  funext i; simp [normalize]; ring

theorem normalize_smul_mem (α β : ℝ) (u v w : Vec4) (h : w = α • u + β • v) : ∃ α β : ℝ, normalize w = α • u + β • v := by
  refine ⟨(norm4 w)⁻¹ * α, (norm4 w)⁻¹ * β, ?_⟩
  rw [normalize_eq_smul, mul_smul, mul_smul, ← smul_add, ← h]

theorem sub_origin {q : Vec4} (hq : q 3 = 1) : q - point 0 0 0 = ![q 0, q 1, q 2, 0] := by
  funext i
  rw [Pi.sub_apply]
  fin_cases i
  · exact sub_zero _
  · exact sub_zero _
  · exact sub_zero _
  · show q 3 - 1 = 0
    rw [hq, sub_self]

/-- normals of round primitives in object coordinates -/
theorem Prim.round_normal {p : Prim} (hp : p.IsRound) {q : Vec4} (hq : q 3 = 1) :
    ∃ α β : ℝ, p.normal q = α • (q - point 0 0 0) + β • vector 0 0 1 := by
  rw [sub_origin hq]
  cases p with
  | sphere r =>
    refine normalize_smul_mem 1 0 _ _ _ ?_
    funext i; fin_cases i <;> simp [vector]
  | paraboloid f hgt =>
    simp only [Prim.normal]
    split
    · refine normalize_smul_mem 0 1 _ _ _ ?_
      funext i; fin_cases i <;> simp [vector]
    · refine normalize_smul_mem 1 (-2 * f - q 2) _ _ _ ?_
      funext i; fin_cases i <;> simp [vector]
  | plane w l =>
    refine ⟨0, 1, ?_⟩
    funext i; fin_cases i <;> simp [Prim.normal, vector]
  | cube a b => exact hp.elim
  | cylinder r lo hi =>
    simp only [Prim.normal]
    split
    · refine normalize_smul_mem 0 1 _ _ _ ?_
      funext i; fin_cases i <;> simp [vector]
    · split
      · refine normalize_smul_mem 0 (-1) _ _ _ ?_
        funext i; fin_cases i <;> simp [vector]
      · refine normalize_smul_mem 1 (-q 2) _ _ _ ?_
        funext i; fin_cases i <;> simp [vector]

theorem round_smul {u v w : Vec4} (k : ℝ) (h : ∃ α β : ℝ, w = α • u + β • v) : ∃ α β : ℝ, k • w = α • u + β • v := by
  obtain ⟨α, β, e⟩ := h
  exact ⟨k * α, k * β, by rw [e]; module⟩

/-- A round primitive in an isometric place is round about its own axis: through the image of its origin, along the image of its z-direction. -/
theorem round_prim {h : Heap} {x : ℕ} {p : Prim} (hp : p.IsRound) (hk : (h.obj x).kind = .prim p) (hT : (h.obj x).objT = (h.obj x).world⁻¹)
    (hw : Isometry (h.obj x).world) : RoundAbout h x ((h.obj x).world *ᵥ point 0 0 0) ((h.obj x).world *ᵥ vector 0 0 1) := by
  intro q hq
  simp only [surfaceNormal, hk, worldNormal]
  apply round_smul
  set m := (h.obj x).world with hm
  rw [hT, hw.zeroW, hw.normalize rfl, normalize_eq_smul, mulVec_smul]
  apply round_smul
  have hq' : (m⁻¹ *ᵥ q) 3 = 1 := by rw [← hw.three (m⁻¹ *ᵥ q), hw.mulVec_inv, hq]
  obtain ⟨α, β, e⟩ := Prim.round_normal hp hq'
  refine ⟨α, β, ?_⟩
  have e3 : zeroW (p.normal (m⁻¹ *ᵥ q)) = p.normal (m⁻¹ *ᵥ q) := by
    funext i
    fin_cases i
    · rfl
    · rfl
    · rfl
    · rw [e, sub_origin hq']; simp [zeroW, vector]
  rw [e3, e, mulVec_add, mulVec_smul, mulVec_smul, mulVec_sub, hw.mulVec_inv]

/-- a ball is round about every axis through its centre -/
theorem round_sphere {h : Heap} {x : ℕ} {r : ℝ} (hk : (h.obj x).kind = .prim (.sphere r)) (hT : (h.obj x).objT = (h.obj x).world⁻¹)
    (hw : Isometry (h.obj x).world) (a : Vec4) : RoundAbout h x ((h.obj x).world *ᵥ point 0 0 0) a := by
  intro q hq
  simp only [surfaceNormal, hk, worldNormal]
  apply round_smul
  set m := (h.obj x).world with hm
  rw [hT, hw.zeroW, hw.normalize rfl, normalize_eq_smul, mulVec_smul]
  apply round_smul
  have hq' : (m⁻¹ *ᵥ q) 3 = 1 := by rw [← hw.three (m⁻¹ *ᵥ q), hw.mulVec_inv, hq]
  simp only [Prim.normal]
  have e3 : zeroW (normalize ![(m⁻¹ *ᵥ q) 0, (m⁻¹ *ᵥ q) 1, (m⁻¹ *ᵥ q) 2, 0]) =
      (norm4 ![(m⁻¹ *ᵥ q) 0, (m⁻¹ *ᵥ q) 1, (m⁻¹ *ᵥ q) 2, 0])⁻¹ • (m⁻¹ *ᵥ q - point 0 0 0) := by
    rw [normalize_eq_smul, sub_origin hq']
    funext i
    fin_cases i <;> simp [zeroW]
  rw [e3, mulVec_smul, mulVec_sub, hw.mulVec_inv]
  exact ⟨(norm4 ![(m⁻¹ *ᵥ q) 0, (m⁻¹ *ᵥ q) 1, (m⁻¹ *ᵥ q) 2, 0])⁻¹, 0, by rw [zero_smul, add_zero]⟩

theorem isometry_turn_move (a b c : ℝ) : Isometry (turn * moveMatrix a b c) := isometry_of_rigid (rigid_mul turn_rigid (move_rigid a b c))

/-- a round surface placed on the x-axis, as the components place them -/
theorem round_leaf {s : Scene} {x : ℕ} {l : Prim × Mat4 × ℝ × Option Material} (hT : (s.heap.obj x).objT = (s.heap.obj x).world⁻¹)
    (hl : IsLeaf s x l) (hp : l.1.IsRound) {c : ℝ} (hc : l.2.1 = turn * moveMatrix 0 0 c) : RoundAbout s.heap x (point 0 0 0) (vector 1 0 0) := by
  have hw : (s.heap.obj x).world = turn * moveMatrix 0 0 c := hl.2.1.trans hc
  have h := round_prim hp hl.1 hT (hw ▸ isometry_turn_move 0 0 c)
  rw [hw] at h
  have e1 : (turn * moveMatrix 0 0 c) *ᵥ point 0 0 0 = point c 0 0 := by
    have := (isometry_turn_move 0 0 c).mulVec_inv (point c 0 0)
    rw [turn_move_point] at this
    simpa using this
  have e2 : (turn * moveMatrix 0 0 c) *ᵥ vector 0 0 1 = vector 1 0 0 := by
    have := (isometry_turn_move 0 0 c).mulVec_inv (vector 1 0 0)
    rw [turn_move_dir _ _ _ rfl] at this
    simpa [vector] using this
  rw [e1, e2] at h
  have h := h.shift (-c)
  have e3 : point c 0 0 + -c • vector 1 0 0 = point 0 0 0 := by
    funext i; fin_cases i <;> simp [point, vector]
  rwa [e3] at h

/-- all surfaces of a component made of such leaves -/
theorem Ctx.round {s0 s : Scene} {T : CTree} {M : Made} (c : Ctx argsort fuel s0 s [(T, M)]) {depth : ℕ} (hd : M.depth ≤ depth)
    (hl : ∀ l ∈ M.leaves, l.2.2.2 ≠ some .absorber → l.1.IsRound ∧ ∃ c, l.2.1 = turn * moveMatrix 0 0 c) :
    ∀ e ∈ surfaceIds depth s.heap T.root, s.material e.2 ≠ .absorber → RoundAbout s.heap e.2 (point 0 0 0) (vector 1 0 0) := by
  intro e he hm
  obtain ⟨hdesc, -, haddr, -⟩ := c.parts _ List.mem_cons_self
  obtain ⟨l, hll, hr⟩ := forall₂_mem_left (hdesc.surfaces hd) he
  have hi := c.ready.inv
  have hlt := (haddr e.2 ((hdesc.surface_addrs depth).subset (List.mem_map.2 ⟨e, he, rfl⟩))).2
  obtain ⟨h1, c', h2⟩ := hl l hll (fun h => hm (hr.2.2.2 _ h))
  exact round_leaf (hi.synced e.2 hlt).2.1 hr h1 h2

end PyRayT
