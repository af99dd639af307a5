import Verif.Spec.Components
import Verif.Props.Boundary

/-! The trees of surfaces the component functions build, and which points they contain. -/

namespace PyRayT

open Classical Matrix

/-! ### placements -/

/-- the placement of the decorators: local (x, y, z) becomes (z, x, y) -/
def turn : Mat4 := !![0, 0, 1, 0; 1, 0, 0, 0; 0, 1, 0, 0; 0, 0, 0, 1]

def turnInv : Mat4 := !![0, 1, 0, 0; 0, 0, 1, 0; 1, 0, 0, 0; 0, 0, 0, 1]

theorem rot_turn : rotXMatrix 1 0 * rotYMatrix 1 0 = turn := by
  ext i j
  rw [Matrix.mul_apply, Fin.sum_univ_four]
  fin_cases i <;> fin_cases j <;> simp [rotXMatrix, rotYMatrix, turn]

theorem move_mul (a b c a' b' c' : ℝ) : moveMatrix a b c * moveMatrix a' b' c' = moveMatrix (a + a') (b + b') (c + c') := by
  ext i j
  rw [Matrix.mul_apply, Fin.sum_univ_four]
  fin_cases i <;> fin_cases j <;> simp [moveMatrix, add_comm]

theorem turn_move_inv (a b c : ℝ) : (moveMatrix (-a) (-b) (-c) * turnInv) * (turn * moveMatrix a b c) = 1 := by
  ext i j
  rw [Matrix.mul_apply, Fin.sum_univ_four]
  simp only [Matrix.mul_apply, Fin.sum_univ_four]
  fin_cases i <;> fin_cases j <;> simp [moveMatrix, turn, turnInv]

theorem turn_move_eq_inv (a b c : ℝ) : (turn * moveMatrix a b c)⁻¹ = moveMatrix (-a) (-b) (-c) * turnInv :=
  inv_eq_left_inv (turn_move_inv a b c)

theorem turn_rigid : Rigid turn := by
  rw [← rot_turn]; exact rigid_mul (rotX_rigid (by norm_num)) (rotY_rigid (by norm_num))

theorem leaf_interior {p : Prim} {w : Mat4} (hw : w.det ≠ 0) (q : Vec4) :
    (Solid.leaf p w).Interior q ↔ Spec.Interior p (w⁻¹ *ᵥ q) := by
  have hu : IsUnit w.det := isUnit_iff_ne_zero.2 hw
  simp only [Solid.Interior]
  constructor
  · rintro ⟨x, rfl, h⟩
    rwa [mulVec_mulVec, nonsing_inv_mul _ hu, one_mulVec]
  · intro h
    exact ⟨_, by rw [mulVec_mulVec, mul_nonsing_inv _ hu, one_mulVec], h⟩

theorem leaf_outside {p : Prim} {w : Mat4} (hw : w.det ≠ 0) (q : Vec4) :
    (Solid.leaf p w).Outside q ↔ ¬ Spec.Closed p (w⁻¹ *ᵥ q) := by
  have hu : IsUnit w.det := isUnit_iff_ne_zero.2 hw
  simp only [Solid.Outside]
  constructor
  · intro h
    exact h _ (by rw [mulVec_mulVec, mul_nonsing_inv _ hu, one_mulVec])
  · rintro h x rfl
    rwa [mulVec_mulVec, nonsing_inv_mul _ hu, one_mulVec] at h

theorem turn_move_affine (a b c : ℝ) : Affine (turn * moveMatrix a b c) :=
  rigid_affine (rigid_mul turn_rigid (move_rigid a b c))

theorem turn_move_point (a b c x y z : ℝ) : (turn * moveMatrix a b c)⁻¹ *ᵥ point x y z = point (y - a) (z - b) (x - c) := by
  rw [turn_move_eq_inv]
  funext i
  rw [mulVec4]
  simp only [Matrix.mul_apply, Fin.sum_univ_four]
  fin_cases i <;> simp [moveMatrix, turnInv, point] <;> ring

theorem turn_move_dir (a b c : ℝ) {d : Vec4} (hd : d 3 = 0) : (turn * moveMatrix a b c)⁻¹ *ᵥ d = vector (d 1) (d 2) (d 0) := by
  rw [turn_move_eq_inv]
  funext i
  rw [mulVec4]
  simp only [Matrix.mul_apply, Fin.sum_univ_four]
  fin_cases i <;> simp [moveMatrix, turnInv, vector, hd]

theorem turn_interior (p : Prim) (a b c x y z : ℝ) :
    (Solid.leaf p (turn * moveMatrix a b c)).Interior (point x y z) ↔ Spec.Interior p (point (y - a) (z - b) (x - c)) := by
  rw [leaf_interior (turn_move_affine a b c).2, turn_move_point]

theorem turn_outside (p : Prim) (a b c x y z : ℝ) :
    (Solid.leaf p (turn * moveMatrix a b c)).Outside (point x y z) ↔ ¬ Spec.Closed p (point (y - a) (z - b) (x - c)) := by
  rw [leaf_outside (turn_move_affine a b c).2, turn_move_point]

/-! ### trees -/

theorem Made.map_map (m m' : Mat4) : ∀ M : Made, (M.map m).map m' = M.map (m' * m)
  | .leaf p w n x => by simp [Made.map, Matrix.mul_assoc]
  | .node op l r => by simp [Made.map, Made.map_map m m' l, Made.map_map m m' r]

theorem Made.map_depth (m : Mat4) : ∀ M : Made, (M.map m).depth = M.depth
  | .leaf _ _ _ _ => rfl
  | .node op l r => by simp [Made.map, Made.depth, Made.map_depth m l, Made.map_depth m r]

/-- there is no union in the tree -/
def Made.NoUnion : Made → Prop
  | .leaf _ _ _ _ => True
  | .node op l r => op ≠ .union ∧ l.NoUnion ∧ r.NoUnion

/-- the leaves, left to right -/
def Made.leaves : Made → List (Prim × Mat4 × ℝ × Option Material)
  | .leaf p w n m => [(p, w, n, m)]
  | .node _ l r => l.leaves ++ r.leaves

theorem Desc.noUnion {s : Scene} : ∀ {T : CTree} {M : Made}, Desc s T M → M.NoUnion → ∀ x ∈ T.addrs, ∀ l r,
    (s.heap.obj x).kind ≠ .csg .union l r
  | .leaf a, .leaf p w n m, hd, _, x, hx, l, r => by
    simp only [Desc] at hd
    simp only [CTree.addrs, List.mem_singleton] at hx
    rw [hx, hd.1]; simp
  | .node a op l' r', .node op' l'' r'', hd, hn, x, hx, l, r => by
    simp only [Desc] at hd
    simp only [CTree.addrs, List.mem_cons, List.mem_append] at hx
    rcases hx with rfl | hx | hx
    · rw [hd.1, hd.2.1]
      intro h
      simp only [Kind.csg.injEq] at h
      exact hn.1 h.1
    · exact hd.2.2.1.noUnion hn.2.1 x hx l r
    · exact hd.2.2.2.noUnion hn.2.2 x hx l r
  | .leaf _, .node _ _ _, hd, _, _, _, _, _ => hd.elim
  | .node _ _ _ _, .leaf _ _ _ _, hd, _, _, _, _, _ => hd.elim

/-- the surfaces listed by `surface_ids` are the leaves of the tree, in order -/
theorem Desc.surfaces {s : Scene} : ∀ {T : CTree} {M : Made} {depth : ℕ}, Desc s T M → M.depth ≤ depth →
    List.Forall₂ (fun (e : ℕ × ℕ) (l : Prim × Mat4 × ℝ × Option Material) => (s.heap.obj e.2).kind = .prim l.1 ∧
      (s.heap.obj e.2).world = l.2.1 ∧ (s.heap.obj e.2).nscale = l.2.2.1 ∧ ∀ m, l.2.2.2 = some m → s.material e.2 = m)
      (surfaceIds depth s.heap T.root) M.leaves
  | _, _, 0, hd, hf => by rename_i M; cases M <;> simp [Made.depth] at hf
  | .leaf a, .leaf p w n m, depth + 1, hd, _ => by
    simp only [Desc] at hd
    simp only [surfaceIds, CTree.root_leaf, hd.1, Made.leaves]
    exact .cons ⟨hd.1, hd.2.1, hd.2.2.1, hd.2.2.2⟩ .nil
  | .node a op l r, .node op' l' r', depth + 1, hd, hf => by
    simp only [Desc] at hd
    simp only [Made.depth] at hf
    simp only [surfaceIds, CTree.root_node, hd.1, Made.leaves]
    exact List.rel_append (hd.2.2.1.surfaces (by omega)) (hd.2.2.2.surfaces (by omega))
  | .leaf _, .node _ _ _, _ + 1, hd, _ => hd.elim
  | .node _ _ _ _, .leaf _ _ _ _, _ + 1, hd, _ => hd.elim

variable {argsort : List EReal → List ℕ} {fuel : ℕ}

theorem point_eta {q : Vec4} (h : q 3 = 1) : q = point (q 0) (q 1) (q 2) := by
  funext i; fin_cases i <;> simp [point, h]

theorem Made.solid_depth : ∀ M : Made, M.solid.depth = M.depth
  | .leaf _ _ _ _ => rfl
  | .node op l r => by simp [Made.solid, Made.depth, Solid.depth, Made.solid_depth l, Made.solid_depth r]

/-- from the construction to what can be observed -/
theorem Ctx.built (ha : IsArgsort argsort) {s0 s : Scene} {T : CTree} {M : Made} (h : Ctx argsort fuel s0 s [(T, M)])
    (hd3 : M.depth ≤ 3) (hn : M.NoUnion) {seen : Ray → Prop} {inside outside : ℝ → ℝ → ℝ → Prop}
    (hleaf : ∀ ray, GoodRay ray → seen ray → M.solid.All fun p w => (p.Valid ∧ Affine w) ∧ Spec.Sees p (ray.map w⁻¹))
    (hpts : ∀ x y z, (M.solid.Interior (point x y z) ↔ inside x y z) ∧ (M.solid.Outside (point x y z) ↔ outside x y z)) :
    Spec.Built argsort fuel s0 s T.root seen inside outside := by
  obtain ⟨hd, -, haddr, htop⟩ := h.parts _ List.mem_cons_self
  simp only at hd haddr htop
  have hr := haddr _ T.root_mem
  have hov : ∀ x k l r, Chain s.heap T.root x k → (s.heap.obj x).kind = .csg .union l r →
      Spec.Overlap (s.heap.obj l).aobb (s.heap.obj r).aobb := by
    intro x k l r hc hk
    have hu : Under s.heap T.root x := by
      clear hk
      induction hc with
      | refl => exact .refl
      | left _ hk ih => exact .step ih ⟨_, _, _, hk, Or.inl rfl⟩
      | right _ hk ih => exact .step ih ⟨_, _, _, hk, Or.inr rfl⟩
    exact absurd hk (hd.noUnion hn x ((hd.under_iff x).1 hu) l r)
  refine ⟨h.ready, ⟨hr.1, hr.2, htop⟩, h.old, ⟨M.solid, hd.represents, hpts⟩, fun ray hray hseen depth hdep t => ?_,
    fun hst ray hray hseen depth hdep t hm => ?_⟩
  · have := C04_tidy_partial argsort ha fuel s.heap h.ready.tidy T.root hr.2 M.solid hd.represents hov ray hray
      (hleaf ray hray hseen) depth (by rw [M.solid_depth]; omega) t
    rw [point_eta (hray.at3 t)] at this
    have h2 := hpts (ray.at t 0) (ray.at t 1) (ray.at t 2)
    exact ⟨fun hi => this.1 (h2.1.2 hi), fun ho => this.2 (h2.2.2 ho)⟩
  · have := C64_tidy_partial argsort hst fuel s.heap h.ready.tidy T.root hr.2 M.solid hd.represents hov ray hray
      (hleaf ray hray hseen) depth (by rw [M.solid_depth]; omega) t hm
    rw [point_eta (hray.at3 t)] at this
    have h2 := hpts (ray.at t 0) (ray.at t 1) (ray.at t 2)
    rwa [h2.1, h2.2] at this

theorem Makes.bind_pure {s0 : Scene} {x : Build ℕ} {M : Made} (h : Makes argsort fuel s0 x M) : Makes argsort fuel s0 (x >>= pure) M := by
  obtain ⟨s, T, e, c⟩ := h
  exact ⟨s, T, by rw [Build.bind_ok e]; rfl, c⟩

theorem sinCos90 : sinCos 90 .deg = some (1, 0) := by
  simp only [sinCos]
  rw [show 90 * Real.pi / 180 = Real.pi / 2 by ring, Real.sin_pi_div_two, Real.cos_pi_div_two]

theorem sinCos_neg90 : sinCos (-90) .deg = some (-1, 0) := by
  simp only [sinCos]
  rw [show -90 * Real.pi / 180 = -(Real.pi / 2) by ring, Real.sin_neg, Real.cos_neg, Real.sin_pi_div_two, Real.cos_pi_div_two]

theorem Ctx.move {s0 s : Scene} {Γ : List (CTree × Made)} {T : CTree} {M : Made} (h : Ctx argsort fuel s0 s ((T, M) :: Γ))
    (hf : M.depth ≤ fuel) (x y z : ℝ) :
    ∃ s', Build.call argsort fuel T.root (.move x y z) s = (.ok T.root, s') ∧
      Ctx argsort fuel s0 s' ((T, M.map (moveMatrix x y z)) :: Γ) :=
  h.call hf (.inl ⟨x, y, z, rfl⟩) rfl

theorem Ctx.rotY {s0 s : Scene} {Γ : List (CTree × Made)} {T : CTree} {M : Made} (h : Ctx argsort fuel s0 s ((T, M) :: Γ))
    (hf : M.depth ≤ fuel) {t sn cs : ℝ} {u : Units} (hu : sinCos t u = some (sn, cs)) :
    ∃ s', Build.call argsort fuel T.root (.rotateY t u) s = (.ok T.root, s') ∧
      Ctx argsort fuel s0 s' ((T, M.map (rotYMatrix sn cs)) :: Γ) :=
  h.call hf (.inr ⟨t, u, .inr (.inl rfl)⟩) (by simp only [Movement.matrix, hu])

theorem Ctx.rotX {s0 s : Scene} {Γ : List (CTree × Made)} {T : CTree} {M : Made} (h : Ctx argsort fuel s0 s ((T, M) :: Γ))
    (hf : M.depth ≤ fuel) {t sn cs : ℝ} {u : Units} (hu : sinCos t u = some (sn, cs)) :
    ∃ s', Build.call argsort fuel T.root (.rotateX t u) s = (.ok T.root, s') ∧
      Ctx argsort fuel s0 s' ((T, M.map (rotXMatrix sn cs)) :: Γ) :=
  h.call hf (.inr ⟨t, u, .inl rfl⟩) (by simp only [Movement.matrix, hu])

/-- the decorators -/
theorem Makes.orient {s0 : Scene} {x : Build ℕ} {M : Made} (h : Makes argsort fuel s0 x M) (hf : M.depth ≤ fuel) :
    Makes argsort fuel s0 (orient argsort fuel x) (M.map turn) := by
  obtain ⟨s, T, e, c⟩ := h
  obtain ⟨s1, e1, c1⟩ := c.rotY hf sinCos90
  obtain ⟨s2, e2, c2⟩ := c1.rotX (by rw [Made.map_depth]; exact hf) sinCos90
  refine ⟨s2, T, ?_, ?_⟩
  · unfold PyRayT.orient
    rw [Build.bind_ok e, Build.bind_ok e1, e2]
  · rwa [Made.map_map, rot_turn] at c2

/-- the primitive of an aperture -/
noncomputable def aperturePrim : Aperture → ℝ → Prim
  | .scalar d, t => .cylinder (d / 2) (-t / 2) (t / 2)
  | .pair a b, t => .cube ![-a / 2, -b / 2, -t / 2] ![a / 2, b / 2, t / 2]

theorem Ctx.aperture {s0 s : Scene} {Γ : List (CTree × Made)} (h : Ctx argsort fuel s0 s Γ) {ap : Aperture}
    (hap : Spec.goodAperture ap) (t : ℝ) :
    ∃ s', createAperture ap t s = (.ok s.heap.size, s') ∧
      Ctx argsort fuel s0 s' ((.leaf s.heap.size, .leaf (aperturePrim ap t) 1 1 none) :: Γ) := by
  cases ap with
  | scalar d => exact h.surface (aperturePrim (.scalar d) t) none (by simp [aperturePrim, Prim.rejected])
  | pair a b =>
    have : createAperture (.pair a b) t = Build.surface (aperturePrim (.pair a b) t) none := by
      simp only [createAperture]
      rw [if_pos (show a > 0 ∧ b > 0 from hap)]; rfl
    rw [this]
    exact h.surface _ _ (by simp [aperturePrim, Prim.rejected])

/-- the points of a placed aperture -/
theorem aperture_interior {ap : Aperture} (hap : Spec.goodAperture ap) {t : ℝ} (ht : 0 ≤ t) (u v w : ℝ) :
    Spec.Interior (aperturePrim ap t) (point u v w) ↔ Spec.inAperture ap u v ∧ |w| < t / 2 := by
  have e : min (-t / 2) (t / 2) = -(t / 2) ∧ max (-t / 2) (t / 2) = t / 2 := by
    rw [min_eq_left (by linarith), max_eq_right (by linarith)]; constructor <;> ring
  cases ap with
  | scalar d =>
    simp only [aperturePrim, Spec.Interior, Spec.inAperture, point, e, abs_lt]
    simp
  | pair a b =>
    obtain ⟨h1, h2⟩ := hap
    have ea : min (-a / 2) (a / 2) = -(a / 2) ∧ max (-a / 2) (a / 2) = a / 2 := by
      rw [min_eq_left (by linarith), max_eq_right (by linarith)]; constructor <;> ring
    have eb : min (-b / 2) (b / 2) = -(b / 2) ∧ max (-b / 2) (b / 2) = b / 2 := by
      rw [min_eq_left (by linarith), max_eq_right (by linarith)]; constructor <;> ring
    simp only [aperturePrim, Spec.Interior, Spec.inAperture, point, abs_lt, Fin.forall_fin_succ]
    simp [e, ea, eb]
    tauto

theorem aperture_closed {ap : Aperture} (hap : Spec.goodAperture ap) {t : ℝ} (ht : 0 ≤ t) (u v w : ℝ) :
    Spec.Closed (aperturePrim ap t) (point u v w) ↔ ¬ Spec.offAperture ap u v ∧ |w| ≤ t / 2 := by
  have e : min (-t / 2) (t / 2) = -(t / 2) ∧ max (-t / 2) (t / 2) = t / 2 := by
    rw [min_eq_left (by linarith), max_eq_right (by linarith)]; constructor <;> ring
  cases ap with
  | scalar d =>
    simp only [aperturePrim, Spec.Closed, Spec.offAperture, point, e, abs_le, not_lt]
    simp
  | pair a b =>
    obtain ⟨h1, h2⟩ := hap
    have ea : min (-a / 2) (a / 2) = -(a / 2) ∧ max (-a / 2) (a / 2) = a / 2 := by
      rw [min_eq_left (by linarith), max_eq_right (by linarith)]; constructor <;> ring
    have eb : min (-b / 2) (b / 2) = -(b / 2) ∧ max (-b / 2) (b / 2) = b / 2 := by
      rw [min_eq_left (by linarith), max_eq_right (by linarith)]; constructor <;> ring
    simp only [aperturePrim, Spec.Closed, Spec.offAperture, point, not_or, not_lt, abs_le, Fin.forall_fin_succ]
    simp [e, ea, eb]
    tauto

theorem aperture_valid (ap : Aperture) (t : ℝ) : (aperturePrim ap t).Valid := by cases ap <;> trivial

theorem aperture_sees {ap : Aperture} {t : ℝ} (ht : 0 ≤ t) {ray : Ray} (hray : GoodRay ray) (hs : Spec.clearOfAxis ray) (a b c : ℝ) :
    Spec.Sees (aperturePrim ap t) (ray.map (turn * moveMatrix a b c)⁻¹) := by
  have e : (ray.map (turn * moveMatrix a b c)⁻¹).d = vector (ray.d 1) (ray.d 2) (ray.d 0) := turn_move_dir a b c hray.d3
  cases ap with
  | scalar d =>
    simp only [aperturePrim, Spec.Sees, e]
    exact ⟨by linarith, hs, hray.clear.1⟩
  | pair a b =>
    simp only [aperturePrim, Spec.Sees, e]
    exact ⟨hray.clear.2.1, hray.clear.2.2, hray.clear.1⟩

theorem sphere_sees {r : ℝ} {ray : Ray} (hray : GoodRay ray) (a b c : ℝ) :
    Spec.Sees (.sphere r) (ray.map (turn * moveMatrix a b c)⁻¹) := by
  have e : (ray.map (turn * moveMatrix a b c)⁻¹).d = vector (ray.d 1) (ray.d 2) (ray.d 0) := turn_move_dir a b c hray.d3
  simp only [Spec.Sees, e]
  rcases hray.ne with h | h | h
  · exact .inr (.inr h)
  · exact .inl h
  · exact .inr (.inl h)

/-- points strictly inside the opening are not outside it -/
theorem inAperture_not_off {ap : Aperture} {y z : ℝ} (h : Spec.inAperture ap y z) : ¬ Spec.offAperture ap y z := by
  cases ap with
  | scalar d => simp only [Spec.inAperture, Spec.offAperture] at *; linarith
  | pair a b =>
    simp only [Spec.inAperture, Spec.offAperture, not_or] at *
    exact ⟨by linarith [h.1], by linarith [h.2]⟩

theorem rim_bound {ap : Aperture} {y z : ℝ} (h : ¬ Spec.offAperture ap y z) : y ^ 2 + z ^ 2 ≤ Spec.rim ap := by
  cases ap with
  | scalar d => simp only [Spec.offAperture, Spec.rim] at *; linarith
  | pair a b =>
    simp only [Spec.offAperture, Spec.rim, not_or, not_lt] at *
    have h1 := sq_le_sq' (by linarith [abs_nonneg y]) h.1
    have h2 := sq_le_sq' (by linarith [abs_nonneg z]) h.2
    rw [sq_abs] at h1 h2
    linarith

theorem maxHeight_sq (ap : Aperture) : ap.maxHeight ^ 2 = Spec.rim ap := by
  cases ap with
  | scalar d => simp [Aperture.maxHeight, Spec.rim]
  | pair a b =>
    simp only [Aperture.maxHeight, Spec.rim]
    rw [div_pow, Real.sq_sqrt (by positivity)]; ring

/-! ### lenses -/

/-- one spherical side of a lens -/
noncomputable def cutSide (op : Operation) (r c : ℝ) (m : Option Material) (M : Made) : Made :=
  Made.join op M (.leaf (.sphere r) (moveMatrix 0 0 c) 1 m)

noncomputable def thickLensMade (r1 r2 : Option ℝ) (t : ℝ) (ap : Aperture) (m : Material) : Made :=
  let full := lensFullThickness r1 r2 t ap
  let M : Made := .leaf (aperturePrim ap full.1) (moveMatrix 0 0 (full.2 / 2)) 1 (some m)
  let M := match r1 with
    | some r => cutSide (if r > 0 then .intersect else .difference) r (r - t / 2) (some m) M
    | none => M
  match r2 with
    | some r => cutSide (if r < 0 then .intersect else .difference) r (r + t / 2) (some m) M
    | none => M

theorem Ctx.cutSide {s0 s : Scene} {T : CTree} {M : Made} (h : Ctx argsort fuel s0 s [(T, M)]) (hf : 1 ≤ fuel) (r c : ℝ) (m : Option Material)
    (op : Operation) :
    ∃ a s1 s2 s3 T', Build.surface (.sphere r) m s = (.ok a, s1) ∧ Build.call argsort fuel a (.move 0 0 c) s1 = (.ok a, s2) ∧
      Build.csg argsort op T.root a s2 = (.ok T'.root, s3) ∧ Ctx argsort fuel s0 s3 [(T', PyRayT.cutSide op r c m M)] := by
  obtain ⟨s1, e1, c1⟩ := h.surface (.sphere r) m
  obtain ⟨s2, e2, c2⟩ := c1.move hf 0 0 c
  obtain ⟨s3, e3, c3⟩ := (c2.perm (.swap _ _ _)).csg op (.inr ⟨_, _, _, _, rfl⟩)
  rw [Made.map, mul_one] at c3
  exact ⟨_, s1, s2, s3, .node s2.heap.size op T (.leaf s.heap.size), e1, e2, e3, c3⟩

theorem cutSide_depth (op : Operation) (r c : ℝ) (m : Option Material) (M : Made) : (cutSide op r c m M).depth = max M.depth 1 + 1 := by
  unfold cutSide Made.join
  split <;> simp [Made.depth, Made.flip]

theorem thickLens_makes {s0 : Scene} (h0 : Ready argsort fuel s0) (hf : 3 ≤ fuel) (r1 r2 : Option ℝ) (t : ℝ) {ap : Aperture}
    (hap : Spec.goodAperture ap) (m : Material) :
    Makes argsort fuel s0 (thickLens argsort fuel r1 r2 t ap m) ((thickLensMade r1 r2 t ap m).map turn) := by
  unfold thickLens
  refine Makes.orient ?_ ?_
  · obtain ⟨s1, e1, c1⟩ := (Ctx.start h0).aperture hap (lensFullThickness r1 r2 t ap).1
    obtain ⟨s2, e2, c2⟩ := c1.move (by simp [Made.depth]; omega) 0 0 ((lensFullThickness r1 r2 t ap).2 / 2)
    rw [Made.map, mul_one] at c2
    obtain ⟨s3, e3, c3⟩ := c2.setMaterial m
    rw [CTree.root_leaf] at e2
    unfold Makes thickLensMade
    simp only
    rw [Build.bind_ok e1, Build.bind_ok e2, Build.bind_ok e3]
    cases r1 with
    | none =>
      have e4 : (pure s0.heap.size : Build ℕ) s3 = (.ok s0.heap.size, s3) := rfl
      simp only
      rw [Build.bind_ok e4]
      cases r2 with
      | none => exact ⟨s3, .leaf s0.heap.size, rfl, c3⟩
      | some r =>
        obtain ⟨a, s5, s6, s7, T', e5, e6, e7, c7⟩ := c3.cutSide (by omega) r (r + t / 2) (some m) (if r < 0 then .intersect else .difference)
        refine ⟨s7, T', ?_, c7⟩
        simp only
        rw [Build.bind_ok e5, Build.bind_ok e6]
        exact e7
    | some q =>
      obtain ⟨a', s5, s6, s7, T', e5, e6, e7, c7⟩ := c3.cutSide (by omega) q (q - t / 2) (some m) (if q > 0 then .intersect else .difference)
      rw [CTree.root_leaf] at e7
      simp only
      rw [Build.bind_ok e5, Build.bind_ok e6, Build.bind_ok e7]
      cases r2 with
      | none => exact ⟨s7, T', rfl, c7⟩
      | some r =>
        obtain ⟨a, s8, s9, s10, T2, e8, e9, e10, c10⟩ := c7.cutSide (by omega) r (r + t / 2) (some m) (if r < 0 then .intersect else .difference)
        refine ⟨s10, T2, ?_, c10⟩
        simp only
        rw [Build.bind_ok e8, Build.bind_ok e9]
        exact e10
  · unfold thickLensMade
    cases r1 <;> cases r2 <;> simp [cutSide_depth, Made.depth] <;> omega

/-- strictly on the lens side of a spherical surface: inside the sphere if it is intersected, outside if it is cut off -/
def sideIn (convex : Prop) (r c x q : ℝ) : Prop := if convex then q + (x - c) ^ 2 < r ^ 2 else r ^ 2 < q + (x - c) ^ 2

def sideOut (convex : Prop) (r c x q : ℝ) : Prop := if convex then r ^ 2 < q + (x - c) ^ 2 else q + (x - c) ^ 2 < r ^ 2

theorem cutSide_interior (convex : Prop) (r c : ℝ) (m : Option Material) (M : Made) (x y z : ℝ) :
    ((cutSide (if convex then .intersect else .difference) r c m M).map turn).solid.Interior (point x y z) ↔
      (M.map turn).solid.Interior (point x y z) ∧ sideIn convex r c x (y ^ 2 + z ^ 2) := by
  by_cases h : convex
  · simp only [cutSide, Made.join, if_pos h, sideIn]
    rw [if_neg (by simp)]
    simp only [Made.map, Made.solid, Solid.Interior.eq_3, turn_interior]
    simp [Spec.Interior, point]
  · simp only [cutSide, Made.join, if_neg h, sideIn]
    rw [if_pos trivial]
    simp only [Made.map, Made.flip, Made.solid, Solid.Interior.eq_4, turn_outside]
    simp [Spec.Closed, point]

theorem cutSide_outside (convex : Prop) (r c : ℝ) (m : Option Material) (M : Made) (x y z : ℝ) :
    ((cutSide (if convex then .intersect else .difference) r c m M).map turn).solid.Outside (point x y z) ↔
      (M.map turn).solid.Outside (point x y z) ∨ sideOut convex r c x (y ^ 2 + z ^ 2) := by
  by_cases h : convex
  · simp only [cutSide, Made.join, if_pos h, sideOut]
    rw [if_neg (by simp)]
    simp only [Made.map, Made.solid, Solid.Outside.eq_3, turn_outside]
    simp [Spec.Closed, point]
  · simp only [cutSide, Made.join, if_neg h, sideOut]
    rw [if_pos trivial]
    simp only [Made.map, Made.flip, Made.solid, Solid.Outside.eq_4, turn_interior]
    simp [Spec.Interior, point]

/-- the sphere in terms of its two surfaces -/
theorem ball_in {r c x q : ℝ} : q + (x - c) ^ 2 < r ^ 2 ↔ c - √(r ^ 2 - q) < x ∧ x < c + √(r ^ 2 - q) := by
  rw [show q + (x - c) ^ 2 < r ^ 2 ↔ (x - c) ^ 2 < r ^ 2 - q by constructor <;> intro <;> linarith, Real.sq_lt]
  constructor <;> rintro ⟨h1, h2⟩ <;> constructor <;> linarith

theorem ball_out {r c x q : ℝ} (hq : q ≤ r ^ 2) : r ^ 2 < q + (x - c) ^ 2 ↔ x < c - √(r ^ 2 - q) ∨ c + √(r ^ 2 - q) < x := by
  rw [show r ^ 2 < q + (x - c) ^ 2 ↔ r ^ 2 - q < (x - c) ^ 2 by constructor <;> intro <;> linarith,
    ← Real.sqrt_lt_sqrt_iff (by linarith), Real.sqrt_sq_eq_abs, lt_abs]
  constructor
  · rintro (h | h)
    · right; linarith
    · left; linarith
  · rintro (h | h)
    · right; linarith
    · left; linarith

theorem sqrt_facts {r q rim : ℝ} (hq0 : 0 ≤ q) (hq : q ≤ rim) :
    0 ≤ √(|r| ^ 2 - rim) ∧ √(|r| ^ 2 - rim) ≤ √(r ^ 2 - q) ∧ √(r ^ 2 - q) ≤ |r| := by
  rw [sq_abs]
  refine ⟨Real.sqrt_nonneg _, Real.sqrt_le_sqrt (by linarith), ?_⟩
  calc √(r ^ 2 - q) ≤ √(r ^ 2) := Real.sqrt_le_sqrt (by linarith)
    _ = |r| := Real.sqrt_sq_eq_abs r

/-- left side -/
def sideIn1 (r1 : Option ℝ) (t x q : ℝ) : Prop := ∀ r, r1 = some r → sideIn (r > 0) r (r - t / 2) x q
def sideOut1 (r1 : Option ℝ) (t x q : ℝ) : Prop := ∃ r, r1 = some r ∧ sideOut (r > 0) r (r - t / 2) x q
def sideIn2 (r2 : Option ℝ) (t x q : ℝ) : Prop := ∀ r, r2 = some r → sideIn (r < 0) r (r + t / 2) x q
def sideOut2 (r2 : Option ℝ) (t x q : ℝ) : Prop := ∃ r, r2 = some r ∧ sideOut (r < 0) r (r + t / 2) x q

/-- `_lens_full_thickness`: how far the cylinder reaches to the left and to the right -/
theorem fullThickness (r1 r2 : Option ℝ) (t : ℝ) (ap : Aperture) (ht : 0 ≤ t)
    (h1 : ∀ r, r1 = some r → Spec.rim ap ≤ r ^ 2) (h2 : ∀ r, r2 = some r → Spec.rim ap ≤ r ^ 2) : ∃ lo hi : ℝ, lo ≤ hi ∧
    lensFullThickness r1 r2 t ap = (hi - lo, hi + lo) ∧
    (∀ q R, 0 ≤ q → q ≤ Spec.rim ap → (∀ r, r1 = some r → 0 < r → R ≤ r - t / 2 + √(r ^ 2 - q)) → (∀ r, r1 = some r → r ≠ 0) → ∀ x,
      lo ≤ -t / 2 + Spec.sag r1 q ∧
      (lo < x → sideIn1 r1 t x q → -t / 2 + Spec.sag r1 q < x) ∧
      (-t / 2 + Spec.sag r1 q < x → x < R → sideIn1 r1 t x q) ∧
      (x < -t / 2 + Spec.sag r1 q → lo ≤ x → sideOut1 r1 t x q) ∧
      (sideOut1 r1 t x q → lo ≤ x → x < -t / 2 + Spec.sag r1 q ∨ R < x)) ∧
    (∀ q L, 0 ≤ q → q ≤ Spec.rim ap → (∀ r, r2 = some r → r < 0 → r + t / 2 - √(r ^ 2 - q) ≤ L) → (∀ r, r2 = some r → r ≠ 0) → ∀ x,
      t / 2 + Spec.sag r2 q ≤ hi ∧
      (x < hi → sideIn2 r2 t x q → x < t / 2 + Spec.sag r2 q) ∧
      (x < t / 2 + Spec.sag r2 q → L < x → sideIn2 r2 t x q) ∧
      (t / 2 + Spec.sag r2 q < x → x ≤ hi → sideOut2 r2 t x q) ∧
      (sideOut2 r2 t x q → x ≤ hi → t / 2 + Spec.sag r2 q < x ∨ x < L)) := by
  have habs : ∀ r : ℝ, 0 ≤ |r| - √(|r| ^ 2 - ap.maxHeight ^ 2) := by
    intro r
    have : √(|r| ^ 2 - ap.maxHeight ^ 2) ≤ |r| := by
      calc √(|r| ^ 2 - ap.maxHeight ^ 2) ≤ √(|r| ^ 2) := Real.sqrt_le_sqrt (by nlinarith [sq_nonneg ap.maxHeight])
        _ = |r| := Real.sqrt_sq (abs_nonneg r)
    linarith
  obtain ⟨left, hleft⟩ : ∃ v : ℝ, v = match (generalizing := false) r1 with
    | some r => if r < 0 then t / 2 + (|r| - √(|r| ^ 2 - ap.maxHeight ^ 2)) else t / 2
    | none => t / 2 := ⟨_, rfl⟩
  obtain ⟨right, hright⟩ : ∃ v : ℝ, v = match (generalizing := false) r2 with
    | some r => if r > 0 then t / 2 + (|r| - √(|r| ^ 2 - ap.maxHeight ^ 2)) else t / 2
    | none => t / 2 := ⟨_, rfl⟩
  have hl0 : 0 ≤ left := by
    rw [hleft]
    cases r1 with
    | none => simp only; linarith
    | some r => simp only; split <;> linarith [habs r]
  have hr0 : 0 ≤ right := by
    rw [hright]
    cases r2 with
    | none => simp only; linarith
    | some r => simp only; split <;> linarith [habs r]
  refine ⟨-left, right, by linarith, ?_, ?_, ?_⟩
  · have e : lensFullThickness r1 r2 t ap = (right + left, right - left) := by rw [hleft, hright]; rfl
    rw [e, Prod.mk.injEq]
    constructor <;> ring
  · intro q R hq0 hq hR hne x
    cases r1 with
    | none =>
      simp only at hleft
      simp only [Spec.sag, sideIn1, sideOut1]
      refine ⟨by linarith, fun h _ => by linarith, fun _ _ r hr => by simp at hr, fun h1 h2 => by linarith, ?_⟩
      rintro ⟨r, hr, -⟩
      simp at hr
    | some r =>
      obtain ⟨f1, f2, f3⟩ := sqrt_facts (r := r) hq0 hq
      rw [← maxHeight_sq] at f1 f2
      have hR' := hR r rfl
      have hq2 : q ≤ r ^ 2 := hq.trans (h1 r rfl)
      simp only at hleft
      simp only [Spec.sag, sideIn1, sideOut1, Option.some.injEq, forall_eq', exists_eq_left']
      by_cases hr : 0 < r
      · rw [if_neg (by linarith)] at hleft
        rw [abs_of_pos hr] at f1 f2 f3
        simp only [sideIn, sideOut, gt_iff_lt, if_pos hr, ball_in, ball_out hq2]
        have := hR' hr
        refine ⟨by linarith, fun _ h => by linarith [h.1], fun h1 h2 => ⟨by linarith, by linarith⟩, fun h _ => .inl (by linarith), ?_⟩
        rintro (h | h) _
        · left; linarith
        · right; linarith
      · simp only [sideIn, sideOut, gt_iff_lt, if_neg hr, ball_in, ball_out hq2]
        have hr' : r < 0 := lt_of_le_of_ne (not_lt.1 hr) (hne r rfl)
        rw [if_pos hr'] at hleft
        rw [abs_of_neg hr'] at f1 f2 f3 hleft
        refine ⟨by linarith, ?_, fun h1 _ => .inr (by linarith), fun h1 h2 => ⟨by linarith, by linarith⟩, fun h _ => .inl (by linarith [h.2])⟩
        rintro h (h1 | h1)
        · linarith
        · linarith
  · intro q L hq0 hq hL hne x
    cases r2 with
    | none =>
      simp only at hright
      simp only [Spec.sag, sideIn2, sideOut2]
      refine ⟨by linarith, fun h _ => by linarith, fun _ _ r hr => by simp at hr, fun h1 h2 => by linarith, ?_⟩
      rintro ⟨r, hr, -⟩
      simp at hr
    | some r =>
      obtain ⟨f1, f2, f3⟩ := sqrt_facts (r := r) hq0 hq
      rw [← maxHeight_sq] at f1 f2
      have hL' := hL r rfl
      have hq2 : q ≤ r ^ 2 := hq.trans (h2 r rfl)
      have hne := hne r rfl
      simp only at hright
      simp only [Spec.sag, sideIn2, sideOut2, Option.some.injEq, forall_eq', exists_eq_left']
      rcases lt_or_gt_of_ne hne with hr | hr
      · rw [if_neg (by linarith)] at hright
        rw [abs_of_neg hr] at f1 f2 f3
        simp only [sideIn, sideOut, if_pos hr, if_neg (show ¬ 0 < r by linarith), ball_in, ball_out hq2]
        have := hL' hr
        refine ⟨by linarith, fun _ h => by linarith [h.2], fun h1 h2 => ⟨by linarith, by linarith⟩, fun h _ => .inr (by linarith), ?_⟩
        rintro (h | h) _
        · right; linarith
        · left; linarith
      · rw [if_pos (by linarith)] at hright
        rw [abs_of_pos hr] at f1 f2 f3 hright
        simp only [sideIn, sideOut, if_neg (show ¬ r < 0 by linarith), if_pos hr, ball_in, ball_out hq2]
        refine ⟨by linarith, ?_, fun h1 _ => .inl (by linarith), fun h1 h2 => ⟨by linarith, by linarith⟩, fun h _ => .inl (by linarith [h.1])⟩
        rintro h (h1 | h1)
        · linarith
        · linarith

theorem rim_pos {ap : Aperture} (h : Spec.goodAperture ap) : 0 < Spec.rim ap := by
  cases ap with
  | scalar d => simp only [Spec.goodAperture, Spec.rim] at *; positivity
  | pair a b => obtain ⟨h1, h2⟩ := h; simp only [Spec.rim]; positivity

/-- the points of a tree that starts with a placed aperture -/
theorem base_points {ap : Aperture} (hap : Spec.goodAperture ap) {T : ℝ} (hT : 0 ≤ T) (a b c n : ℝ) (m : Option Material) (x y z : ℝ) :
    (((Made.leaf (aperturePrim ap T) (moveMatrix a b c) n m).map turn).solid.Interior (point x y z) ↔
      Spec.inAperture ap (y - a) (z - b) ∧ c - T / 2 < x ∧ x < c + T / 2) ∧
    (((Made.leaf (aperturePrim ap T) (moveMatrix a b c) n m).map turn).solid.Outside (point x y z) ↔
      Spec.offAperture ap (y - a) (z - b) ∨ x < c - T / 2 ∨ c + T / 2 < x) := by
  simp only [Made.map, Made.solid, turn_interior, turn_outside, aperture_interior hap hT, aperture_closed hap hT]
  constructor
  · rw [abs_lt]
    constructor
    · rintro ⟨h, h1, h2⟩; exact ⟨h, by linarith, by linarith⟩
    · rintro ⟨h, h1, h2⟩; exact ⟨h, by linarith, by linarith⟩
  · rw [not_and_or, not_not, not_le, lt_abs]
    constructor
    · rintro (h | h | h)
      · exact .inl h
      · exact .inr (.inr (by linarith))
      · exact .inr (.inl (by linarith))
    · rintro (h | h | h)
      · exact .inl h
      · exact .inr (.inr (by linarith))
      · exact .inr (.inl (by linarith))

theorem thickLens_points {r1 r2 : Option ℝ} {t : ℝ} {ap : Aperture} (hf : Spec.LensFits r1 r2 t ap) (m : Material) (x y z : ℝ) :
    (((thickLensMade r1 r2 t ap m).map turn).solid.Interior (point x y z) ↔
      Spec.inAperture ap y z ∧ -t / 2 + Spec.sag r1 (y ^ 2 + z ^ 2) < x ∧ x < t / 2 + Spec.sag r2 (y ^ 2 + z ^ 2)) ∧
    (((thickLensMade r1 r2 t ap m).map turn).solid.Outside (point x y z) ↔
      Spec.offAperture ap y z ∨ x < -t / 2 + Spec.sag r1 (y ^ 2 + z ^ 2) ∨ t / 2 + Spec.sag r2 (y ^ 2 + z ^ 2) < x) := by
  obtain ⟨lo, hi, hle, hfull, s1, s2⟩ := fullThickness r1 r2 t ap hf.thick hf.wide1 hf.wide2
  have hrim := rim_pos hf.opening
  have ne1 : ∀ r, r1 = some r → r ≠ 0 := fun r hr h0 => by have := hf.wide1 r hr; rw [h0] at this; norm_num at this; linarith
  have ne2 : ∀ r, r2 = some r → r ≠ 0 := fun r hr h0 => by have := hf.wide2 r hr; rw [h0] at this; norm_num at this; linarith
  obtain ⟨b1, b2⟩ := base_points hf.opening (T := hi - lo) (by linarith) 0 0 ((hi + lo) / 2) 1 (some m) x y z
  rw [sub_zero, sub_zero, show (hi + lo) / 2 - (hi - lo) / 2 = lo by ring, show (hi + lo) / 2 + (hi - lo) / 2 = hi by ring] at b1 b2
  set q := y ^ 2 + z ^ 2 with hq
  have hq0 : 0 ≤ q := by positivity
  have hint : ((thickLensMade r1 r2 t ap m).map turn).solid.Interior (point x y z) ↔
      (Spec.inAperture ap y z ∧ lo < x ∧ x < hi) ∧ sideIn1 r1 t x q ∧ sideIn2 r2 t x q := by
    unfold thickLensMade sideIn1 sideIn2
    rw [hfull]
    cases r1 <;> cases r2 <;> simp only [cutSide_interior, b1, ← hq, Option.some.injEq, forall_eq', reduceCtorEq, IsEmpty.forall_iff,
      implies_true, true_and, and_true, and_assoc]
  have hout : ((thickLensMade r1 r2 t ap m).map turn).solid.Outside (point x y z) ↔
      (Spec.offAperture ap y z ∨ x < lo ∨ hi < x) ∨ sideOut1 r1 t x q ∨ sideOut2 r2 t x q := by
    unfold thickLensMade sideOut1 sideOut2
    rw [hfull]
    cases r1 <;> cases r2 <;> simp only [cutSide_outside, b2, ← hq, Option.some.injEq, exists_eq_left', reduceCtorEq, false_and, exists_false,
      or_false, false_or, or_assoc]
  rw [hint, hout]
  by_cases hoff : Spec.offAperture ap y z
  · have hin : ¬ Spec.inAperture ap y z := fun h => inAperture_not_off h hoff
    simp [hoff, hin]
  · have hqr : q ≤ Spec.rim ap := rim_bound hoff
    obtain ⟨a1, a2, a3, a4, a5⟩ := s1 q (t / 2 + Spec.sag r2 q) hq0 hqr (hf.far1 q hq0 hqr) ne1 x
    obtain ⟨c1, c2, c3, c4, c5⟩ := s2 q (-t / 2 + Spec.sag r1 q) hq0 hqr (hf.far2 q hq0 hqr) ne2 x
    constructor
    · constructor
      · rintro ⟨⟨h, h1, h2⟩, h3, h4⟩
        exact ⟨h, a2 h1 h3, c2 h2 h4⟩
      · rintro ⟨h, h1, h2⟩
        exact ⟨⟨h, by linarith, by linarith⟩, a3 h1 h2, c3 h2 h1⟩
    · constructor
      · rintro ((h | h | h) | h)
        · exact absurd h hoff
        · exact .inr (.inl (by linarith))
        · exact .inr (.inr (by linarith))
        · right
          by_cases h1 : x < lo
          · exact .inl (by linarith)
          · by_cases h2 : hi < x
            · exact .inr (by linarith)
            · rcases h with h | h
              · exact a5 h (not_lt.1 h1)
              · exact (c5 h (not_lt.1 h2)).symm
      · rintro (h | h | h)
        · exact absurd h hoff
        · by_cases h1 : x < lo
          · exact .inl (.inr (.inl h1))
          · exact .inr (.inl (a4 h (not_lt.1 h1)))
        · by_cases h1 : hi < x
          · exact .inl (.inr (.inr h1))
          · exact .inr (.inr (c4 h (not_lt.1 h1)))

theorem cutSide_all {op : Operation} {r c : ℝ} {m : Option Material} {M : Made} {ray : Ray} (hray : GoodRay ray)
    (h : (M.map turn).solid.All fun p w => (p.Valid ∧ Affine w) ∧ Spec.Sees p (ray.map w⁻¹)) :
    ((cutSide op r c m M).map turn).solid.All fun p w => (p.Valid ∧ Affine w) ∧ Spec.Sees p (ray.map w⁻¹) := by
  unfold cutSide Made.join
  split
  · exact ⟨h, ⟨trivial, turn_move_affine _ _ _⟩, sphere_sees hray _ _ _⟩
  · exact ⟨h, ⟨trivial, turn_move_affine _ _ _⟩, sphere_sees hray _ _ _⟩

theorem base_all {ap : Aperture} {T : ℝ} (hT : 0 ≤ T) {a b c n : ℝ} {m : Option Material} {ray : Ray} (hray : GoodRay ray)
    (hs : Spec.clearOfAxis ray) :
    ((Made.leaf (aperturePrim ap T) (moveMatrix a b c) n m).map turn).solid.All fun p w =>
      (p.Valid ∧ Affine w) ∧ Spec.Sees p (ray.map w⁻¹) :=
  ⟨⟨aperture_valid ap T, turn_move_affine _ _ _⟩, aperture_sees hT hray hs _ _ _⟩

theorem cutSide_noUnion {op : Operation} (hop : op ≠ .union) {r c : ℝ} {m : Option Material} {M : Made} (h : (M.map turn).NoUnion) :
    ((cutSide op r c m M).map turn).NoUnion := by
  unfold cutSide Made.join
  split
  · exact ⟨hop, h, trivial⟩
  · exact ⟨hop, h, trivial⟩

theorem ite_ne_union (p : Prop) [Decidable p] : (if p then Operation.intersect else Operation.difference) ≠ .union := by
  split <;> simp

theorem thickLens_all {r1 r2 : Option ℝ} {t : ℝ} {ap : Aperture} (hf : Spec.LensFits r1 r2 t ap) (m : Material) {ray : Ray}
    (hray : GoodRay ray) (hs : Spec.clearOfAxis ray) :
    ((thickLensMade r1 r2 t ap m).map turn).solid.All fun p w => (p.Valid ∧ Affine w) ∧ Spec.Sees p (ray.map w⁻¹) := by
  obtain ⟨lo, hi, hle, hfull, -⟩ := fullThickness r1 r2 t ap hf.thick hf.wide1 hf.wide2
  have hb := base_all (ap := ap) (T := hi - lo) (by linarith) (a := 0) (b := 0) (c := (hi + lo) / 2) (n := 1) (m := some m) hray hs
  unfold thickLensMade
  rw [hfull]
  cases r1 <;> cases r2
  · exact hb
  · exact cutSide_all hray hb
  · exact cutSide_all hray hb
  · exact cutSide_all hray (cutSide_all hray hb)

theorem thickLens_noUnion (r1 r2 : Option ℝ) (t : ℝ) (ap : Aperture) (m : Material) : ((thickLensMade r1 r2 t ap m).map turn).NoUnion := by
  unfold thickLensMade
  cases r1 <;> cases r2
  · trivial
  · exact cutSide_noUnion (ite_ne_union _) trivial
  · exact cutSide_noUnion (ite_ne_union _) trivial
  · exact cutSide_noUnion (ite_ne_union _) (cutSide_noUnion (ite_ne_union _) trivial)

end PyRayT
