import Verif.Proofs.Components

/-! The other component functions. -/

namespace PyRayT

open Classical Matrix

variable {argsort : List EReal → List ℕ} {fuel : ℕ}

theorem move_zero : moveMatrix 0 0 0 = 1 := by
  ext i j; fin_cases i <;> fin_cases j <;> simp [moveMatrix]

theorem perm_231 {α : Type} (a b c : α) : [a, b, c].Perm [b, c, a] := (List.Perm.swap b a [c]).trans (.cons b (.swap c a []))
theorem perm_312 {α : Type} (a b c : α) : [a, b, c].Perm [c, a, b] := (perm_231 c a b).symm
theorem perm_213 {α : Type} (a b c : α) : [a, b, c].Perm [b, a, c] := .swap b a [c]
theorem perm_21 {α : Type} (a b : α) : [a, b].Perm [b, a] := .swap b a []

/-! ### two more lenses -/

noncomputable def biconvexMade (r1 r2 t : ℝ) (ap : Aperture) (m : Material) : Made :=
  .node .intersect
    (.node .intersect (.leaf (.sphere r2) (moveMatrix 0 0 (r1 - t / 2)) 1 (some m))
      (.leaf (.sphere r1) (moveMatrix 0 0 (-(r1 - t / 2))) 1 (some m)))
    (.leaf (aperturePrim ap t) (moveMatrix 0 0 0) 1 (some m))

theorem biconvexLens_makes {s0 : Scene} (h0 : Ready argsort fuel s0) (hf : 3 ≤ fuel) (r1 r2 t : ℝ) {ap : Aperture}
    (hap : Spec.goodAperture ap) (m : Material) :
    Makes argsort fuel s0 (biconvexLens argsort fuel r1 r2 t ap m) ((biconvexMade r1 r2 t ap m).map turn) := by
  unfold biconvexLens
  refine Makes.orient ?_ (by simp [biconvexMade, Made.depth]; omega)
  obtain ⟨s1, e1, c1⟩ := (Ctx.start h0).aperture hap t
  obtain ⟨s2, e2, c2⟩ := c1.surface (.sphere r2) none
  obtain ⟨s3, e3, c3⟩ := c2.move (by simp [Made.depth]; omega) 0 0 (r1 - t / 2)
  obtain ⟨s4, e4, c4⟩ := c3.surface (.sphere r1) none
  obtain ⟨s5, e5, c5⟩ := c4.move (by simp [Made.depth]; omega) 0 0 (-(r1 - t / 2))
  simp only [Made.map, mul_one] at c5
  -- right, left, shape
  obtain ⟨s6, e6, c6⟩ := (c5.perm (perm_312 _ _ _)).setMaterial m
  -- shape, right, left
  obtain ⟨s7, e7, c7⟩ := (c6.perm (perm_312 _ _ _)).setMaterial m
  -- left, shape, right
  obtain ⟨s8, e8, c8⟩ := (c7.perm (perm_312 _ _ _)).setMaterial m
  -- right, left, shape
  obtain ⟨s9, e9, c9⟩ := (c8.perm (perm_213 _ _ _)).csg .intersect (.inr ⟨_, _, _, _, rfl⟩)
  obtain ⟨s10, e10, c10⟩ := c9.csg .intersect (.inr ⟨_, _, _, _, rfl⟩)
  simp only [CTree.root_leaf, CTree.root_node] at e3 e5 e9 e10
  refine ⟨s10, .node s9.heap.size .intersect (.node s8.heap.size .intersect (.leaf s1.heap.size) (.leaf s3.heap.size)) (.leaf s0.heap.size),
    ?_, ?_⟩
  pick_goal 2
  · unfold biconvexMade
    simp only [Made.join, reduceCtorEq, if_false] at c10
    rw [move_zero]
    exact c10
  · rw [Build.bind_ok e1, Build.bind_ok e2, Build.bind_ok e3, Build.bind_ok e4, Build.bind_ok e5, Build.bind_ok e6, Build.bind_ok e7,
      Build.bind_ok e8, Build.bind_ok e9, e10]
    rfl

noncomputable def planoConvexMade (r t : ℝ) (ap : Aperture) (m : Material) : Made :=
  .node .intersect (.leaf (.sphere r) (moveMatrix 0 0 (-(r - t / 2))) 1 (some m)) (.leaf (aperturePrim ap t) (moveMatrix 0 0 0) 1 (some m))

theorem planoConvexLens_makes {s0 : Scene} (h0 : Ready argsort fuel s0) (hf : 2 ≤ fuel) (r t : ℝ) {ap : Aperture}
    (hap : Spec.goodAperture ap) (m : Material) :
    Makes argsort fuel s0 (planoConvexLens argsort fuel r t ap m) ((planoConvexMade r t ap m).map turn) := by
  unfold planoConvexLens
  refine Makes.orient ?_ (by simp [planoConvexMade, Made.depth]; omega)
  obtain ⟨s1, e1, c1⟩ := (Ctx.start h0).aperture hap t
  obtain ⟨s2, e2, c2⟩ := c1.surface (.sphere r) none
  obtain ⟨s3, e3, c3⟩ := c2.move (by simp [Made.depth]; omega) 0 0 (-(r - t / 2))
  simp only [Made.map, mul_one] at c3
  obtain ⟨s4, e4, c4⟩ := (c3.perm (perm_21 _ _)).setMaterial m
  obtain ⟨s5, e5, c5⟩ := (c4.perm (perm_21 _ _)).setMaterial m
  obtain ⟨s6, e6, c6⟩ := c5.csg .intersect (.inr ⟨_, _, _, _, rfl⟩)
  simp only [CTree.root_leaf] at e3 e6
  refine ⟨s6, .node s5.heap.size .intersect (.leaf s1.heap.size) (.leaf s0.heap.size), ?_, ?_⟩
  · rw [Build.bind_ok e1, Build.bind_ok e2, Build.bind_ok e3, Build.bind_ok e4, Build.bind_ok e5, e6]
    rfl
  · unfold planoConvexMade
    simp only [Made.join, reduceCtorEq, if_false] at c6
    rw [move_zero]
    exact c6

/-! ### mirrors -/

noncomputable def planeMirrorMade (t : ℝ) (ap : Aperture) (m : Material) (off : ℝ × ℝ) : Made :=
  .leaf (aperturePrim ap t) (moveMatrix off.1 off.2 0) 1 (some m)

theorem planeMirror_makes {s0 : Scene} (h0 : Ready argsort fuel s0) (hf : 1 ≤ fuel) (t : ℝ) {ap : Aperture}
    (hap : Spec.goodAperture ap) (m : Material) (off : ℝ × ℝ) :
    Makes argsort fuel s0 (planeMirror argsort fuel t ap m off) ((planeMirrorMade t ap m off).map turn) := by
  unfold planeMirror
  refine Makes.orient ?_ (by simp [planeMirrorMade, Made.depth]; omega)
  obtain ⟨s1, e1, c1⟩ := (Ctx.start h0).aperture hap t
  obtain ⟨s2, e2, c2⟩ := c1.move (by simp [Made.depth]; omega) off.1 off.2 0
  simp only [Made.map, mul_one] at c2
  obtain ⟨s3, e3, c3⟩ := c2.setMaterial m
  simp only [CTree.root_leaf] at e2
  exact ⟨s3, .leaf s0.heap.size, by rw [Build.bind_ok e1, Build.bind_ok e2, Build.bind_ok e3]; rfl, c3⟩

/-- the front thickness of a spherical mirror -/
noncomputable def sphFront (r : ℝ) (ap : Aperture) (off : ℝ × ℝ) : ℝ :=
  |r| - √(r ^ 2 - (√(off.1 ^ 2 + off.2 ^ 2) + ap.maxHeight) ^ 2)

noncomputable def sphericalMade (r t : ℝ) (ap : Aperture) (m : Material) (off : ℝ × ℝ) : Made :=
  .node .difference
    (.leaf (aperturePrim ap (t + sphFront r ap off))
      (moveMatrix off.1 off.2 (if r > 0 then (sphFront r ap off + t) / 2 - t else t - (sphFront r ap off + t) / 2)) 1 (some .absorber))
    (.leaf (.sphere |r|) (moveMatrix 0 0 r) (-1) (some m))

theorem sphericalMirror_makes {s0 : Scene} (h0 : Ready argsort fuel s0) (hf : 2 ≤ fuel) (r t : ℝ) (hr : r ≠ 0) {ap : Aperture}
    (hap : Spec.goodAperture ap) (m : Material) (off : ℝ × ℝ) :
    Makes argsort fuel s0 (sphericalMirror argsort fuel r t ap m off) ((sphericalMade r t ap m off).map turn) := by
  unfold sphericalMirror
  refine Makes.orient ?_ (by simp [sphericalMade, Made.depth]; omega)
  obtain ⟨s1, e1, c1⟩ := (Ctx.start h0).aperture hap (t + sphFront r ap off)
  obtain ⟨s2, e2, c2⟩ := c1.setMaterial .absorber
  obtain ⟨s3, e3, c3⟩ := c2.move (by simp [Made.depth]; omega) off.1 off.2 0
  obtain ⟨s4, e4, c4⟩ := c3.surface (.sphere |r|) (some m)
  obtain ⟨s5, e5, c5⟩ := c4.move (by simp [Made.depth]; omega) 0 0 r
  obtain ⟨s6, e6, c6⟩ := (c5.perm (perm_21 _ _)).move (by simp [Made.depth, Made.map_depth]; omega) 0 0
    (if r > 0 then (sphFront r ap off + t) / 2 - t else t - (sphFront r ap off + t) / 2)
  simp only [Made.map, mul_one, move_mul, zero_add, add_zero] at c6
  obtain ⟨s7, e7, c7⟩ := c6.csg .difference (.inl rfl)
  simp only [CTree.root_leaf] at e3 e5 e6 e7
  refine ⟨s7, .node s6.heap.size .difference (.leaf s0.heap.size) (.leaf s3.heap.size), ?_, ?_⟩
  · simp only
    change (createAperture ap (t + sphFront r ap off) >>= _) s0 = _
    rw [Build.bind_ok e1, Build.bind_ok e2, Build.bind_ok e3]
    by_cases hp : r > 0
    · rw [if_pos hp]
      rw [abs_of_pos hp] at e4
      rw [if_pos hp] at e6
      rw [Build.bind_ok e4, Build.bind_ok e5]
      erw [Build.bind_ok e6]
      exact e7
    · have hn : r < 0 := lt_of_le_of_ne (not_lt.1 hp) hr
      rw [if_neg hp, if_pos hn]
      rw [if_neg hp] at e6
      rw [Build.bind_ok e4, Build.bind_ok e5]
      erw [Build.bind_ok e6]
      exact e7
  · unfold sphericalMade
    simp only [Made.join, if_true, Made.flip] at c7
    exact c7

/-- the front thickness of a parabolic mirror -/
noncomputable def parFront (f : ℝ) (ap : Aperture) (off : ℝ × ℝ) : ℝ := 1 / (4 * f) * furthestPoint ap off ^ 2

noncomputable def parabolicMade (f t : ℝ) (ap : Aperture) (m : Material) (off : ℝ × ℝ) : Made :=
  .node .difference
    (.leaf (aperturePrim ap (t + parFront f ap off)) (moveMatrix off.1 off.2 ((t + parFront f ap off) / 2 - t - f)) 1 (some .absorber))
    (.leaf (.paraboloid f (1.5 * parFront f ap off)) (moveMatrix 0 0 (-f)) (-1) (some m))

theorem furthest_pos {ap : Aperture} (hap : Spec.goodAperture ap) (off : ℝ × ℝ) : 0 < furthestPoint ap off := by
  cases ap with
  | scalar d =>
    have hd : 0 < d := hap
    simp only [furthestPoint]
    positivity
  | pair a b =>
    have ha : 0 < a := hap.1
    simp only [furthestPoint]
    exact Real.sqrt_pos.2 (by positivity)

theorem parabolicMirror_makes {s0 : Scene} (h0 : Ready argsort fuel s0) (hf : 2 ≤ fuel) {f : ℝ} (hf0 : 0 < f) (t : ℝ) {ap : Aperture}
    (hap : Spec.goodAperture ap) (m : Material) (off : ℝ × ℝ) :
    Makes argsort fuel s0 (parabolicMirror argsort fuel f t ap m off) ((parabolicMade f t ap m off).map turn) := by
  unfold parabolicMirror
  refine Makes.orient ?_ (by simp [parabolicMade, Made.depth]; omega)
  obtain ⟨s1, e1, c1⟩ := (Ctx.start h0).aperture hap (t + parFront f ap off)
  obtain ⟨s2, e2, c2⟩ := c1.move (by simp [Made.depth]; omega) off.1 off.2 0
  simp only [Made.map, mul_one] at c2
  obtain ⟨s3, e3, c3⟩ := c2.setMaterial .absorber
  obtain ⟨s4, e4, c4⟩ := c3.move (by simp [Made.depth]; omega) 0 0 ((t + parFront f ap off) / 2 - t)
  obtain ⟨s5, e5, c5⟩ := c4.surface (.paraboloid f (1.5 * parFront f ap off)) (some m) (by
    have := furthest_pos hap off
    have h2 : 0 < parFront f ap off := by unfold parFront; positivity
    simp only [Prim.rejected]
    push Not
    exact ⟨hf0, by positivity⟩)
  obtain ⟨s6, e6, c6⟩ := (c5.perm (perm_21 _ _)).csg .difference (.inl rfl)
  obtain ⟨s7, e7, c7⟩ := c6.move (by simp [Made.depth, Made.join, Made.map, Made.flip]; omega) 0 0 (-f)
  simp only [CTree.root_leaf, CTree.root_node] at e2 e4 e6 e7
  refine ⟨s7, .node s5.heap.size .difference (.leaf s0.heap.size) (.leaf s4.heap.size), ?_, ?_⟩
  · rw [if_neg hf0.ne']
    change (createAperture ap (t + parFront f ap off) >>= _) s0 = _
    rw [Build.bind_ok e1, Build.bind_ok e2, Build.bind_ok e3]
    erw [Build.bind_ok e4, Build.bind_ok e5, Build.bind_ok e6]
    exact e7
  · unfold parabolicMade
    simp only [Made.join, if_true, Made.flip, Made.map, mul_one, move_mul, zero_add, add_zero] at c7
    rw [show -f + ((t + parFront f ap off) / 2 - t) = (t + parFront f ap off) / 2 - t - f by ring] at c7
    exact c7

/-! ### prism, baffle, aperture -/

theorem Ctx.cuboid {s0 s : Scene} {Γ : List (CTree × Made)} (h : Ctx argsort fuel s0 s Γ) (x y z : ℝ) (m : Option Material) :
    ∃ s', cuboidFromSides x y z m s = (.ok s.heap.size, s') ∧
      Ctx argsort fuel s0 s' ((.leaf s.heap.size,
        .leaf (.cube ![-0.5 * x, -0.5 * y, -0.5 * z] ![0.5 * x, 0.5 * y, 0.5 * z]) 1 1 m) :: Γ) :=
  h.surface _ _

/-- the block cut off a side of the prism -/
noncomputable def cutBlock (side width : ℝ) : Prim :=
  .cube ![-0.5 * (1.1 * side / Real.sin (60 * Real.pi / 180)), -0.5 * (1.1 * width), -0.5 * (1.1 * side / Real.sin (60 * Real.pi / 180))]
    ![0.5 * (1.1 * side / Real.sin (60 * Real.pi / 180)), 0.5 * (1.1 * width), 0.5 * (1.1 * side / Real.sin (60 * Real.pi / 180))]

/-- and its place -/
noncomputable def cutPlace (side u : ℝ) (sg : ℝ) : Mat4 :=
  moveMatrix (sg * (side / 2)) 0 (-side / 2 + u) * (rotYMatrix (-sg * (1 / 2)) (√3 / 2) *
    moveMatrix (sg * (1.1 * side / Real.sin (60 * Real.pi / 180) / 2)) 0 (1.1 * side / Real.sin (60 * Real.pi / 180) / 2))

noncomputable def prismMade (side width : ℝ) (m : Material) : Made :=
  let u := side / 2 * (1 - Real.sin (60 * Real.pi / 180))
  .node .difference
    (.node .difference
      (.leaf (.cube ![-0.5 * side, -0.5 * width, -0.5 * side] ![0.5 * side, 0.5 * width, 0.5 * side]) (moveMatrix 0 0 u) 1 (some m))
      (.leaf (cutBlock side width) (cutPlace side u (-1)) (-1) (some m)))
    (.leaf (cutBlock side width) (cutPlace side u 1) (-1) (some m))

theorem sinCos30 : sinCos 30 .deg = some (1 / 2, √3 / 2) := by
  simp only [sinCos]
  rw [show 30 * Real.pi / 180 = Real.pi / 6 by ring, Real.sin_pi_div_six, Real.cos_pi_div_six]

theorem sinCos_neg30 : sinCos (-30) .deg = some (-(1 / 2), √3 / 2) := by
  simp only [sinCos]
  rw [show -30 * Real.pi / 180 = -(Real.pi / 6) by ring, Real.sin_neg, Real.cos_neg, Real.sin_pi_div_six, Real.cos_pi_div_six]

theorem sin60 : Real.sin (60 * Real.pi / 180) = √3 / 2 := by
  rw [show 60 * Real.pi / 180 = Real.pi / 3 by ring, Real.sin_pi_div_three]

theorem prism_makes {s0 : Scene} (h0 : Ready argsort fuel s0) (hf : 3 ≤ fuel) (side width : ℝ) (m : Material) :
    Makes argsort fuel s0 (equilateralPrism argsort fuel side width m) (prismMade side width m) := by
  unfold equilateralPrism
  obtain ⟨cut, hcut⟩ : ∃ v, v = 1.1 * side / Real.sin (60 * Real.pi / 180) := ⟨_, rfl⟩
  obtain ⟨s1, e1, c1⟩ := (Ctx.start h0).cuboid side width side (some m)
  obtain ⟨s2, e2, c2⟩ := c1.cuboid cut (1.1 * width) cut (some m)
  obtain ⟨s3, e3, c3⟩ := c2.move (by simp [Made.depth]; omega) (-cut / 2) 0 (cut / 2)
  obtain ⟨s4, e4, c4⟩ := c3.rotY (by simp [Made.depth, Made.map_depth]; omega) sinCos30
  obtain ⟨s5, e5, c5⟩ := c4.move (by simp [Made.depth, Made.map_depth]; omega) (-side / 2) 0 (-side / 2)
  obtain ⟨s6, e6, c6⟩ := (c5.perm (perm_21 _ _)).csg .difference (.inl rfl)
  obtain ⟨s7, e7, c7⟩ := c6.cuboid cut (1.1 * width) cut (some m)
  obtain ⟨s8, e8, c8⟩ := c7.move (by simp [Made.depth]; omega) (cut / 2) 0 (cut / 2)
  obtain ⟨s9, e9, c9⟩ := c8.rotY (by simp [Made.depth, Made.map_depth]; omega) sinCos_neg30
  obtain ⟨s10, e10, c10⟩ := c9.move (by simp [Made.depth, Made.map_depth]; omega) (side / 2) 0 (-side / 2)
  obtain ⟨s11, e11, c11⟩ := (c10.perm (perm_21 _ _)).csg .difference (.inl rfl)
  obtain ⟨s12, e12, c12⟩ := c11.move (by simp [Made.depth, Made.map, Made.flip, Made.join]; omega) 0 0
    (side / 2 * (1 - Real.sin (60 * Real.pi / 180)))
  simp only [CTree.root_leaf, CTree.root_node] at e3 e4 e5 e6 e8 e9 e10 e11 e12
  refine ⟨s12, .node s10.heap.size .difference (.node s5.heap.size .difference (.leaf s0.heap.size) (.leaf s1.heap.size)) (.leaf s6.heap.size),
    ?_, ?_⟩
  · simp only
    rw [← hcut, Build.bind_ok e1, Build.bind_ok e2, Build.bind_ok e3, Build.bind_ok e4, Build.bind_ok e5, Build.bind_ok e6, Build.bind_ok e7,
      Build.bind_ok e8, Build.bind_ok e9, Build.bind_ok e10, Build.bind_ok e11]
    exact e12
  · unfold prismMade
    simp only [Made.join, if_true, Made.flip, Made.map, mul_one, ← Matrix.mul_assoc] at c12
    simp only [move_mul, zero_add, add_zero] at c12
    unfold cutPlace cutBlock
    simp only [← hcut, ← Matrix.mul_assoc]
    convert c12 using 7 <;> ring_nf

noncomputable def baffleMade (a b : ℝ) : Made := .leaf (.plane a b) (rotYMatrix 1 0) 1 (some .absorber)

theorem Ctx.baffle {s0 s : Scene} (h : Ctx argsort fuel s0 s []) (hf : 1 ≤ fuel) (a b : ℝ) :
    ∃ s', PyRayT.baffle argsort fuel (.pair a b) s = (.ok s.heap.size, s') ∧
      Ctx argsort fuel s0 s' [(.leaf s.heap.size, baffleMade a b)] := by
  obtain ⟨s1, e1, c1⟩ := h.surface (.plane a b) (some .absorber)
  obtain ⟨s2, e2, c2⟩ := c1.rotY (by simp [Made.depth]; omega) sinCos90
  simp only [Made.map, mul_one] at c2
  refine ⟨s2, ?_, c2⟩
  unfold PyRayT.baffle
  simp only
  rw [Build.bind_ok e1]
  exact e2

/-- the placement of a stop: local (x, y, z) becomes (z, -x, -y) -/
def stopTurn : Mat4 := !![0, 0, 1, 0; -1, 0, 0, 0; 0, -1, 0, 0; 0, 0, 0, 1]

theorem rot_stop : rotXMatrix (-1) 0 * rotYMatrix 1 0 = stopTurn := by
  ext i j
  rw [Matrix.mul_apply, Fin.sum_univ_four]
  fin_cases i <;> fin_cases j <;> simp [rotXMatrix, rotYMatrix, stopTurn]

theorem rot_back : rotYMatrix (-1) 0 * rotYMatrix 1 0 = 1 := by
  ext i j
  rw [Matrix.mul_apply, Fin.sum_univ_four]
  fin_cases i <;> fin_cases j <;> simp [rotYMatrix]

noncomputable def stopMade (a b : ℝ) (hole : Aperture) : Made :=
  .node .difference (.leaf (.plane a b) stopTurn 1 (some .absorber)) (.leaf (aperturePrim hole 0.1) stopTurn (-1) none)

theorem apertureStop_makes {s0 : Scene} (h0 : Ready argsort fuel s0) (hf : 2 ≤ fuel) (a b : ℝ) {hole : Aperture}
    (hap : Spec.goodAperture hole) : Makes argsort fuel s0 (apertureStop argsort fuel (.pair a b) hole) (stopMade a b hole) := by
  unfold apertureStop
  obtain ⟨s1, e1, c1⟩ := (Ctx.start h0).baffle (by omega) a b
  obtain ⟨s2, e2, c2⟩ := c1.rotY (by simp [baffleMade, Made.depth]; omega) sinCos_neg90
  obtain ⟨s3, e3, c3⟩ := c2.aperture hap 0.1
  obtain ⟨s4, e4, c4⟩ := (c3.perm (perm_21 _ _)).csg .difference (.inl rfl)
  obtain ⟨s5, e5, c5⟩ := c4.rotY (by simp [baffleMade, Made.depth, Made.map, Made.flip, Made.join]; omega) sinCos90
  obtain ⟨s6, e6, c6⟩ := c5.rotX (by simp [baffleMade, Made.depth, Made.map, Made.flip, Made.join]; omega) sinCos_neg90
  simp only [CTree.root_leaf, CTree.root_node] at e2 e4 e5 e6
  refine ⟨s6, .node s3.heap.size .difference (.leaf s0.heap.size) (.leaf s2.heap.size), ?_, ?_⟩
  · rw [Build.bind_ok e1, Build.bind_ok e2, Build.bind_ok e3, Build.bind_ok e4, Build.bind_ok e5]
    exact e6
  · unfold stopMade
    rw [Made.map_map, rot_stop] at c6
    simp only [Made.join, if_true, Made.flip, Made.map, mul_one, baffleMade, rot_back] at c6
    exact c6

end PyRayT
