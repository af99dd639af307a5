import Verif.Props.Components2

/-!
# Property C51: baffle and aperture stop
-/

namespace PyRayT

open Classical Matrix

variable {argsort : List EReal → List ℕ} {fuel : ℕ}

/-! ### the baffle -/

theorem baffle_inv : (rotYMatrix 1 0)⁻¹ = rotYMatrix (-1) 0 := inv_eq_left_inv rot_back

theorem baffle_point (x y z : ℝ) : (rotYMatrix 1 0)⁻¹ *ᵥ point x y z = point (-z) y x := by
  rw [baffle_inv]
  funext i
  rw [mulVec4]
  fin_cases i <;> simp [rotYMatrix, point]

theorem baffle_dir {d : Vec4} (hd : d 3 = 0) : (rotYMatrix 1 0)⁻¹ *ᵥ d = vector (-d 2) (d 1) (d 0) := by
  rw [baffle_inv]
  funext i
  rw [mulVec4]
  fin_cases i <;> simp [rotYMatrix, vector, hd]

theorem Clear.neg {x : ℝ} (h : Clear x) : Clear (-x) := by
  rcases h with h | h
  · left; simp [h]
  · right; rwa [abs_neg]

/-- **C51 (baffle).** For all a, b ≥ 0 `baffle((a, b))` is the absorbing rectangle in the plane x = 0 with extent **b along Y and a along Z**: a ray has a
finite hit exactly where it crosses that rectangle. For a = b this is the documented rectangle.
Missing from C51: the documentation promises the extents the other way round; see `C51_baffle_false`. -/
theorem C51_baffle_partial (ha : IsArgsort argsort) {s0 : Scene} (h0 : Ready argsort fuel s0) (hf : 1 ≤ fuel) {a b : ℝ} (ha' : 0 ≤ a) (hb' : 0 ≤ b) :
    ∃ s c i, baffle argsort fuel (.pair a b) s0 = (.ok c, s) ∧
      Spec.Built argsort fuel s0 s c (fun _ => True) (fun _ _ _ => False) (fun x y z => x ≠ 0 ∨ b / 2 < |y| ∨ a / 2 < |z|) ∧
      (∀ depth, 1 ≤ depth → surfaceIds depth s.heap c = [(i, c)]) ∧ s.material c = .absorber ∧
      ∀ ray, GoodRay ray → ∀ depth, 1 ≤ depth → ∀ v : ℝ, (v : EReal) ∈ (intersectObj argsort depth s.heap c ray).1 ↔
        ray.d 0 ≠ 0 ∧ ray.at v 0 = 0 ∧ |ray.at v 1| ≤ b / 2 ∧ |ray.at v 2| ≤ a / 2 := by
  obtain ⟨s, e, c⟩ := (Ctx.start h0).baffle hf a b
  obtain ⟨hl, hsing⟩ := c.single
  have hdet : Affine (rotYMatrix 1 0) := rigid_affine (rotY_rigid (by norm_num))
  refine ⟨s, _, _, e, c.built ha (by simp [baffleMade, Made.depth]) trivial (fun ray hray _ => ⟨⟨trivial, hdet⟩, ?_⟩) (fun x y z => ?_),
    fun depth h1 => (hsing depth h1).1, hl.2.2.2 _ rfl, ?_⟩
  · simp only [Spec.Sees, Ray.map, baffle_dir hray.d3]
    refine ⟨ha', hb', ?_⟩
    simp only [vector]
    exact ⟨hray.clear.2.2.neg, hray.clear.2.1, hray.clear.1⟩
  · simp only [baffleMade, Made.solid]
    rw [leaf_interior hdet.2, leaf_outside hdet.2, baffle_point]
    simp only [Spec.Interior, Spec.Closed, point]
    refine ⟨trivial, ?_⟩
    simp only [Matrix.cons_val, not_and_or, not_le, abs_neg]
    tauto
  · intro ray hray depth h1 v
    have h := (hsing depth h1).2 ray
    simp only [CTree.root_leaf] at h
    rw [h, leafIntersect]
    have hd : (ray.map (rotYMatrix 1 0)⁻¹).d = vector (-ray.d 2) (ray.d 1) (ray.d 0) := baffle_dir hray.d3
    have hat : (ray.map (rotYMatrix 1 0)⁻¹).at v = point (-ray.at v 2) (ray.at v 1) (ray.at v 0) := by
      rw [Ray.map_at, point_eta (hray.at3 v), baffle_point]
      simp [point]
    obtain ⟨k1, k2, -⟩ := C11_plane a b ha' hb' (ray.map (rotYMatrix 1 0)⁻¹) (by rw [hd]; simpa [vector] using hray.clear.2.2.neg)
      (by rw [hd]; simpa [vector] using hray.clear.2.1) (by rw [hd]; simpa [vector] using hray.clear.1)
    have k := k2 v
    rw [hd, hat] at k
    simp only [vector, point, Matrix.cons_val, abs_neg] at k
    simp only [sort2, Prim.intersect, ← k1, min_self, max_self, List.mem_cons, List.not_mem_nil, or_false, or_self]
    rw [eq_comm, k]
    tauto

/-- **C51 is false as documented.** `baffle((2, 1))` should have extent 2 along Y; but the ray along the axis through (y, z) = (0.9, 0) passes it. -/
theorem C51_baffle_false (ha : IsArgsort argsort) {s0 : Scene} (h0 : Ready argsort fuel s0) (hf : 1 ≤ fuel) :
    ∃ s c, baffle argsort fuel (.pair 2 1) s0 = (.ok c, s) ∧ |(0.9 : ℝ)| ≤ 2 / 2 ∧ |(0 : ℝ)| ≤ 1 / 2 ∧
      ∀ v : ℝ, (v : EReal) ∉ (intersectObj argsort 1 s.heap c (Spec.axisRay 1 (-1) 0.9 0)).1 := by
  obtain ⟨s, c, i, e, -, -, -, h⟩ := C51_baffle_partial ha h0 hf (a := 2) (b := 1) (by norm_num) (by norm_num)
  refine ⟨s, c, e, by norm_num [abs_le], by norm_num, fun v hv => ?_⟩
  have := ((h _ (axisRay_good (.inl rfl) _ _ _) 1 le_rfl v).1 hv).2.2.1
  rw [axisRay_at] at this
  simp [point] at this
  norm_num [abs_le] at this

/-- **C51:** a number instead of a pair is a `TypeError`. -/
theorem C51_baffle_number (d : ℝ) (s0 : Scene) : baffle argsort fuel (.scalar d) s0 = (.error .type, s0) := rfl

/-! ### the stop -/

theorem stop_inv : stopTurn⁻¹ = !![0, -1, 0, 0; 0, 0, -1, 0; 1, 0, 0, 0; 0, 0, 0, 1] := by
  apply inv_eq_left_inv
  ext i j
  rw [Matrix.mul_apply, Fin.sum_univ_four]
  fin_cases i <;> fin_cases j <;> simp [stopTurn]

theorem stop_point (x y z : ℝ) : stopTurn⁻¹ *ᵥ point x y z = point (-y) (-z) x := by
  rw [stop_inv]
  funext i
  rw [mulVec4]
  fin_cases i <;> simp [point]

theorem stop_dir {d : Vec4} (hd : d 3 = 0) : stopTurn⁻¹ *ᵥ d = vector (-d 1) (-d 2) (d 0) := by
  rw [stop_inv]
  funext i
  rw [mulVec4]
  fin_cases i <;> simp [vector, hd]

theorem stop_rigid : Rigid stopTurn := by
  rw [← rot_stop]; exact rigid_mul (rotX_rigid (by norm_num)) (rotY_rigid (by norm_num))

theorem inAperture_neg (ap : Aperture) (y z : ℝ) : Spec.inAperture ap (-y) (-z) ↔ Spec.inAperture ap y z := by
  cases ap <;> simp [Spec.inAperture]

theorem offAperture_neg (ap : Aperture) (y z : ℝ) : Spec.offAperture ap (-y) (-z) ↔ Spec.offAperture ap y z := by
  cases ap <;> simp [Spec.offAperture]

theorem Ctx.boxesOk {s0 s : Scene} {T : CTree} {M : Made} (h : Ctx argsort fuel s0 s [(T, M)]) (hn : M.NoUnion) : BoxesOk argsort s.heap T.root := by
  obtain ⟨hd, -, haddr, -⟩ := h.parts _ List.mem_cons_self
  simp only at hd haddr
  have hr := haddr _ T.root_mem
  have hre := TidyReaches.reaches argsort h.ready.tidy
  have under : ∀ x k, Chain s.heap T.root x k → Under s.heap T.root x := by
    intro x k hc
    induction hc with
    | refl => exact .refl
    | left _ hk ih => exact .step ih ⟨_, _, _, hk, Or.inl rfl⟩
    | right _ hk ih => exact .step ih ⟨_, _, _, hk, Or.inr rfl⟩
  refine boxesOk_of argsort hre hr.2 (fun x k op l r hc hk => ?_) (fun x k l r hc hk => ?_)
  · exact C19_tidy_partial argsort fuel s.heap h.ready.tidy x
      (lt_of_le_of_lt ((under x k hc).le h.ready.inv.toStruct hr.2) hr.2) op l r hk
  · exact absurd hk (hd.noUnion hn x ((hd.under_iff x).1 (under x k hc)) l r)

/-- a surface hit by the left operand of a difference stays when the point is strictly outside the right operand (and inside the box) -/
theorem difference_keeps (ha : IsStableArgsort argsort) {h : Heap} {a l r : ℕ} {sr : Solid} (hk : (h.obj a).kind = .csg .difference l r)
    (hr : Represents h r sr) {ray : Ray} (hray : GoodRay ray) (hg : sr.All fun p w => (p.Valid ∧ Affine w) ∧ Spec.Sees p (ray.map w⁻¹))
    (hb : BoxesOk argsort h a) (hs : ∀ x p, Under h a x → (h.obj x).kind = .prim p → (h.obj x).objT = (h.obj x).world⁻¹)
    {depth : ℕ} (hd : sr.depth ≤ depth) {t : ℝ} (hbox : boxPasses (h.obj l).aobb ray) (hl : (t : EReal) ∈ (intersectObj argsort depth h l ray).1)
    (hnr : (t : EReal) ∉ (intersectObj argsort depth h r ray).1) (ho : sr.Outside (ray.at t)) :
    (t : EReal) ∈ (intersectObj argsort (depth + 1) h a ray).1 := by
  have pr : IsParent h a r := ⟨_, l, r, hk, Or.inr rfl⟩
  have hout := (intersectObj_inside argsort ha.1 hr hray hg (hb.child argsort pr) (fun x p hu => hs x p (Under.trans (.step .refl pr) hu)) depth hd t).2 ho
  have sl' := intersectObj_shape argsort ha.1 h ray depth l
  have sr' := intersectObj_shape argsort ha.1 h ray depth r
  have haobb := hb.node a .refl _ l r hk
  simp only [csgBox] at sl' sr' haobb
  rw [intersectObj, hk]
  simp only
  rw [if_pos (by rw [haobb]; exact hbox), mem_csgCombine argsort ha.1]
  have hc := (C03_left_crossings argsort ha _ _ .difference sl'.1 sr'.1 sl'.2.1 sr'.2.1 _ (EReal.coe_ne_top t) hnr).1 hout
  rw [← List.one_le_count_iff, hc, List.one_le_count_iff]
  exact hl

/-- **C51 (aperture).** For all a, b ≥ 0 and every hole of positive size `aperture((a, b), hole)` is built in the plane x = 0: a finite hit is in that plane,
in the rectangle with extent a along Y and b along Z, and not strictly inside the hole (`Built.bound`); and a ray that crosses the plane strictly inside the
rectangle and strictly outside the hole is hit there by the first surface, which absorbs.
Missing from C51: what happens exactly on the rim of the rectangle and of the hole. -/
theorem C51_aperture_partial (ha : IsArgsort argsort) {s0 : Scene} (h0 : Ready argsort fuel s0) (hf : 2 ≤ fuel) {a b : ℝ} (ha' : 0 ≤ a) (hb' : 0 ≤ b)
    {hole : Aperture} (hh : Spec.goodAperture hole) :
    ∃ s c i x j y, apertureStop argsort fuel (.pair a b) hole s0 = (.ok c, s) ∧
      Spec.Built argsort fuel s0 s c Spec.clearOfAxis (fun _ _ _ => False)
        (fun x y z => (x ≠ 0 ∨ a / 2 < |y| ∨ b / 2 < |z|) ∨ Spec.inAperture hole y z ∧ |x| < 0.05) ∧
      (∀ depth, 3 ≤ depth → surfaceIds depth s.heap c = [(i, x), (j, y)]) ∧ i ≠ j ∧ s.material x = .absorber ∧
      (IsStableArgsort argsort → ∀ ray, GoodRay ray → Spec.clearOfAxis ray → ∀ depth, 3 ≤ depth → ∀ v : ℝ,
        ray.d 0 ≠ 0 → ray.at v 0 = 0 → |ray.at v 1| < a / 2 → |ray.at v 2| < b / 2 → Spec.offAperture hole (ray.at v 1) (ray.at v 2) →
        Spec.Reports argsort s c depth ray v i ∧ ∀ id, Spec.Reports argsort s c depth ray v id → id = i) := by
  obtain ⟨s, T, e, c⟩ := apertureStop_makes h0 hf a b hh
  have haff : Affine stopTurn := rigid_affine stop_rigid
  have hall : ∀ ray, GoodRay ray → Spec.clearOfAxis ray →
      (stopMade a b hole).solid.All fun p w => (p.Valid ∧ Affine w) ∧ Spec.Sees p (ray.map w⁻¹) := by
    intro ray hray hs
    refine ⟨⟨⟨trivial, haff⟩, ?_⟩, ⟨aperture_valid _ _, haff⟩, ?_⟩
    · simp only [Spec.Sees, Ray.map, stop_dir hray.d3, vector]
      exact ⟨ha', hb', hray.clear.2.1.neg, hray.clear.2.2.neg, hray.clear.1⟩
    · cases hole with
      | scalar d =>
        simp only [aperturePrim, Spec.Sees, Ray.map, stop_dir hray.d3, vector]
        refine ⟨by norm_num, ?_, hray.clear.1⟩
        simpa [Spec.clearOfAxis] using hs
      | pair p q =>
        simp only [aperturePrim, Spec.Sees, Ray.map, stop_dir hray.d3, vector]
        exact ⟨hray.clear.2.1.neg, hray.clear.2.2.neg, hray.clear.1⟩
  have hplane : ∀ x y z, ¬ (Solid.leaf (.plane a b) stopTurn).Interior (point x y z) ∧
      ((Solid.leaf (.plane a b) stopTurn).Outside (point x y z) ↔ x ≠ 0 ∨ a / 2 < |y| ∨ b / 2 < |z|) := by
    intro x y z
    rw [leaf_interior haff.2, leaf_outside haff.2, stop_point]
    simp only [Spec.Interior, Spec.Closed, point]
    refine ⟨fun h => h, ?_⟩
    simp only [Matrix.cons_val, not_and_or, not_le, abs_neg]
    try tauto
  have hhole : ∀ x y z, ((Solid.leaf (aperturePrim hole 0.1) stopTurn).Interior (point x y z) ↔ Spec.inAperture hole y z ∧ |x| < 0.05) ∧
      ((Solid.leaf (aperturePrim hole 0.1) stopTurn).Outside (point x y z) ↔ Spec.offAperture hole y z ∨ 0.05 < |x|) := by
    intro x y z
    rw [leaf_interior haff.2, leaf_outside haff.2, stop_point, aperture_interior hh (by norm_num), aperture_closed hh (by norm_num),
      inAperture_neg, offAperture_neg, not_and_or, not_not, not_le, show (0.1 : ℝ) / 2 = 0.05 by norm_num]
    exact ⟨Iff.rfl, Iff.rfl⟩
  have hd : (stopMade a b hole).depth ≤ 3 := by simp [stopMade, Made.depth]
  have hn : (stopMade a b hole).NoUnion := ⟨by simp, trivial, trivial⟩
  have hb : Spec.Built argsort fuel s0 s T.root Spec.clearOfAxis (fun _ _ _ => False)
      (fun x y z => (x ≠ 0 ∨ a / 2 < |y| ∨ b / 2 < |z|) ∨ Spec.inAperture hole y z ∧ |x| < 0.05) := by
    refine c.built ha hd hn hall fun x y z => ?_
    simp only [stopMade, Made.solid, Solid.Interior.eq_4, Solid.Outside.eq_4, (hplane x y z).2, (hhole x y z).1]
    exact ⟨⟨fun h => (hplane x y z).1 h.1, fun h => h.elim⟩, trivial⟩
  have hne : Prim.plane a b ≠ aperturePrim hole 0.1 := by cases hole <;> simp [aperturePrim]
  obtain ⟨i, x, j, y, hids, hij, hx, hy, hi, hj, l1, l2⟩ := c.two hd (by simp [stopMade, Made.leaves]; exact ⟨rfl, rfl⟩) hne
  refine ⟨s, T.root, i, x, j, y, e, hb, hids, hij, l1.2.2.2 _ rfl, ?_⟩
  intro hst ray hray hs depth h3 v hd0 hv0 hv1 hv2 hvh
  obtain ⟨r1, r2, r3⟩ := c.reports_two ha (hall ray hray hs) (hd.trans h3) (by simp [stopMade, Made.leaves]) hne hx hy l1 l2
    (by rw [hids depth h3, hi, hj]) (v := v)
  have hq := point_eta (hray.at3 v)
  have hhout : (Solid.leaf (aperturePrim hole 0.1) stopTurn).Outside (ray.at v) := by
    rw [hq, (hhole _ _ _).2]; exact .inl hvh
  have nrep : ¬ Spec.Reports argsort s T.root depth ray v ((s.heap.obj y).oid : ℕ) := fun h => (r2 h).2 hhout
  have hmem : (v : EReal) ∈ (intersectObj argsort depth s.heap T.root ray).1 := by
    have hbox := c.boxesOk hn
    obtain ⟨hdesc, -, haddr, -⟩ := c.parts _ List.mem_cons_self
    simp only at hdesc haddr
    have hsync : ∀ x p, Under s.heap T.root x → (s.heap.obj x).kind = .prim p → (s.heap.obj x).objT = (s.heap.obj x).world⁻¹ :=
      fun x p hu _ => (c.ready.inv.synced x (haddr x ((hdesc.under_iff x).1 hu)).2).2.1
    obtain ⟨depth, rfl⟩ : ∃ n, depth = n + 1 := ⟨depth - 1, by omega⟩
    match T, hdesc with
    | .node t op (.leaf p) (.leaf q), ⟨hk, hop, hp, hq'⟩ =>
      subst hop
      simp only [CTree.root] at hk hbox hsync
      have ep : intersectObj argsort depth s.heap p ray = leafIntersect stopTurn⁻¹ (s.heap.obj p).oid (.plane a b) ray := by
        obtain ⟨d, rfl⟩ : ∃ n, depth = n + 1 := ⟨depth - 1, by omega⟩
        rw [intersectObj, hp.1]
        simp only
        rw [hsync p _ (.step .refl ⟨_, _, _, hk, .inl rfl⟩) hp.1, hp.2.1]
      have eq : intersectObj argsort depth s.heap q ray = leafIntersect stopTurn⁻¹ (s.heap.obj q).oid (aperturePrim hole 0.1) ray := by
        obtain ⟨d, rfl⟩ : ∃ n, depth = n + 1 := ⟨depth - 1, by omega⟩
        rw [intersectObj, hq'.1]
        simp only
        rw [hsync q _ (.step .refl ⟨_, _, _, hk, .inr rfl⟩) hq'.1, hq'.2.1]
      have hrq : Represents s.heap q (.leaf (aperturePrim hole 0.1) stopTurn) := by
        have := Represents.leaf hq'.1
        rwa [hq'.2.1] at this
      have hbp : (s.heap.obj p).aobb = primBox stopTurn (.plane a b) := by
        rw [hbox.leaf p _ (.step .refl ⟨_, _, _, hk, .inl rfl⟩) hp.1, hp.2.1]
      have hat : stopTurn⁻¹ *ᵥ ray.at v = point (-ray.at v 1) (-ray.at v 2) (ray.at v 0) := by rw [hq, stop_point]; simp [point]
      have hdir : (ray.map stopTurn⁻¹).d = vector (-ray.d 1) (-ray.d 2) (ray.d 0) := stop_dir hray.d3
      refine difference_keeps hst hk hrq hray (hall ray hray hs).2 hbox hsync (by simp [Solid.depth]; omega) ?_ ?_ ?_ hhout
      · -- the box of the plane is that of a flat cube, and the crossing is strictly inside it
        rw [hbp]
        have hcube : primBox stopTurn (.plane a b) = primBox stopTurn (.cube ![-a / 2, -b / 2, -0.01] ![a / 2, b / 2, 0.01]) := rfl
        rw [hcube]
        refine inner_passes (primBox_noBot _ _) (t := v) (fun k => ?_) hray.clear hray.ne
        have hin := interior_in_box (p := .cube ![-a / 2, -b / 2, -0.01] ![a / 2, b / 2, 0.01]) (w := stopTurn) trivial haff
          (x := stopTurn⁻¹ *ᵥ ray.at v) (by rw [hat]; simp [point]) (by
            rw [hat]
            simp only [Spec.Interior]
            rw [abs_lt] at hv1 hv2
            intro k
            fin_cases k <;> simp [point, hv0] <;> (try norm_num) <;> constructor <;> first | (left; linarith) | (right; linarith)) k
        rwa [mulVec_mulVec, mul_nonsing_inv _ (isUnit_iff_ne_zero.2 haff.2), one_mulVec] at hin
      · rw [ep, leafIntersect]
        obtain ⟨k1, k2, -⟩ := C11_plane a b ha' hb' (ray.map stopTurn⁻¹) (by rw [hdir]; simpa [vector] using hray.clear.2.1.neg)
          (by rw [hdir]; simpa [vector] using hray.clear.2.2.neg) (by rw [hdir]; simpa [vector] using hray.clear.1)
        have k := k2 v
        rw [Ray.map_at, hdir, hat] at k
        simp only [vector, point, Matrix.cons_val, abs_neg] at k
        simp only [sort2, Prim.intersect, ← k1, min_self, max_self, List.mem_cons, List.not_mem_nil, or_false, or_self]
        rw [eq_comm, k]
        exact ⟨hd0, hv0, hv1.le, hv2.le⟩
      · intro hc
        rw [eq] at hc
        exact (leaf_boundary haff.2 (hall ray hray hs).2.2 _ v hc).2 hhout
  have hrep : Spec.Reports argsort s T.root depth ray v ((s.heap.obj x).oid : ℕ) := (r3 hmem).resolve_right nrep
  refine ⟨hi ▸ hrep, fun id hid => ?_⟩
  obtain ⟨x', hx', l, hll, e', hm', -, -⟩ := c.reports ha (hall ray hray hs) (hd.trans h3) hid
  rw [hids depth h3, List.mem_cons, List.mem_singleton, Prod.mk.injEq, Prod.mk.injEq] at hm'
  rcases hm' with hm' | hm'
  · rw [e', hm'.1]
  · exfalso
    rw [e', hm'.1, hj] at hid
    exact nrep hid

/-- non-vacuity of C51: a baffle and a stop with a round hole, and rays along the axis that hit them or go through -/
example (ha : IsStableArgsort argsort) :
    (∃ s c, baffle argsort 1 (.pair 2 1) ⟨Heap.empty, fun _ => .mirror⟩ = (.ok c, s) ∧
      ((3 : ℝ) : EReal) ∈ (intersectObj argsort 1 s.heap c (Spec.axisRay 1 (-3) 0.4 0.9)).1) ∧
    ∃ s c i, apertureStop argsort 2 (.pair 4 2) (.scalar 1) ⟨Heap.empty, fun _ => .mirror⟩ = (.ok c, s) ∧
      Spec.Reports argsort s c 3 (Spec.axisRay 1 (-3) 1.5 0.5) 3 i ∧
      ¬ ((3 : ℝ) : EReal) ∈ (intersectObj argsort 3 s.heap c (Spec.axisRay 1 (-3) 0.25 0)).1 := by
  constructor
  · obtain ⟨s, c, i, e, -, -, -, h⟩ := C51_baffle_partial ha.1 (ready_empty (argsort := argsort) (fuel := 1) fun _ => .mirror) le_rfl
      (a := 2) (b := 1) (by norm_num) (by norm_num)
    refine ⟨s, c, e, (h _ (axisRay_good (.inl rfl) _ _ _) 1 le_rfl 3).2 ?_⟩
    rw [axisRay_at]
    refine ⟨by simp [Spec.axisRay, vector], ?_⟩
    simp only [point, Matrix.cons_val]
    norm_num [abs_le]
  · obtain ⟨s, c, i, x, j, y, e, hb, -, -, -, h⟩ := C51_aperture_partial ha.1 (ready_empty (argsort := argsort) (fuel := 2) fun _ => .mirror) le_rfl
      (a := 4) (b := 2) (by norm_num) (by norm_num) (hole := .scalar 1) (by simp [Spec.goodAperture])
    refine ⟨s, c, i, e, (h ha _ (axisRay_good (.inl rfl) _ _ _) (.inl (by simp [Spec.axisRay, vector])) 3 le_rfl 3 (by simp [Spec.axisRay, vector])
      ?_ ?_ ?_ ?_).1, fun hm => ?_⟩
    · rw [axisRay_at]; simp only [point, Matrix.cons_val]; norm_num
    · rw [axisRay_at]; simp only [point, Matrix.cons_val]; norm_num [abs_lt]
    · rw [axisRay_at]; simp only [point, Matrix.cons_val]; norm_num [abs_lt]
    · rw [axisRay_at]; simp only [point, Matrix.cons_val, Spec.offAperture]; norm_num
    · have := (hb.bound ha _ (axisRay_good (.inl rfl) _ _ _) (.inl (by simp [Spec.axisRay, vector])) 3 le_rfl 3 hm).2
      apply this
      rw [axisRay_at]
      right
      simp only [point, Matrix.cons_val, Spec.inAperture]
      norm_num

/-! ### where the plane mirror stands -/

/-- **C65.** The two faces of a plane mirror of thickness t > 0 are the plane pieces x = -t/2 and x = t/2 inside the opening: they are parallel to the YZ
plane and t apart. Missing from C65: the documentation puts them at x = -t and x = 0; see `C65_position_false`. -/
theorem C65_position_partial (ha : IsArgsort argsort) {s0 : Scene} (h0 : Ready argsort fuel s0) (hf : 1 ≤ fuel) {t : ℝ} (ht : 0 < t)
    {ap : Aperture} (hap : Spec.goodAperture ap) (off : ℝ × ℝ) (m : Material) :
    ∃ s a, planeMirror argsort fuel t ap m off s0 = (.ok a, s) ∧
      ∀ x0 y z, ¬ Spec.offAperture ap (y - off.1) (z - off.2) → ∀ depth, 1 ≤ depth → ∀ v : ℝ,
        ((v : EReal) ∈ (intersectObj argsort depth s.heap a (Spec.axisRay 1 x0 y z)).1 ↔
          (Spec.axisRay 1 x0 y z).at v 0 = -t / 2 ∨ (Spec.axisRay 1 x0 y z).at v 0 = t / 2) := by
  obtain ⟨s, a, i, e, -, -, -, h, -⟩ := C52_plane_mirror_partial ha h0 hf ht.le hap off m
  refine ⟨s, a, e, fun x0 y z hin depth h1 v => ?_⟩
  have hv : Spec.visible ap t := by cases ap <;> simp [Spec.visible, ht]
  rw [h hv 1 (.inl rfl) x0 y z hin depth h1, axisRay_at]
  simp only [List.mem_cons, List.not_mem_nil, or_false, EReal.coe_eq_coe_iff, point, Matrix.cons_val]
  constructor <;> rintro (h | h)
  · left; linarith
  · right; linarith
  · left; linarith
  · right; linarith

/-- **C65 is false as documented**, for every thickness t > 0: no ray along the axis through the opening is hit at x = -t or at x = 0. -/
theorem C65_position_false (ha : IsArgsort argsort) {s0 : Scene} (h0 : Ready argsort fuel s0) (hf : 1 ≤ fuel) {t : ℝ} (ht : 0 < t)
    {ap : Aperture} (hap : Spec.goodAperture ap) (off : ℝ × ℝ) (m : Material) :
    ∃ s a, planeMirror argsort fuel t ap m off s0 = (.ok a, s) ∧
      ∀ x0 y z, ¬ Spec.offAperture ap (y - off.1) (z - off.2) → ∀ depth, 1 ≤ depth → ∀ v : ℝ,
        (v : EReal) ∈ (intersectObj argsort depth s.heap a (Spec.axisRay 1 x0 y z)).1 →
          (Spec.axisRay 1 x0 y z).at v 0 ≠ -t ∧ (Spec.axisRay 1 x0 y z).at v 0 ≠ 0 := by
  obtain ⟨s, a, e, h⟩ := C65_position_partial ha h0 hf ht hap off m
  refine ⟨s, a, e, fun x0 y z hin depth h1 v hv => ?_⟩
  rcases (h x0 y z hin depth h1 v).1 hv with h | h <;> rw [h] <;> constructor <;> intro hc <;> linarith

/-- non-vacuity of C65: a round mirror of thickness 1 and the ray along the axis -/
example (ha : IsArgsort argsort) : ∃ s a, planeMirror argsort 1 1 (.scalar 2) .mirror (0, 0) ⟨Heap.empty, fun _ => .absorber⟩ = (.ok a, s) ∧
    ((5 / 2 : ℝ) : EReal) ∈ (intersectObj argsort 1 s.heap a (Spec.axisRay 1 (-3) 0 0)).1 := by
  obtain ⟨s, a, e, h⟩ := C65_position_partial ha (ready_empty (argsort := argsort) (fuel := 1) fun _ => .absorber) le_rfl
    (t := 1) (by norm_num) (ap := .scalar 2) (by simp [Spec.goodAperture]) (0, 0) .mirror
  refine ⟨s, a, e, (h (-3) 0 0 (by simp [Spec.offAperture]) 1 le_rfl _).2 (.inl ?_)⟩
  rw [axisRay_at]
  simp only [point, Matrix.cons_val]
  norm_num

end PyRayT
