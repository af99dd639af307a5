import Verif.Proofs.CsgHeap2
import Mathlib.Tactic.IntervalCases

/-!
# Properties C19 and C20: composites under movements and nesting

The box a composite should have is the one a composite built now from the same operands gets.
-/

namespace PyRayT

open Classical Matrix

variable (argsort : List EReal → List ℕ)

/-! ### C19 -/

/-- **C19, part 1.** After every history (any nesting, sharing and movements, without exceptions) the bounding box of
a composite of two surfaces is the one a composite built now from them would have.
Missing from C19: composites of composites, see `C19_tidy_partial`, `C19_nested_right_false`,
`C19_inner_part_false`. -/
theorem C19_flat_partial (fuel : ℕ) (h : Heap) (hr : Reaches argsort fuel Heap.empty h) (p : ℕ) (hp : p < h.size)
    (op : Operation) (l r : ℕ) (hk : (h.obj p).kind = .csg op l r)
    (hl : ∃ q, (h.obj l).kind = .prim q) (hr' : ∃ q, (h.obj r).kind = .prim q) :
    (h.obj p).aobb = ((newCsg argsort h op l r).obj h.size).aobb := by
  obtain ⟨q, hq⟩ := hl
  obtain ⟨q', hq'⟩ := hr'
  have hi := reaches_inv argsort empty_inv hr
  rw [← fresh_rebuilt argsort hi.toStruct hp hk]
  exact reaches_flat argsort empty_inv (fun p hp => by simp [Heap.empty] at hp) hr p hp ⟨op, l, r, q, q', hk, hq, hq'⟩

/-- **C19, part 2.** After every tidy history the bounding box of every composite, of any depth, is the one a composite
built now from its operands would have. -/
theorem C19_tidy_partial (fuel : ℕ) (h : Heap) (hr : TidyReaches argsort fuel Heap.empty h) (p : ℕ) (hp : p < h.size)
    (op : Operation) (l r : ℕ) (hk : (h.obj p).kind = .csg op l r) :
    (h.obj p).aobb = ((newCsg argsort h op l r).obj h.size).aobb := by
  have hi := reaches_inv argsort empty_inv (TidyReaches.reaches argsort hr)
  rw [← fresh_rebuilt argsort hi.toStruct hp hk]
  exact (tidyReaches_tidy argsort empty_inv (empty_tidy argsort).1 (empty_tidy argsort).2 hr).2 p hp

/-! #### concrete trees -/

/-- three unit spheres -/
noncomputable def three : Heap := newPrim (newPrim (newPrim Heap.empty (.sphere 1)) (.sphere 1)) (.sphere 1)

/-- the third operand nested on the right: `op2(s0, op1(s1, s2))` -/
noncomputable def nestR (op1 op2 : Operation) : Heap := newCsg argsort (newCsg argsort three op1 1 2) op2 0 3

/-- nested on the left: `op2(op1(s0, s1), s2)` -/
noncomputable def nestL (op1 op2 : Operation) : Heap := newCsg argsort (newCsg argsort three op1 0 1) op2 3 2

theorem three_spec : three.size = 3 ∧ ∀ a < 3, (three.obj a).kind = .prim (.sphere 1) ∧ (three.obj a).world = 1 := by
  refine ⟨rfl, fun a ha => ?_⟩
  interval_cases a <;> simp [three, newPrim, Heap.alloc, Heap.empty]

theorem three_reaches (fuel : ℕ) : TidyReaches argsort fuel Heap.empty three :=
  .step (.newPrim (.sphere 1)) (.step (.newPrim (.sphere 1)) (.step (.newPrim (.sphere 1)) (.refl _) trivial trivial rfl)
    trivial trivial rfl) trivial trivial rfl

theorem nest_spec (op1 op2 : Operation) (x y l r : ℕ) (hx : x < 3) (hy : y < 3) (hl : l < 4) (hr : r < 4) :
    let h := newCsg argsort (newCsg argsort three op1 x y) op2 l r
    h.size = 5 ∧ (∀ a < 3, (h.obj a).kind = .prim (.sphere 1)) ∧ (h.obj 3).kind = .csg op1 x y ∧
    (h.obj 4).kind = .csg op2 l r ∧ (∀ a < 5, (h.obj a).world = 1) ∧ Reaches argsort 3 Heap.empty h := by
  obtain ⟨s3, k3⟩ := three_spec
  set g := newCsg argsort three op1 x y with hg
  have sg : g.size = 4 := by rw [hg, newCsg_size, s3]
  have kg : ∀ a < 3, (g.obj a).kind = .prim (.sphere 1) ∧ (g.obj a).world = 1 := fun a ha => by
    rw [hg, newCsg_kind_lt argsort three op1 x y (by omega), newCsg_world_lt argsort three op1 x y (by omega)]
    exact k3 a ha
  have kg3 : (g.obj 3).kind = .csg op1 x y := by
    have := newCsg_kind_self argsort three op1 x y; rw [s3] at this; exact this
  have wg3 : (g.obj 3).world = 1 := by
    have := newCsg_world_self argsort three op1 x y; rw [s3] at this; exact this
  have ig : ∀ a < 4, (g.obj a).kind.intersectable := fun a ha => by
    rcases Nat.lt_succ_iff_lt_or_eq.1 ha with ha | rfl
    · rw [(kg a ha).1]; rfl
    · rw [kg3]; rfl
  intro h
  have sh : h.size = 5 := by show (newCsg argsort g op2 l r).size = 5; rw [newCsg_size, sg]
  have kh : ∀ a < 4, (h.obj a).kind = (g.obj a).kind ∧ (h.obj a).world = (g.obj a).world := fun a ha =>
    ⟨newCsg_kind_lt argsort g op2 l r (by omega), newCsg_world_lt argsort g op2 l r (by omega)⟩
  have kh4 : (h.obj 4).kind = .csg op2 l r := by
    have := newCsg_kind_self argsort g op2 l r; rw [sg] at this; exact this
  have wh4 : (h.obj 4).world = 1 := by
    have := newCsg_world_self argsort g op2 l r; rw [sg] at this; exact this
  refine ⟨sh, fun a ha => ?_, ?_, kh4, fun a ha => ?_, ?_⟩
  · rw [(kh a (by omega)).1]; exact (kg a ha).1
  · rw [(kh 3 (by omega)).1]; exact kg3
  · rcases Nat.lt_succ_iff_lt_or_eq.1 ha with ha | rfl
    · rw [(kh a ha).2]
      rcases Nat.lt_succ_iff_lt_or_eq.1 ha with ha | rfl
      · exact (kg a ha).2
      · exact wg3
    · exact wh4
  · have r1 : Reaches argsort 3 Heap.empty g :=
      .step (.newCsg op1 x y) (TidyReaches.reaches argsort (three_reaches argsort 3))
        ⟨by omega, by omega, by rw [(k3 x hx).1]; rfl, by rw [(k3 y hy).1]; rfl⟩ rfl
    exact .step (.newCsg op2 l r) r1 ⟨by omega, by omega, ig l hl, ig r hr⟩ rfl

/-- the box of a moved unit sphere, along x -/
theorem sphere_box_x (x y z : ℝ) : primBox (moveMatrix x y z) (.sphere 1) 0 = (((x - 1 : ℝ) : EReal), ((x + 1 : ℝ) : EReal)) := by
  have hspan : ∀ i : Fin 3, Prim.boundSpans (.sphere 1) i = (-1, 1) := by
    intro i
    fin_cases i <;> simp [Prim.boundSpans, cubeSpans]
  have hm : ∀ a b c : ℝ, (moveMatrix x y z *ᵥ point a b c) 0 = a + x := by
    intro a b c; rw [mulVec4]; simp [moveMatrix, point]
  have e1 : ((x - 1 : ℝ) : EReal) = ((-1 + x : ℝ) : EReal) := by congr 1; ring
  have e2 : ((x + 1 : ℝ) : EReal) = ((1 + x : ℝ) : EReal) := by congr 1; ring
  have hle : ((-1 + x : ℝ) : EReal) ≤ ((1 + x : ℝ) : EReal) := EReal.coe_le_coe_iff.2 (by linarith)
  rw [e1, e2]
  unfold primBox boundingBox
  simp only [cornerPoints, hspan, List.flatMap_cons, List.flatMap_nil, List.map_cons, List.map_nil, List.append_nil,
    List.cons_append, List.nil_append, List.foldr_cons, List.foldr_nil, Fin.castSucc_zero, hm, sort2]
  generalize ((-1 + x : ℝ) : EReal) = A at *
  generalize ((1 + x : ℝ) : EReal) = B at *
  simp [hle, min_eq_left, max_eq_left, max_eq_right]

theorem move_one : (1 : Mat4) = moveMatrix 0 0 0 := by
  ext i j; fin_cases i <;> fin_cases j <;> simp [moveMatrix]

/-- the union of boxes of unit spheres far apart is, along x, the box of the lower one only -/
theorem union_far (ha : IsArgsort argsort) (l r : Box) (hl : l 0 = (((99 : ℝ) : EReal), ((101 : ℝ) : EReal)))
    (hr : r 0 = (((-1 : ℝ) : EReal), ((1 : ℝ) : EReal))) : csgBox argsort .union l r 0 = r 0 := by
  have key := argsort_separate' ha (a := ((99 : ℝ) : EReal)) (b := ((101 : ℝ) : EReal)) (c := ((-1 : ℝ) : EReal))
    (d := ((1 : ℝ) : EReal)) (EReal.coe_lt_coe_iff.2 (by norm_num)) (EReal.coe_lt_coe_iff.2 (by norm_num))
    (EReal.coe_lt_coe_iff.2 (by norm_num))
  have h1 : ((-1 : ℝ) : EReal) ≤ ((1 : ℝ) : EReal) := EReal.coe_le_coe_iff.2 (by norm_num)
  have h2 : ((1 : ℝ) : EReal) ≤ ((99 : ℝ) : EReal) := EReal.coe_le_coe_iff.2 (by norm_num)
  have h3 : ((99 : ℝ) : EReal) ≤ ((101 : ℝ) : EReal) := EReal.coe_le_coe_iff.2 (by norm_num)
  simp only [csgBox, arrayCsg, arrayCsgUnsorted, hl, hr, List.cons_append, List.nil_append, key]
  have e : (List.zipWith (fun (v : EReal) (k : Bool) => if k then v else ⊤)
      (gather ⊤ [((99 : ℝ) : EReal), ((101 : ℝ) : EReal), ((-1 : ℝ) : EReal), ((1 : ℝ) : EReal)] [2, 3, 0, 1])
      (keepMask .union (surfaceCount .union [((99 : ℝ) : EReal), ((101 : ℝ) : EReal)].length [2, 3, 0, 1]))) =
      [((-1 : ℝ) : EReal), ((1 : ℝ) : EReal), ((99 : ℝ) : EReal), ((101 : ℝ) : EReal)] := by
    simp [gather, keepMask, surfaceCount, cumsumFrom, signMask, roll]
  rw [e, List.Pairwise.insertionSort_eq]
  · simp only [List.getD_cons_zero, List.getD_cons_succ, sort2]
    rw [min_eq_left h1, max_eq_right h1]
  · simp only [List.pairwise_cons, List.mem_cons, List.not_mem_nil, or_false, forall_eq_or_imp, forall_eq]
    exact ⟨⟨h1, h1.trans h2, h1.trans (h2.trans h3)⟩, ⟨h2, h2.trans h3⟩, h3, by simp, List.Pairwise.nil⟩

/-- union of two equal boxes, along x -/
theorem union_same (ha : IsArgsort argsort) (l r : Box) (x y : ℝ) (hxy : x < y) (hl : l 0 = ((x : EReal), (y : EReal)))
    (hr : r 0 = ((x : EReal), (y : EReal))) : csgBox argsort .union l r 0 = ((x : EReal), (y : EReal)) := by
  have hc : (x : EReal) < y := by exact_mod_cast hxy
  have := (csgBox_overlap ha l r 0 (by rw [hl]; exact hc) (by rw [hr]; exact hc) (by rw [hl, hr]; exact hc)
    (by rw [hl, hr]; exact hc)).1
  rw [this, hl, hr]; simp

/-- **C19 is false in general (composite as right operand).** `union(s0, union(s1, s2))` of unit spheres moved by 100
along x: its bounding box still spans `[-1, 1]` while a rebuilt one would span `[99, 101]`. -/
theorem C19_nested_right_false (ha : IsArgsort argsort) : ∃ h h', Reaches argsort 3 Heap.empty h ∧
    (h.obj 4).kind = .csg .union 0 3 ∧ (h.obj 3).kind = .csg .union 1 2 ∧
    callMovement argsort 3 h 4 (.move 100 0 0) = (h', none) ∧
    (h'.obj 4).aobb 0 = (((-1 : ℝ) : EReal), ((1 : ℝ) : EReal)) ∧
    ((newCsg argsort h' .union 0 3).obj h'.size).aobb 0 = (((99 : ℝ) : EReal), ((101 : ℝ) : EReal)) := by
  obtain ⟨s, k, k3, k4, w, hre⟩ := nest_spec argsort .union .union 1 2 0 3 (by omega) (by omega) (by omega) (by omega)
  change (nestR argsort .union .union).size = 5 at s
  set h := nestR argsort .union .union with hh
  change ∀ a < 3, (h.obj a).kind = _ at k
  change (h.obj 3).kind = _ at k3
  change (h.obj 4).kind = _ at k4
  change ∀ a < 5, (h.obj a).world = 1 at w
  change Reaches argsort 3 Heap.empty h at hre
  have hi := reaches_inv argsort empty_inv hre
  have kk : ∀ a < 3, (h.obj a).kind = .prim (.sphere 1) := k
  obtain ⟨h', e, -⟩ := transform_succeeds argsort (rigid_good (move_rigid 100 0 0)) 3 (h := h) 4 hi
    (fun b hb => by rw [w b (by omega)]; exact goodWorld_one) (by omega)
    (by simp [Spec.fits, kk 0, kk 1, kk 2, k3, k4])
  have hmove : callMovement argsort 3 h 4 (.move 100 0 0) = (h', none) := by
    simp only [callMovement, Movement.matrix]; exact e
  refine ⟨h, h', hre, k4, k3, hmove, ?_, ?_⟩
  · -- follow the movement
    set m := moveMatrix 100 0 0 with hm
    have par : ∀ p a, IsParent h p a → p < 5 → (p = 3 ∧ (a = 1 ∨ a = 2)) ∨ (p = 4 ∧ (a = 0 ∨ a = 3)) := by
      rintro p a ⟨op, l, r, hk, hor⟩ hp
      rcases (by omega : p < 3 ∨ p = 3 ∨ p = 4) with hp | rfl | rfl
      · rw [kk p hp] at hk; cases hk
      · rw [k3] at hk; cases hk; exact Or.inl ⟨rfl, hor⟩
      · rw [k4] at hk; cases hk; exact Or.inr ⟨rfl, hor⟩
    unfold transform at e
    obtain ⟨h1, e1, e⟩ := Res.andThen_ok e
    have i1 := appendOwn_inv argsort hi (by omega) e1
    have st1 : Static h h1 := by have := appendOwn_static argsort h 4 m; rw [e1] at this; exact this
    have m1 := appendOwn_moves argsort h 4 m
    rw [e1] at m1
    rw [(st1.2.2 4).1, k4] at e
    simp only at e
    obtain ⟨h2, e2, e⟩ := Res.andThen_ok e
    rw [transform] at e2
    obtain ⟨h2', e2', e2⟩ := Res.andThen_ok e2
    have i2 := appendOwn_inv argsort i1 (by rw [st1.1]; omega) e2'
    have st2 : Static h h2' := st1.trans (by have := appendOwn_static argsort h1 0 m; rw [e2'] at this; exact this)
    have m2 := appendOwn_moves argsort h1 0 m
    rw [e2'] at m2
    rw [(st2.2.2 0).1, kk 0 (by omega)] at e2
    simp only [Prod.mk.injEq, and_true] at e2
    subst e2
    rw [transform] at e
    obtain ⟨h3, e3, e⟩ := Res.andThen_ok e
    have i3 := appendOwn_inv argsort i2 (by rw [st2.1]; omega) e3
    have st3 : Static h h3 := st2.trans (by have := appendOwn_static argsort h2' 3 m; rw [e3] at this; exact this)
    have m3 := appendOwn_moves argsort h2' 3 m
    rw [e3] at m3
    have f4 : Fresh argsort h3 4 := appendOwn_fresh_make argsort i2.toStruct (by rw [st2.1]; omega) e3
      (by rw [st2.1]; omega) (by rw [(st2.2.2 4).1]; exact k4) (Or.inr rfl)
      (fun hp => by have := par _ _ ((st2.isParent _ _).1 hp) (by omega); omega)
      (fun hp => by have := par _ _ ((st2.isParent _ _).1 hp) (by omega); omega)
    have flat : FlatFresh argsort h3 := by
      have f0 := reaches_flat argsort empty_inv (fun p hp => by simp [Heap.empty] at hp) hre
      exact appendOwn_flat argsort i2 (by rw [st2.1]; omega)
        (appendOwn_flat argsort i1 (by rw [st1.1]; omega) (appendOwn_flat argsort hi (by omega) f0 e1) e2') e3
    have w0 : (h3.obj 0).world = m := by
      rw [m3.2 0, m2.2 0, m1.2 0, w 0 (by omega)]; simp
    have w1 : (h3.obj 1).world = 1 := by
      rw [m3.2 1, m2.2 1, m1.2 1, w 1 (by omega)]; simp
    have w2 : (h3.obj 2).world = 1 := by
      rw [m3.2 2, m2.2 2, m1.2 2, w 2 (by omega)]; simp
    have kh3 : ∀ a < 3, (h3.obj a).kind = .prim (.sphere 1) := fun a ha => by rw [(st3.2.2 a).1]; exact kk a ha
    have b0 := i3.boxes 0 (by rw [st3.1]; omega) _ (kh3 0 (by omega))
    have b1 := i3.boxes 1 (by rw [st3.1]; omega) _ (kh3 1 (by omega))
    have b2 := i3.boxes 2 (by rw [st3.1]; omega) _ (kh3 2 (by omega))
    rw [w0] at b0
    rw [w1, move_one] at b1
    rw [w2, move_one] at b2
    have b3 := flat 3 (by rw [st3.1]; omega) ⟨.union, 1, 2, _, _, by rw [(st3.2.2 3).1]; exact k3, kh3 1 (by omega), kh3 2 (by omega)⟩
      .union 1 2 (by rw [(st3.2.2 3).1]; exact k3)
    have b4 := f4 .union 0 3 (by rw [(st3.2.2 4).1]; exact k4)
    have x1 : (h3.obj 1).aobb 0 = (((-1 : ℝ) : EReal), ((1 : ℝ) : EReal)) := by rw [b1, sphere_box_x]; norm_num
    have x2 : (h3.obj 2).aobb 0 = (((-1 : ℝ) : EReal), ((1 : ℝ) : EReal)) := by rw [b2, sphere_box_x]; norm_num
    have x0 : (h3.obj 0).aobb 0 = (((99 : ℝ) : EReal), ((101 : ℝ) : EReal)) := by rw [b0, sphere_box_x]; norm_num
    have x3 : (h3.obj 3).aobb 0 = (((-1 : ℝ) : EReal), ((1 : ℝ) : EReal)) := by
      rw [b3]; exact union_same argsort ha _ _ _ _ (by norm_num) x1 x2
    have x4 : (h3.obj 4).aobb 0 = (((-1 : ℝ) : EReal), ((1 : ℝ) : EReal)) := by
      rw [b4, union_far argsort ha _ _ x0 x3, x3]
    -- the last two steps do not touch the outer box
    rw [(st3.2.2 3).1, k3] at e
    simp only at e
    obtain ⟨h4, e4, e⟩ := Res.andThen_ok e
    rw [transform] at e4 e
    obtain ⟨h4', e4', e4⟩ := Res.andThen_ok e4
    have st4 : Static h h4' := st3.trans (by have := appendOwn_static argsort h3 1 m; rw [e4'] at this; exact this)
    have i4 := appendOwn_inv argsort i3 (by rw [st3.1]; omega) e4'
    rw [(st4.2.2 1).1, kk 1 (by omega)] at e4
    simp only [Prod.mk.injEq, and_true] at e4
    subst e4
    obtain ⟨h5, e5, e⟩ := Res.andThen_ok e
    have st5 : Static h h5 := st4.trans (by have := appendOwn_static argsort h4' 2 m; rw [e5] at this; exact this)
    rw [(st5.2.2 2).1, kk 2 (by omega)] at e
    simp only [Prod.mk.injEq, and_true] at e
    subst e
    have y1 := appendOwn_aobb argsort e4' 4 (fun hm => by
      rcases i3.toStruct.box_watch (by rw [st3.1]; omega) hm with e | e
      · omega
      · have := par _ _ ((st3.isParent _ _).1 e) (by omega); omega)
    have y2 := appendOwn_aobb argsort e5 4 (fun hm => by
      rcases i4.toStruct.box_watch (by rw [st4.1]; omega) hm with e | e
      · omega
      · have := par _ _ ((st4.isParent _ _).1 e) (by omega); omega)
    rw [y2, y1, x4]
  · -- a rebuilt composite
    obtain ⟨hi', mv⟩ := transform_ok argsort _ 3 4 hi (by omega) e
    have st := mv.1
    have vis : Spec.visits (fun a => (h.obj a).kind) 3 4 = [4, 0, 3, 1, 2] := by
      simp [Spec.visits, kk 0, kk 1, kk 2, k3, k4]
    have ww : ∀ a < 3, (h'.obj a).world = moveMatrix 100 0 0 := fun a ha => by
      rw [mv.2 a, w a (by omega)]
      simp only [vis]
      interval_cases a <;> simp
    have kh : ∀ a < 3, (h'.obj a).kind = .prim (.sphere 1) := fun a ha => by rw [(st.2.2 a).1]; exact kk a ha
    have xx : ∀ a < 3, (h'.obj a).aobb 0 = (((99 : ℝ) : EReal), ((101 : ℝ) : EReal)) := fun a ha => by
      rw [hi'.boxes a (by rw [st.1]; omega) _ (kh a ha), ww a ha, sphere_box_x]; norm_num
    have hflat := reaches_flat argsort empty_inv (fun p hp => by simp [Heap.empty] at hp)
      (Reaches.step (.movement 4 (.move 100 0 0)) hre (show 4 < h.size by omega) hmove)
    have b3 := hflat 3 (by rw [st.1]; omega) ⟨.union, 1, 2, _, _, by rw [(st.2.2 3).1]; exact k3, kh 1 (by omega), kh 2 (by omega)⟩
      .union 1 2 (by rw [(st.2.2 3).1]; exact k3)
    have x3 : (h'.obj 3).aobb 0 = (((99 : ℝ) : EReal), ((101 : ℝ) : EReal)) := by
      rw [b3]; exact union_same argsort ha _ _ _ _ (by norm_num) (xx 1 (by omega)) (xx 2 (by omega))
    have := newCsg_fresh argsort h' .union 0 3 (by rw [st.1]; omega) (by rw [st.1]; omega) .union 0 3
      (newCsg_kind_self argsort h' .union 0 3)
    rw [this, newCsg_aobb_lt argsort h' .union 0 3 (a := 0) (by rw [st.1]; omega),
      newCsg_aobb_lt argsort h' .union 0 3 (a := 3) (by rw [st.1]; omega)]
    exact union_same argsort ha _ _ _ _ (by norm_num) (xx 0 (by omega)) x3

/-- **C19 is false in general (moving a part of a part).** In `union(union(s0, s1), s2)` moving `s0` by 1 along x
updates the inner union only: the outer box still spans `[-1, 1]`, a rebuilt one would span `[-1, 2]`. -/
theorem C19_inner_part_false (ha : IsArgsort argsort) : ∃ h h', Reaches argsort 3 Heap.empty h ∧
    (h.obj 4).kind = .csg .union 3 2 ∧ (h.obj 3).kind = .csg .union 0 1 ∧
    callMovement argsort 3 h 0 (.move 1 0 0) = (h', none) ∧
    (h'.obj 4).aobb 0 = (((-1 : ℝ) : EReal), ((1 : ℝ) : EReal)) ∧
    ((newCsg argsort h' .union 3 2).obj h'.size).aobb 0 = (((-1 : ℝ) : EReal), ((2 : ℝ) : EReal)) := by
  obtain ⟨s, k, k3, k4, w, hre⟩ := nest_spec argsort .union .union 0 1 3 2 (by omega) (by omega) (by omega) (by omega)
  have hfr := newCsg_fresh argsort (newCsg argsort three .union 0 1) .union 3 2
    (by rw [newCsg_size]; exact Nat.lt_succ_self _) (by rw [newCsg_size]; show 2 < 4; omega)
  rw [show (newCsg argsort three .union 0 1).size = 4 by rw [newCsg_size]; rfl] at hfr
  change (nestL argsort .union .union).size = 5 at s
  set h := nestL argsort .union .union with hh
  change Fresh argsort h 4 at hfr
  change ∀ a < 3, (h.obj a).kind = _ at k
  change (h.obj 3).kind = _ at k3
  change (h.obj 4).kind = _ at k4
  change ∀ a < 5, (h.obj a).world = 1 at w
  change Reaches argsort 3 Heap.empty h at hre
  have hi := reaches_inv argsort empty_inv hre
  have hst := hi.toStruct
  obtain ⟨h', e, -⟩ := transform_succeeds argsort (rigid_good (move_rigid 1 0 0)) 3 (h := h) 0 hi
    (fun b hb => by rw [w b (by omega)]; exact goodWorld_one) (by omega)
    (by simp [Spec.fits, k 0])
  have hmove : callMovement argsort 3 h 0 (.move 1 0 0) = (h', none) := by
    simp only [callMovement, Movement.matrix]; exact e
  obtain ⟨hi', mv⟩ := transform_ok argsort _ 3 0 hi (by omega) e
  have st := mv.1
  have vis : Spec.visits (fun a => (h.obj a).kind) 3 0 = [0] := by simp [Spec.visits, k 0]
  have w0 : (h'.obj 0).world = moveMatrix 1 0 0 := by
    rw [mv.2 0, w 0 (by omega)]; simp only [vis]; simp
  have w1 : ∀ a < 3, a ≠ 0 → (h'.obj a).world = moveMatrix 0 0 0 := fun a ha hne => by
    rw [mv.2 a, w a (by omega)]; simp only [vis]
    rw [List.count_singleton, ← move_one]
    simp [hne.symm]
  have kh : ∀ a < 3, (h'.obj a).kind = .prim (.sphere 1) := fun a ha => by rw [(st.2.2 a).1]; exact k a ha
  have flat0 := reaches_flat argsort empty_inv (fun p hp => by simp [Heap.empty] at hp) hre
  have flat := reaches_flat argsort empty_inv (fun p hp => by simp [Heap.empty] at hp)
    (Reaches.step (.movement 0 (.move 1 0 0)) hre (show 0 < h.size by omega) hmove)
  have old : ∀ a < 3, (h.obj a).aobb 0 = (((-1 : ℝ) : EReal), ((1 : ℝ) : EReal)) := fun a ha => by
    rw [hi.boxes a (by omega) _ (k a ha), w a (by omega), move_one, sphere_box_x]; norm_num
  have old3 : (h.obj 3).aobb 0 = (((-1 : ℝ) : EReal), ((1 : ℝ) : EReal)) := by
    rw [flat0 3 (by omega) ⟨.union, 0, 1, _, _, k3, k 0 (by omega), k 1 (by omega)⟩ .union 0 1 k3]
    exact union_same argsort ha _ _ _ _ (by norm_num) (old 0 (by omega)) (old 1 (by omega))
  have old4 : (h.obj 4).aobb 0 = (((-1 : ℝ) : EReal), ((1 : ℝ) : EReal)) := by
    rw [hfr .union 3 2 k4]
    exact union_same argsort ha _ _ _ _ (by norm_num) old3 (old 2 (by omega))
  refine ⟨h, h', hre, k4, k3, hmove, ?_, ?_⟩
  · rw [transform] at e
    obtain ⟨h1, e1, e⟩ := Res.andThen_ok e
    have st1 : Static h h1 := by have := appendOwn_static argsort h 0 (moveMatrix 1 0 0); rw [e1] at this; exact this
    rw [(st1.2.2 0).1, k 0 (by omega)] at e
    simp only [Prod.mk.injEq, and_true] at e
    subst e
    rw [appendOwn_aobb argsort e1 4 ?_, old4]
    intro hm
    rcases hst.box_watch (by omega) hm with e | ⟨op, l, r, hk, hor⟩
    · omega
    · rw [k4] at hk; cases hk; omega
  · have n0 : (h'.obj 0).aobb 0 = (((0 : ℝ) : EReal), ((2 : ℝ) : EReal)) := by
      rw [hi'.boxes 0 (by rw [st.1]; omega) _ (kh 0 (by omega)), w0, sphere_box_x]; norm_num
    have n1 : ∀ a < 3, a ≠ 0 → (h'.obj a).aobb 0 = (((-1 : ℝ) : EReal), ((1 : ℝ) : EReal)) := fun a ha hne => by
      rw [hi'.boxes a (by rw [st.1]; omega) _ (kh a ha), w1 a ha hne, sphere_box_x]; norm_num
    have lt : ∀ {x y : ℝ}, x < y → (x : EReal) < (y : EReal) := fun h => EReal.coe_lt_coe_iff.2 h
    have k3' : (h'.obj 3).kind = .csg .union 0 1 := by rw [(st.2.2 3).1]; exact k3
    have n3 : (h'.obj 3).aobb 0 = (((-1 : ℝ) : EReal), ((2 : ℝ) : EReal)) := by
      rw [flat 3 (by rw [st.1]; omega) ⟨.union, 0, 1, _, _, k3', kh 0 (by omega), kh 1 (by omega)⟩ .union 0 1 k3']
      have := (csgBox_overlap ha (h'.obj 0).aobb (h'.obj 1).aobb 0 (by rw [n0]; exact lt (by norm_num))
        (by rw [n1 1 (by omega) (by omega)]; exact lt (by norm_num))
        (by rw [n0, n1 1 (by omega) (by omega)]; exact lt (by norm_num))
        (by rw [n0, n1 1 (by omega) (by omega)]; exact lt (by norm_num))).1
      rw [this, n0, n1 1 (by omega) (by omega)]
      simp only
      rw [min_eq_right (lt (by norm_num)).le, max_eq_left (lt (by norm_num)).le]
    have := newCsg_fresh argsort h' .union 3 2 (by rw [st.1]; omega) (by rw [st.1]; omega) .union 3 2
      (newCsg_kind_self argsort h' .union 3 2)
    rw [this, newCsg_aobb_lt argsort h' .union 3 2 (a := 3) (by rw [st.1]; omega),
      newCsg_aobb_lt argsort h' .union 3 2 (a := 2) (by rw [st.1]; omega)]
    have n2 := n1 2 (by omega) (by omega)
    have := (csgBox_overlap ha (h'.obj 3).aobb (h'.obj 2).aobb 0 (by rw [n3]; exact lt (by norm_num))
      (by rw [n2]; exact lt (by norm_num)) (by rw [n3, n2]; exact lt (by norm_num))
      (by rw [n3, n2]; exact lt (by norm_num))).1
    rw [this, n3, n2]
    simp only
    rw [min_self, max_eq_left (lt (by norm_num)).le]

/-- The hypotheses of `C19_tidy_partial` are met by a moved two-level composite `difference(union(s0, s1), s2)`. -/
example : ∃ h, TidyReaches argsort 3 Heap.empty h ∧ (h.obj 3).kind = .csg .union 0 1 ∧
    (h.obj 4).kind = .csg .difference 3 2 ∧ (h.obj 0).world = moveMatrix 1 2 3 := by
  obtain ⟨s3, k3⟩ := three_spec
  have nopar : ∀ p a, ¬ IsParent three p a := by
    rintro p a ⟨op, l, r, hk, -⟩
    by_cases hp : p < 3
    · rw [(k3 p hp).1] at hk; cases hk
    · have : (three.obj p).kind = .plain := by
        simp [three, newPrim, Heap.alloc, Heap.empty, Function.update_apply]
        rw [if_neg (by omega), if_neg (by omega), if_neg (by omega)]
      rw [this] at hk; cases hk
  have t1 : TidyReaches argsort 3 Heap.empty (newCsg argsort three .union 0 1) :=
    .step (.newCsg .union 0 1) (three_reaches argsort 3)
      ⟨by omega, by omega, by rw [(k3 0 (by omega)).1]; rfl, by rw [(k3 1 (by omega)).1]; rfl⟩
      ⟨fun p _ => nopar p 0, fun p _ => nopar p 1, by omega, Or.inr ⟨_, (k3 1 (by omega)).1⟩⟩ rfl
  have sg : (newCsg argsort three .union 0 1).size = 4 := by rw [newCsg_size, s3]
  have kg3 : ((newCsg argsort three .union 0 1).obj 3).kind = .csg .union 0 1 := by
    have := newCsg_kind_self argsort three .union 0 1; rw [s3] at this; exact this
  have kg2 : ((newCsg argsort three .union 0 1).obj 2).kind = .prim (.sphere 1) := by
    rw [newCsg_kind_lt argsort three .union 0 1 (by omega)]; exact (k3 2 (by omega)).1
  have par : ∀ p a, p < 4 → IsParent (newCsg argsort three .union 0 1) p a → a = 0 ∨ a = 1 := by
    intro p a hp hpa
    rcases (newCsg_isParent argsort .union 0 1 p a (by omega)).1 hpa with ⟨-, e⟩ | ⟨-, e⟩
    · exact absurd e (nopar p a)
    · exact e
  have t2 : TidyReaches argsort 3 Heap.empty (nestL argsort .union .difference) :=
    .step (.newCsg .difference 3 2) t1 ⟨by omega, by omega, by rw [kg3]; rfl, by rw [kg2]; rfl⟩
      ⟨fun p hp hpa => by have := par p 3 (by omega) hpa; omega, fun p hp hpa => by have := par p 2 (by omega) hpa; omega,
        by omega, Or.inl rfl⟩ rfl
  obtain ⟨s, k, k3', k4, w, hre⟩ :=
    nest_spec argsort .union .difference 0 1 3 2 (by omega) (by omega) (by omega) (by omega)
  change (nestL argsort .union .difference).size = 5 at s
  set h := nestL argsort .union .difference with hh
  change ∀ a < 3, (h.obj a).kind = _ at k
  change (h.obj 3).kind = _ at k3'
  change (h.obj 4).kind = _ at k4
  change ∀ a < 5, (h.obj a).world = 1 at w
  have hi := reaches_inv argsort empty_inv (TidyReaches.reaches argsort t2)
  obtain ⟨h', e, -⟩ := transform_succeeds argsort (rigid_good (move_rigid 1 2 3)) 3 (h := h) 4 hi
    (fun b hb => by rw [w b (by omega)]; exact goodWorld_one) (by omega)
    (by simp [Spec.fits, k 0, k 1, k 2, k3', k4])
  obtain ⟨-, mv⟩ := transform_ok argsort _ 3 4 hi (by omega) e
  have vis : Spec.visits (fun a => (h.obj a).kind) 3 4 = [4, 3, 0, 1, 2] := by
    simp [Spec.visits, k 0, k 1, k 2, k3', k4]
  refine ⟨h', .step (.movement 4 (.move 1 2 3)) t2 (show 4 < h.size by omega) ?_ ?_, ?_, ?_, ?_⟩
  · show Allowed h 3 4
    unfold Allowed
    rw [k4]
    rintro p hp ⟨op, l, r, hk, hor⟩
    rcases (by omega : p < 3 ∨ p = 3 ∨ p = 4) with hp | rfl | rfl
    · rw [k p hp] at hk; cases hk
    · rw [k3'] at hk; cases hk; omega
    · rw [k4] at hk; cases hk; omega
  · simp only [exec, callMovement, Movement.matrix]; exact e
  · rw [(mv.1.2.2 3).1]; exact k3'
  · rw [(mv.1.2.2 4).1]; exact k4
  · rw [mv.2 0, w 0 (by omega)]; simp only [vis]; simp

/-! ### C20 -/

theorem chain_under {h : Heap} {c x k : ℕ} (hc : Chain h c x k) : Under h c x := by
  induction hc with
  | refl => exact .refl
  | left _ hk ih => exact .step ih ⟨_, _, _, hk, Or.inl rfl⟩
  | right _ hk ih => exact .step ih ⟨_, _, _, hk, Or.inr rfl⟩

theorem chain_subtracted {h : Heap} (hi : Struct h) {c : ℕ} (hcs : c < h.size) {x k : ℕ} (hc : Chain h c x k) (hk : 1 ≤ k) :
    Subtracted h x := by
  induction hc with
  | refl => omega
  | left hch hkind ih =>
    obtain ⟨d, l', r', h1, h2, h3⟩ := ih hk
    exact ⟨d, l', r', h1, h2, .step h3 ⟨_, _, _, hkind, Or.inl rfl⟩⟩
  | @right p k l r op hch hkind ih =>
    by_cases hop : op = .difference
    · subst hop
      have := (chain_under hch).le hi hcs
      exact ⟨p, l, r, by omega, hkind, .refl⟩
    · rw [if_neg hop] at hk
      obtain ⟨d, l', r', h1, h2, h3⟩ := ih hk
      exact ⟨d, l', r', h1, h2, .step h3 ⟨_, _, _, hkind, Or.inr rfl⟩⟩

/-- **C20, partial.** After every history: a surface reached from a composite `c` by a path on which it is subtracted at
least once has inverted normals. If no object is used in two places and `c` is not itself inside a composite, a surface
that is not subtracted on its path has normal outward normals. So the normals are right for every surface that is
subtracted at most once. Missing: surfaces subtracted twice or more, for which the claim is false
(`C20_double_difference_false`). -/
theorem C20_normals_partial (fuel : ℕ) (h : Heap) (hr : Reaches argsort fuel Heap.empty h) (c x k : ℕ) (hc : c < h.size)
    (q : Prim) (hq : (h.obj x).kind = .prim q) (hch : Chain h c x k) :
    (1 ≤ k → (h.obj x).nscale = -1) ∧
    ((∀ p p' a, p < h.size → p' < h.size → IsParent h p a → IsParent h p' a → p = p') →
     (∀ p < h.size, ∀ op l r, (h.obj p).kind = .csg op l r → l ≠ r) → Top h c →
      k ≤ 1 → (h.obj x).nscale = (-1) ^ k) := by
  have hi := (reaches_inv argsort empty_inv hr).toStruct
  have hn := reaches_normals argsort empty_inv empty_normals hr
  have hxc := (chain_under hch).le hi hc
  have hx : x < h.size := by omega
  have pos : 1 ≤ k → (h.obj x).nscale = -1 := fun hk => by
    rw [hn x hx q hq, if_pos (chain_subtracted hi hc hch hk)]
  refine ⟨pos, fun huniq hdist htop hk1 => ?_⟩
  rcases (by omega : k = 0 ∨ k = 1) with rfl | rfl
  · rw [hn x hx q hq, if_neg, pow_zero]
    rintro ⟨d, l, r, hd, hkd, hu⟩
    clear hq pos hk1 hxc hx
    generalize hk0 : 0 = k at hch
    revert hu
    induction hch with
    | refl =>
      intro hu
      have cr := (hi.children d r hd ⟨_, l, r, hkd, Or.inr rfl⟩).1
      cases hu with
      | refl => exact htop d hd ⟨_, l, _, hkd, Or.inr rfl⟩
      | @step p _ hu' hp => exact htop p (by have := hu'.le hi (by omega); omega) hp
    | @left p k l' r' op hch' hkind ih =>
      intro hu
      have hps : p < h.size := by have := (chain_under hch').le hi hc; omega
      have cr := (hi.children d r hd ⟨_, l, r, hkd, Or.inr rfl⟩).1
      cases hu with
      | refl =>
        have := huniq d p r hd hps ⟨_, l, r, hkd, Or.inr rfl⟩ ⟨_, _, _, hkind, Or.inl rfl⟩
        subst this
        rw [hkd] at hkind
        cases hkind
        exact hdist d hd _ _ _ hkd rfl
      | @step p' _ hu' hp =>
        have := huniq p' p l' (by have := hu'.le hi (by omega); omega) hps hp ⟨_, _, _, hkind, Or.inl rfl⟩
        subst this
        exact ih hk0 hu'
    | @right p k l' r' op hch' hkind ih =>
      intro hu
      have hop : op ≠ .difference := fun e => by rw [if_pos e] at hk0; omega
      rw [if_neg hop] at hk0
      have hps : p < h.size := by have := (chain_under hch').le hi hc; omega
      have cr := (hi.children d r hd ⟨_, l, r, hkd, Or.inr rfl⟩).1
      cases hu with
      | refl =>
        have := huniq d p r hd hps ⟨_, l, r, hkd, Or.inr rfl⟩ ⟨_, _, _, hkind, Or.inr rfl⟩
        subst this
        rw [hkd] at hkind
        cases hkind
        exact hop rfl
      | @step p' _ hu' hp =>
        have := huniq p' p r' (by have := hu'.le hi (by omega); omega) hps hp ⟨_, _, _, hkind, Or.inr rfl⟩
        subst this
        exact ih hk0 hu'
  · rw [pos (le_refl _), pow_one]

/-- **C20 is false for surfaces subtracted twice.** In `difference(s0, difference(s1, s2))` the surface `s2` is
subtracted twice, so it bounds remaining material with its original outside, but its normals stay inverted. -/
theorem C20_double_difference_false : ∃ h, Reaches argsort 3 Heap.empty h ∧
    (h.obj 4).kind = .csg .difference 0 3 ∧ (h.obj 3).kind = .csg .difference 1 2 ∧ Chain h 4 2 2 ∧
    (h.obj 2).nscale ≠ (-1) ^ 2 := by
  obtain ⟨s, k, k3, k4, w, hre⟩ :=
    nest_spec argsort .difference .difference 1 2 0 3 (by omega) (by omega) (by omega) (by omega)
  have hch : Chain _ 4 2 2 := Chain.right (op := .difference) (Chain.right (op := .difference) Chain.refl k4) k3
  refine ⟨_, hre, k4, k3, hch, ?_⟩
  rw [(C20_normals_partial argsort 3 _ hre 4 2 2 (by rw [s]; omega) _ (k 2 (by omega)) hch).1 (by omega)]
  norm_num

/-- The hypotheses of `C20_normals_partial` are met by `difference(union(s0, s1), s2)`: `s2` is inverted, `s0` is not. -/
example : ∃ h, Reaches argsort 3 Heap.empty h ∧ (h.obj 0).nscale = 1 ∧ (h.obj 2).nscale = -1 := by
  obtain ⟨s, k, k3, k4, w, hre⟩ :=
    nest_spec argsort .union .difference 0 1 3 2 (by omega) (by omega) (by omega) (by omega)
  set h := newCsg argsort (newCsg argsort three .union 0 1) .difference 3 2 with hh
  have par : ∀ p a, p < h.size → IsParent h p a → (p = 3 ∧ (a = 0 ∨ a = 1)) ∨ (p = 4 ∧ (a = 3 ∨ a = 2)) := by
    rintro p a hp ⟨op, l, r, hk, hor⟩
    rcases (by omega : p < 3 ∨ p = 3 ∨ p = 4) with hp | rfl | rfl
    · rw [k p hp] at hk; cases hk
    · rw [k3] at hk; cases hk; exact Or.inl ⟨rfl, hor⟩
    · rw [k4] at hk; cases hk; exact Or.inr ⟨rfl, hor⟩
  have c0 : Chain h 4 0 0 := Chain.left (Chain.left Chain.refl k4) k3
  have c2 : Chain h 4 2 1 := Chain.right (op := .difference) Chain.refl k4
  refine ⟨h, hre, ?_, ?_⟩
  · rw [(C20_normals_partial argsort 3 h hre 4 0 0 (by omega) _ (k 0 (by omega)) c0).2 ?_ ?_ ?_ (by omega)]
    · norm_num
    · intro p p' a hp hp' h1 h2
      have := par p a hp h1
      have := par p' a hp' h2
      omega
    · intro p hp op l r hk
      rcases (by omega : p < 3 ∨ p = 3 ∨ p = 4) with hp | rfl | rfl
      · rw [k p hp] at hk; cases hk
      · rw [k3] at hk; cases hk; omega
      · rw [k4] at hk; cases hk; omega
    · intro p hp h1
      have := par p 4 hp h1
      omega
  · exact (C20_normals_partial argsort 3 h hre 4 2 1 (by omega) _ (k 2 (by omega)) c2).1 (le_refl _)

end PyRayT
