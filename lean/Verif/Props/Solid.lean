import Verif.Proofs.Solid
import Verif.Props.CsgHeap

/-!
# Properties C04, C05, C06 and C61: rays and composite solids

`Represents h a s`: the object at address `a` is the tree `s` of placed primitives. `s.Interior q` / `s.Outside q`: the point
`q` is strictly inside / outside the boolean combination (`Spec/CsgTree.lean`). `InsideAt hits t`: an odd number of hits lie
before `t`. `Chain h a x k`: `x` is `a` or somewhere below it.
-/

namespace PyRayT

open Classical Matrix Spec

variable (argsort : List EReal → List ℕ)

theorem Under.chain {h : Heap} {a x : ℕ} (hu : Under h a x) : ∃ k, Chain h a x k := by
  induction hu with
  | refl => exact ⟨0, .refl⟩
  | step _ hp ih =>
    obtain ⟨k, hk⟩ := ih
    obtain ⟨op, l, r, hkind, rfl | rfl⟩ := hp
    · exact ⟨k, .left hk hkind⟩
    · exact ⟨_, .right hk hkind⟩

theorem boxesOk_of {fuel : ℕ} {h : Heap} (hr : Reaches argsort fuel Heap.empty h) {a : ℕ} (hlt : a < h.size)
    (hbox : ∀ x k op l r, Chain h a x k → (h.obj x).kind = .csg op l r →
      (h.obj x).aobb = ((newCsg argsort h op l r).obj h.size).aobb)
    (hov : ∀ x k l r, Chain h a x k → (h.obj x).kind = .csg .union l r → Overlap (h.obj l).aobb (h.obj r).aobb) :
    BoxesOk argsort h a := by
  have hi := reaches_inv argsort empty_inv hr
  have lt : ∀ x, Under h a x → x < h.size := fun x hu => lt_of_le_of_lt (hu.le hi.toStruct hlt) hlt
  refine ⟨fun x p hu hk => hi.boxes x (lt x hu) p hk, fun x hu op l r hk => ?_, fun x l r hu hk => ?_⟩
  · obtain ⟨k, hc⟩ := hu.chain
    exact (fresh_rebuilt argsort hi.toStruct (lt x hu) hk).2 (hbox x k op l r hc hk) op l r hk
  · obtain ⟨k, hc⟩ := hu.chain
    exact hov x k l r hc hk

/-- **C04.** After any history, for every composite (of any depth) all of whose boxes are the ones a composite built now
would have and whose unions have operands with overlapping boxes, and every ray that the tolerance comparisons do not
misjudge: a point of the ray strictly inside the boolean combination has an odd number of hits before it, a point strictly
outside an even number.
Missing from C04: stale boxes (`C19_nested_right_false`) and unions of separated parts, for which it is false
(`C06_separated_union_false`). -/
theorem C04_composite_partial (ha : IsArgsort argsort) (fuel : ℕ) (h : Heap) (hr : Reaches argsort fuel Heap.empty h)
    (a : ℕ) (hlt : a < h.size) (s : Solid) (hrep : Represents h a s)
    (hbox : ∀ x k op l r, Chain h a x k → (h.obj x).kind = .csg op l r →
      (h.obj x).aobb = ((newCsg argsort h op l r).obj h.size).aobb)
    (hov : ∀ x k l r, Chain h a x k → (h.obj x).kind = .csg .union l r → Overlap (h.obj l).aobb (h.obj r).aobb)
    (ray : Ray) (hray : GoodRay ray) (hleaf : s.All fun p w => (p.Valid ∧ Affine w) ∧ Sees p (ray.map w⁻¹))
    (depth : ℕ) (hd : s.depth ≤ depth) (t : ℝ) :
    (s.Interior (ray.at t) → InsideAt (intersectObj argsort depth h a ray).1 t) ∧
    (s.Outside (ray.at t) → ¬ InsideAt (intersectObj argsort depth h a ray).1 t) := by
  have hi := reaches_inv argsort empty_inv hr
  exact intersectObj_inside argsort ha hrep hray hleaf (boxesOk_of argsort hr hlt hbox hov)
    (fun x p hu _ => (hi.synced x (lt_of_le_of_lt (hu.le hi.toStruct hlt) hlt)).2.1) depth hd t

/-- **C04 for tidy histories**: the boxes are always up to date (C19). -/
theorem C04_tidy_partial (ha : IsArgsort argsort) (fuel : ℕ) (h : Heap) (hr : TidyReaches argsort fuel Heap.empty h)
    (a : ℕ) (hlt : a < h.size) (s : Solid) (hrep : Represents h a s)
    (hov : ∀ x k l r, Chain h a x k → (h.obj x).kind = .csg .union l r → Overlap (h.obj l).aobb (h.obj r).aobb)
    (ray : Ray) (hray : GoodRay ray) (hleaf : s.All fun p w => (p.Valid ∧ Affine w) ∧ Sees p (ray.map w⁻¹))
    (depth : ℕ) (hd : s.depth ≤ depth) (t : ℝ) :
    (s.Interior (ray.at t) → InsideAt (intersectObj argsort depth h a ray).1 t) ∧
    (s.Outside (ray.at t) → ¬ InsideAt (intersectObj argsort depth h a ray).1 t) := by
  have hre := TidyReaches.reaches argsort hr
  have hi := reaches_inv argsort empty_inv hre
  refine C04_composite_partial argsort ha fuel h hre a hlt s hrep (fun x k op l r hc hk => ?_) hov ray hray hleaf depth hd t
  have hu : Under h a x := by
    clear hk
    induction hc with
    | refl => exact .refl
    | left _ hk ih => exact .step ih ⟨_, _, _, hk, Or.inl rfl⟩
    | right _ hk ih => exact .step ih ⟨_, _, _, hk, Or.inr rfl⟩
  exact C19_tidy_partial argsort fuel h hr x (lt_of_le_of_lt (hu.le hi.toStruct hlt) hlt) op l r hk

/-- **C05.** Whatever the composite, the ray and the tie-breaking of argsort: hits and ids come in equal number, and a hit
other than `+inf` labelled `s` is a hit of a surface listed by `surface_ids` with id `s`, found by that surface's own
`intersect`. -/
theorem C05_labels (ha : IsArgsort argsort) (h : Heap) (a depth : ℕ) (ray : Ray) :
    (intersectObj argsort depth h a ray).2.length = (intersectObj argsort depth h a ray).1.length ∧
    ∀ (i : ℕ) (v : EReal) (s : ℤ), (intersectObj argsort depth h a ray).1[i]? = some v → v ≠ ⊤ →
      (intersectObj argsort depth h a ray).2[i]? = some s →
      ∃ x id : ℕ, (id, x) ∈ surfaceIds depth h a ∧ s = id ∧ (intersectObj argsort 1 h x ray).2 = [s, s] ∧
        v ∈ (intersectObj argsort 1 h x ray).1 := by
  refine ⟨(intersectObj_shape argsort ha h ray depth a).2.2, fun i v s hv hne hs => ?_⟩
  obtain ⟨x, p, -, hm, hk, e, hmem⟩ := intersectObj_label argsort ha h ray depth a i v s hv hne hs
  refine ⟨x, _, hm, e, ?_, ?_⟩
  · simp [intersectObj, hk, leafIntersect, e]
  · simp only [intersectObj, hk]; exact hmem

/-- **C06.** In the situation of C04 (no condition on the ray relative to the leaves is needed): a ray through a point
strictly inside the composite passes the bounding box test. Missing from C06: as in C04. -/
theorem C06_culling_partial (ha : IsArgsort argsort) (fuel : ℕ) (h : Heap) (hr : Reaches argsort fuel Heap.empty h)
    (a : ℕ) (hlt : a < h.size) (s : Solid) (hrep : Represents h a s)
    (hbox : ∀ x k op l r, Chain h a x k → (h.obj x).kind = .csg op l r →
      (h.obj x).aobb = ((newCsg argsort h op l r).obj h.size).aobb)
    (hov : ∀ x k l r, Chain h a x k → (h.obj x).kind = .csg .union l r → Overlap (h.obj l).aobb (h.obj r).aobb)
    (ray : Ray) (hray : GoodRay ray) (hleaf : s.All fun p w => p.Valid ∧ Affine w)
    (t : ℝ) (hi : s.Interior (ray.at t)) : boxPasses (h.obj a).aobb ray :=
  interior_passes argsort ha hrep hray hleaf (boxesOk_of argsort hr hlt hbox hov) hi

/-! #### two unmoved surfaces -/

/-- a composite of two surfaces, all at the origin -/
noncomputable def pairOf (p q : Prim) (op : Operation) : Heap :=
  newCsg argsort (newPrim (newPrim Heap.empty p) q) op 0 1

theorem pairOf_spec (p q : Prim) (op : Operation) :
    let h := pairOf argsort p q op
    h.size = 3 ∧ (h.obj 0).kind = .prim p ∧ (h.obj 1).kind = .prim q ∧ (h.obj 2).kind = .csg op 0 1 ∧
    (h.obj 0).world = 1 ∧ (h.obj 1).world = 1 ∧ (h.obj 0).aobb = toBox p.boundSpans ∧ (h.obj 1).aobb = toBox q.boundSpans ∧
    (h.obj 2).aobb = csgBox argsort op (toBox p.boundSpans) (toBox q.boundSpans) ∧
    (∀ fuel, TidyReaches argsort fuel Heap.empty h) := by
  set g := newPrim (newPrim Heap.empty p) q with hg
  have sg : g.size = 2 := rfl
  have k0 : (g.obj 0).kind = .prim p ∧ (g.obj 0).world = 1 := by simp [hg, newPrim, Heap.alloc, Heap.empty]
  have k1 : (g.obj 1).kind = .prim q ∧ (g.obj 1).world = 1 := by simp [hg, newPrim, Heap.alloc, Heap.empty]
  have kg : ∀ a, 2 ≤ a → (g.obj a).kind = .plain := fun a h2 => by
    simp [hg, newPrim, Heap.alloc, Heap.empty, Function.update_apply]
    rw [if_neg (by omega), if_neg (by omega)]
  have nopar : ∀ x a, ¬ IsParent g x a := by
    rintro x a ⟨op, l, r, hk, -⟩
    rcases (by omega : x = 0 ∨ x = 1 ∨ 2 ≤ x) with rfl | rfl | h2
    · rw [k0.1] at hk; cases hk
    · rw [k1.1] at hk; cases hk
    · rw [kg x h2] at hk; cases hk
  intro h
  have hh : h = newCsg argsort g op 0 1 := rfl
  have t : ∀ fuel, TidyReaches argsort fuel Heap.empty h := fun fuel =>
    .step (.newCsg op 0 1) (.step (.newPrim q) (.step (.newPrim p) (.refl _) trivial trivial rfl) trivial trivial rfl)
      ⟨show 0 < 2 by omega, show 1 < 2 by omega, by rw [← hg, k0.1]; rfl, by rw [← hg, k1.1]; rfl⟩
      ⟨fun x _ => nopar x 0, fun x _ => nopar x 1, by omega, Or.inr ⟨q, k1.1⟩⟩ rfl
  have sh : h.size = 3 := by rw [hh, newCsg_size, sg]
  have hi := reaches_inv argsort empty_inv (TidyReaches.reaches argsort (t 0))
  have kh0 : (h.obj 0).kind = .prim p := by rw [hh, newCsg_kind_lt argsort g op 0 1 (by omega), k0.1]
  have kh1 : (h.obj 1).kind = .prim q := by rw [hh, newCsg_kind_lt argsort g op 0 1 (by omega), k1.1]
  have wh0 : (h.obj 0).world = 1 := by rw [hh, newCsg_world_lt argsort g op 0 1 (by omega), k0.2]
  have wh1 : (h.obj 1).world = 1 := by rw [hh, newCsg_world_lt argsort g op 0 1 (by omega), k1.2]
  have kh2 : (h.obj 2).kind = .csg op 0 1 := by
    have := newCsg_kind_self argsort g op 0 1; rw [sg] at this; exact this
  have b0 : (h.obj 0).aobb = toBox p.boundSpans := by
    rw [hi.boxes 0 (by omega) p kh0, wh0, primBox_one_eq]
  have b1 : (h.obj 1).aobb = toBox q.boundSpans := by
    rw [hi.boxes 1 (by omega) q kh1, wh1, primBox_one_eq]
  refine ⟨sh, kh0, kh1, kh2, wh0, wh1, b0, b1, ?_, t⟩
  have := newCsg_fresh argsort g op 0 1 (by omega) (by omega) op 0 1
  rw [sg, ← hh] at this
  rw [this kh2, b0, b1]

theorem pairOf_represents (p q : Prim) (op : Operation) :
    Represents (pairOf argsort p q op) 2 (.node op (.leaf p 1) (.leaf q 1)) := by
  obtain ⟨-, k0, k1, k2, w0, w1, -⟩ := pairOf_spec argsort p q op
  have l0 := Represents.leaf k0
  have l1 := Represents.leaf k1
  rw [w0] at l0
  rw [w1] at l1
  exact .node k2 l0 l1

/-- the z axis, from below -/
def zRay (x : ℝ) : Ray := ⟨point x 0 (-5), vector 0 0 1⟩

theorem zRay_good (x : ℝ) : GoodRay (zRay x) := by
  refine ⟨by simp [zRay, point], by simp [zRay, vector], ⟨?_, ?_, ?_⟩, ?_⟩
  · left; simp [zRay, vector]
  · left; simp [zRay, vector]
  · right; simp [zRay, vector]; norm_num
  · right; right; simp [zRay, vector]

theorem affine_one : Affine 1 := by
  refine ⟨?_, by simp⟩
  funext i
  fin_cases i <;> rfl

theorem zRay_at (x t : ℝ) : (zRay x).at t = point x 0 (t - 5) := by
  funext i
  fin_cases i <;> simp [Ray.at, zRay, point, vector]
  ring

/-- **C04 and C06 are false for a union of separated parts.** The union of a cube around (100, 0, 0) and the unit sphere, built
without any movement: the ray through the middle of the cube is culled, no hit is reported. -/
theorem C06_separated_union_false (ha : IsArgsort argsort) : ∃ (h : Heap) (ray : Ray) (s : Solid) (t : ℝ),
    (∀ fuel, TidyReaches argsort fuel Heap.empty h) ∧ (h.obj 2).kind = .csg .union 0 1 ∧ Represents h 2 s ∧ GoodRay ray ∧
    norm4 ray.d = 1 ∧ (s.All fun p w => (p.Valid ∧ Affine w) ∧ Sees p (ray.map w⁻¹)) ∧
    s.Interior (ray.at t) ∧ s.Outside (ray.at 0) ∧ ¬ boxPasses (h.obj 2).aobb ray ∧
    (intersectObj argsort 2 h 2 ray).1 = [⊤, ⊤, ⊤, ⊤] := by
  set p : Prim := .cube ![99, -1, -1] ![101, 1, 1] with hp
  set q : Prim := .sphere 1 with hq
  obtain ⟨-, k0, k1, k2, w0, w1, b0, b1, b2, t⟩ := pairOf_spec argsort p q .union
  have e0 : toBox p.boundSpans 0 = (((99 : ℝ) : EReal), ((101 : ℝ) : EReal)) := by
    simp only [hp, toBox, Prim.boundSpans, cubeSpans, cons_val_zero]
    rw [min_eq_left (by norm_num), max_eq_right (by norm_num)]
  have e1 : toBox q.boundSpans 0 = (((-1 : ℝ) : EReal), ((1 : ℝ) : EReal)) := by
    simp only [hq, toBox, Prim.boundSpans, cubeSpans, cons_val_zero]
    rw [min_eq_left (by norm_num), max_eq_right (by norm_num)]
  have ebox : ((pairOf argsort p q .union).obj 2).aobb 0 = (((-1 : ℝ) : EReal), ((1 : ℝ) : EReal)) := by
    rw [b2, union_far argsort ha _ _ e0 e1, e1]
  have hnp : ¬ boxPasses ((pairOf argsort p q .union).obj 2).aobb (zRay 100) := by
    have hslab : slab (((pairOf argsort p q .union).obj 2).aobb 0) ((zRay 100).o 0) ((zRay 100).d 0) = (⊤, ⊤) := by
      rw [ebox]
      have h1 : (zRay 100).d 0 = 0 := by simp [zRay, vector]
      have h2 : (zRay 100).o 0 = 100 := by simp [zRay, point]
      have h3 : ¬ (((100 : ℝ) : EReal) ≤ ((1 : ℝ) : EReal)) := by
        rw [EReal.coe_le_coe_iff]; norm_num
      simp only [slab, h1, h2, isclose0_zero, not_true_eq_false, if_false, h3, false_and, sort2, min_self, max_self]
    have : boxIntersect ((pairOf argsort p q .union).obj 2).aobb (zRay 100) = (⊤, ⊤) := by
      simp only [boxIntersect, hslab]
      simp
    simp [boxPasses, this]
  refine ⟨pairOf argsort p q .union, zRay 100, _, 5, t, k2, pairOf_represents argsort p q .union, zRay_good 100, ?_, ?_, ?_, ?_, hnp, ?_⟩
  · simp [norm4, zRay, vector]
  · have hm : (zRay 100).map (1 : Mat4)⁻¹ = zRay 100 := by simp [Ray.map]
    refine ⟨⟨⟨trivial, affine_one⟩, ?_⟩, ⟨⟨?_, affine_one⟩, ?_⟩⟩
    · rw [hm]; exact (zRay_good 100).clear
    · trivial
    · rw [hm]; exact (zRay_good 100).ne
  · simp only [Solid.Interior, zRay_at]
    left
    refine ⟨_, one_mulVec _, ?_⟩
    simp only [hp, Spec.Interior]
    intro i
    fin_cases i
    · show min (99 : ℝ) 101 < 100 ∧ (100 : ℝ) < max 99 101; norm_num
    · show min (-1 : ℝ) 1 < 0 ∧ (0 : ℝ) < max (-1) 1; norm_num
    · show min (-1 : ℝ) 1 < 5 - 5 ∧ (5 : ℝ) - 5 < max (-1) 1; norm_num
  · simp only [Solid.Outside, zRay_at, one_mulVec]
    constructor
    · rintro x rfl hc
      have h2 : min (-1 : ℝ) 1 ≤ 0 - 5 := (hc 2).1
      norm_num at h2
    · rintro x rfl; simp [hq, Spec.Closed, point]; norm_num
  · rw [intersectObj, k2]
    simp only
    rw [if_neg hnp]
    simp [intersectObj, k0, k1, leafIntersect, List.replicate]

/-- non-vacuity of C04, C05, C06: the union of a sphere of radius 2 and a cube, and the z axis. The ray is inside at
parameter 5 (the origin), outside at 0, and `intersect` says so. -/
theorem sphere_cube_union (ha : IsArgsort argsort) : ∃ (h : Heap) (s : Solid), TidyReaches argsort 2 Heap.empty h ∧ h.size = 3 ∧
    Represents h 2 s ∧
    (∀ x k l r, Chain h 2 x k → (h.obj x).kind = .csg .union l r → Overlap (h.obj l).aobb (h.obj r).aobb) ∧
    (s.All fun p w => (p.Valid ∧ Affine w) ∧ Sees p ((zRay 0).map w⁻¹)) ∧ s.depth = 2 ∧
    s.Interior ((zRay 0).at 5) ∧ s.Outside ((zRay 0).at 0) ∧
    InsideAt (intersectObj argsort 2 h 2 (zRay 0)).1 ((5 : ℝ) : EReal) ∧
    ¬ InsideAt (intersectObj argsort 2 h 2 (zRay 0)).1 ((0 : ℝ) : EReal) := by
  set p : Prim := .sphere 2 with hp
  set q : Prim := .cube ![-1, -1, -1] ![3, 3, 3] with hq
  obtain ⟨sz, k0, k1, k2, w0, w1, b0, b1, b2, t⟩ := pairOf_spec argsort p q .union
  have hm : (zRay 0).map (1 : Mat4)⁻¹ = zRay 0 := by simp [Ray.map]
  have hall : (Solid.node .union (.leaf p 1) (.leaf q 1)).All fun p w => (p.Valid ∧ Affine w) ∧ Sees p ((zRay 0).map w⁻¹) := by
    refine ⟨⟨⟨?_, affine_one⟩, ?_⟩, ⟨⟨trivial, affine_one⟩, ?_⟩⟩
    · trivial
    · rw [hm]; exact (zRay_good 0).ne
    · rw [hm]; exact (zRay_good 0).clear
  have hin : (Solid.node .union (.leaf p 1) (.leaf q 1)).Interior ((zRay 0).at 5) := by
    simp only [Solid.Interior, zRay_at]
    left
    refine ⟨_, one_mulVec _, ?_⟩
    simp [hp, Spec.Interior, point]
  have hout : (Solid.node .union (.leaf p 1) (.leaf q 1)).Outside ((zRay 0).at 0) := by
    simp only [Solid.Outside, zRay_at, one_mulVec]
    constructor
    · rintro x rfl; simp [hp, Spec.Closed, point]; norm_num
    · rintro x rfl hc
      have h2 : min (-1 : ℝ) 3 ≤ 0 - 5 := (hc 2).1
      norm_num at h2
  have hov : ∀ x k l r, Chain (pairOf argsort p q .union) 2 x k → ((pairOf argsort p q .union).obj x).kind = .csg .union l r →
      Overlap ((pairOf argsort p q .union).obj l).aobb ((pairOf argsort p q .union).obj r).aobb := by
    intro x k l r hc hk
    have hx : x = 0 ∨ x = 1 ∨ x = 2 := by
      clear hk
      induction hc with
      | refl => omega
      | left _ hk ih => rcases ih with rfl | rfl | rfl <;> simp_all
      | right _ hk ih => rcases ih with rfl | rfl | rfl <;> simp_all
    rcases hx with rfl | rfl | rfl
    · rw [k0] at hk; cases hk
    · rw [k1] at hk; cases hk
    · rw [k2] at hk; cases hk
      rw [b0, b1]
      intro i
      have e : ∀ i : Fin 3, p.boundSpans i = (-2, 2) ∧ q.boundSpans i = (-1, 3) := by
        intro i
        fin_cases i <;> simp [hp, hq, Prim.boundSpans, cubeSpans] <;> norm_num
      simp only [toBox, e i]
      refine ⟨?_, ?_, ?_, ?_⟩ <;> exact EReal.coe_lt_coe_iff.2 (by norm_num)
  have key := C04_tidy_partial argsort ha 2 _ (t 2) 2 (by omega) _ (pairOf_represents argsort p q .union) hov (zRay 0)
    (zRay_good 0) hall 2 (by simp [Solid.depth])
  exact ⟨_, _, t 2, sz, pairOf_represents argsort p q .union, hov, hall, by simp [Solid.depth], hin, hout, (key 5).1 hin, (key 0).2 hout⟩

/-! ### C61 -/

/-- **C61.** After any history, for a surface placed by any invertible matrix and a unit ray that the tolerance comparisons
do not misjudge: `intersect` reports two values, the smaller first; each finite one is the distance along the ray to a point
of the placed surface (in the solid, not in its interior), and every interior point of the solid on the ray lies
strictly between them. Missing from C61: rays in the tolerance bands of C09 and C10, where it is
false (`C61_C72_band_false`). -/
theorem C61_distances_partial (fuel : ℕ) (h : Heap) (hr : Reaches argsort fuel Heap.empty h) (a : ℕ) (hlt : a < h.size)
    (p : Prim) (hk : (h.obj a).kind = .prim p) (ray : Ray) (hunit : norm4 ray.d = 1)
    (hs : Sees p (ray.map (h.obj a).world⁻¹)) (depth : ℕ) :
    ∃ t1 t2 : EReal, (intersectObj argsort (depth + 1) h a ray).1 = [t1, t2] ∧ t1 ≤ t2 ∧
      (∀ t : ℝ, (t1 = t ∨ t2 = t) →
        (∃ x, (h.obj a).world *ᵥ x = ray.at t ∧ Closed p x ∧ ¬ Interior p x) ∧ norm4 (ray.at t - ray.o) = |t|) ∧
      (∀ (t : ℝ) (x : Vec4), (h.obj a).world *ᵥ x = ray.at t → Interior p x → t1 < t ∧ (t : EReal) < t2) := by
  obtain ⟨hdet, hobj, -⟩ := (reaches_inv argsort empty_inv hr).synced a hlt
  have hu : IsUnit (h.obj a).world.det := isUnit_iff_ne_zero.2 hdet
  have e : (intersectObj argsort (depth + 1) h a ray).1 =
      [(sort2 (p.intersect (ray.map (h.obj a).world⁻¹))).1, (sort2 (p.intersect (ray.map (h.obj a).world⁻¹))).2] := by
    simp only [intersectObj, hk, leafIntersect, hobj]
  refine ⟨_, _, e, sort2_le _, fun t ht => ⟨⟨(ray.map (h.obj a).world⁻¹).at t, ?_, ?_, ?_⟩, ?_⟩, fun t x hx hi => ?_⟩
  · rw [Ray.map_at, mulVec_mulVec, mul_nonsing_inv _ hu, one_mulVec]
  · refine prim_btw hs ?_
    have := sort2_le (p.intersect (ray.map (h.obj a).world⁻¹))
    rcases ht with ht | ht
    · exact ⟨ht.le, ht ▸ this⟩
    · exact ⟨ht ▸ this, ht.ge⟩
  · intro hi
    have := prim_sbtw hs hi
    rcases ht with ht | ht
    · exact absurd ht this.1.ne
    · exact absurd ht this.2.ne'
  · have : ray.at t - ray.o = t • ray.d := by
      funext i; simp [Ray.at]
    rw [this]
    unfold norm4 at hunit ⊢
    have e2 : (t • ray.d) 0 ^ 2 + (t • ray.d) 1 ^ 2 + (t • ray.d) 2 ^ 2 + (t • ray.d) 3 ^ 2 =
        t ^ 2 * (ray.d 0 ^ 2 + ray.d 1 ^ 2 + ray.d 2 ^ 2 + ray.d 3 ^ 2) := by
      simp only [Pi.smul_apply, smul_eq_mul]; ring
    rw [e2, Real.sqrt_mul (sq_nonneg t), hunit, mul_one, Real.sqrt_sq_eq_abs]
  · have ex : x = (ray.map (h.obj a).world⁻¹).at t := by
      rw [Ray.map_at, ← hx, mulVec_mulVec, nonsing_inv_mul _ hu, one_mulVec]
    rw [ex] at hi
    exact prim_sbtw hs hi

/-- non-vacuity of C61: a sphere of radius 2 at the origin, seen along the z axis. -/
example : ∃ h, Reaches argsort 2 Heap.empty h ∧ (h.obj 0).kind = .prim (.sphere 2) ∧ norm4 (zRay 0).d = 1 ∧
    Sees (.sphere 2) ((zRay 0).map (h.obj 0).world⁻¹) ∧
    ∃ x, (h.obj 0).world *ᵥ x = (zRay 0).at 5 ∧ Interior (.sphere 2) x := by
  obtain ⟨sz, k0, k1, k2, w0, w1, b0, b1, b2, t⟩ := pairOf_spec argsort (.sphere 2) (.sphere 1) .union
  refine ⟨_, TidyReaches.reaches argsort (t 2), k0, by simp [norm4, zRay, vector], ?_, (zRay 0).at 5, ?_, ?_⟩
  · rw [w0, show (zRay 0).map (1 : Mat4)⁻¹ = zRay 0 by simp [Ray.map]]; exact (zRay_good 0).ne
  · rw [w0, one_mulVec]
  · rw [zRay_at]; simp [Interior, point]

end PyRayT
