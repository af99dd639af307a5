import Verif.Props.Solid
import Verif.Props.CsgArray

/-!
# Property C64: every hit lies on the boundary of the solid

C04 says how many hits lie before a point of a ray. Here: where the hits themselves are.
-/

namespace PyRayT

open Classical Matrix Spec

variable (argsort : List EReal → List ℕ)

theorem sort2_mem_btw {h : EReal × EReal} {t : ℝ} (hm : (t : EReal) ∈ [(sort2 h).1, (sort2 h).2]) :
    Btw (sort2 h) t ∧ ¬ SBtw (sort2 h) t := by
  have hle := sort2_le h
  simp only [List.mem_cons, List.not_mem_nil, or_false] at hm
  unfold Btw SBtw
  rcases hm with e | e
  · rw [e]; exact ⟨⟨le_refl _, hle⟩, fun h => lt_irrefl _ h.1⟩
  · rw [e]; exact ⟨⟨hle, le_refl _⟩, fun h => lt_irrefl _ h.2⟩

theorem leaf_boundary {w : Mat4} (hw : w.det ≠ 0) {p : Prim} {ray : Ray} (hs : Spec.Sees p (ray.map w⁻¹)) (oid : ℕ) (t : ℝ)
    (hm : (t : EReal) ∈ (leafIntersect w⁻¹ oid p ray).1) :
    ¬ (Solid.leaf p w).Interior (ray.at t) ∧ ¬ (Solid.leaf p w).Outside (ray.at t) := by
  have hu : IsUnit w.det := isUnit_iff_ne_zero.2 hw
  have hinv : w *ᵥ ((ray.map w⁻¹).at t) = ray.at t := by
    rw [Ray.map_at, mulVec_mulVec, mul_nonsing_inv _ hu, one_mulVec]
  obtain ⟨h1, h2⟩ := sort2_mem_btw hm
  constructor
  · rintro ⟨x, hx, hxi⟩
    have e : x = (ray.map w⁻¹).at t := by
      rw [Ray.map_at, ← hx, mulVec_mulVec, nonsing_inv_mul _ hu, one_mulVec]
    rw [e] at hxi
    exact h2 (prim_sbtw hs hxi)
  · intro ho
    simp only [Solid.Outside] at ho
    exact ho _ hinv (prim_btw hs h1)

theorem mem_csgCombine {ι : Type*} (ha : IsArgsort argsort) (n : ι) (op : Operation) (l : List EReal) (ls : List ι)
    (r : List EReal) (rs : List ι) (v : EReal) : v ∈ (csgCombine argsort n op l ls r rs).1 ↔ v ∈ arrayCsg argsort l r op := by
  rw [(csgCombine_perm argsort ha n op l ls r rs).mem_iff, arrayCsg, (List.perm_insertionSort _ _).mem_iff]

theorem mem_arrayCsg (ha : IsArgsort argsort) {l r : List EReal} {op : Operation} {v : EReal} (hv : v ≠ ⊤)
    (hm : v ∈ arrayCsg argsort l r op) : v ∈ l ∨ v ∈ r := by
  obtain ⟨-, -, k, hk, e⟩ := C02_arrayCsg_shape argsort ha l r op
  rw [e] at hm
  rcases List.mem_append.1 hm with h | h
  · exact List.mem_append.1 (hk.subset h)
  · exact absurd (List.eq_of_mem_replicate h) hv

theorem intersectObj_boundary (ha : IsStableArgsort argsort) {h : Heap} {a : ℕ} {s : Solid} (hr : Represents h a s) {ray : Ray}
    (hray : GoodRay ray) (hg : s.All fun p w => (p.Valid ∧ Affine w) ∧ Spec.Sees p (ray.map w⁻¹))
    (hb : BoxesOk argsort h a)
    (hs : ∀ x p, Under h a x → (h.obj x).kind = .prim p → (h.obj x).objT = (h.obj x).world⁻¹) :
    ∀ fuel, s.depth ≤ fuel → ∀ t : ℝ, (t : EReal) ∈ (intersectObj argsort fuel h a ray).1 →
    ¬ s.Interior (ray.at t) ∧ ¬ s.Outside (ray.at t) := by
  induction hr with
  | @leaf a p hk =>
    intro fuel hf t
    obtain ⟨fuel, rfl⟩ : ∃ n, fuel = n + 1 := ⟨fuel - 1, by simp [Solid.depth] at hf; omega⟩
    have e : intersectObj argsort (fuel + 1) h a ray = leafIntersect (h.obj a).world⁻¹ (h.obj a).oid p ray := by
      rw [intersectObj, hk]
      simp only
      rw [hs a p .refl hk]
    rw [e]
    exact leaf_boundary hg.1.2.2 hg.2 _ t
  | @node a l r op sl sr hk hl hr ihl ihr =>
    intro fuel hf t
    obtain ⟨fuel, rfl⟩ : ∃ n, fuel = n + 1 := ⟨fuel - 1, by simp [Solid.depth] at hf; omega⟩
    have dl : sl.depth ≤ fuel := by simp [Solid.depth] at hf; omega
    have dr : sr.depth ≤ fuel := by simp [Solid.depth] at hf; omega
    have pl : IsParent h a l := ⟨op, l, r, hk, Or.inl rfl⟩
    have pr : IsParent h a r := ⟨op, l, r, hk, Or.inr rfl⟩
    have bl := hb.child argsort pl
    have br := hb.child argsort pr
    have hsl := fun x p (hu : Under h l x) => hs x p (Under.trans (.step .refl pl) hu)
    have hsr := fun x p (hu : Under h r x) => hs x p (Under.trans (.step .refl pr) hu)
    have kl := ihl hg.1 bl hsl fuel dl t
    have kr := ihr hg.2 br hsr fuel dr t
    have il := intersectObj_inside argsort ha.1 hl hray hg.1 bl hsl fuel dl t
    have ir := intersectObj_inside argsort ha.1 hr hray hg.2 br hsr fuel dr t
    have sl' := intersectObj_shape argsort ha.1 h ray fuel l
    have sr' := intersectObj_shape argsort ha.1 h ray fuel r
    simp only at sl' sr'
    rw [intersectObj, hk]
    simp only
    split
    · rw [mem_csgCombine argsort ha.1]
      intro hm
      have ht : (t : EReal) ≠ ⊤ := EReal.coe_ne_top t
      have hmem := mem_arrayCsg argsort ha.1 ht hm
      -- a point strictly inside or outside an operand is not a hit of it
      have nl : sl.Interior (ray.at t) ∨ sl.Outside (ray.at t) → (t : EReal) ∉ (intersectObj argsort fuel h l ray).1 :=
        fun hh hc => hh.elim (kl hc).1 (kl hc).2
      have nr : sr.Interior (ray.at t) ∨ sr.Outside (ray.at t) → (t : EReal) ∉ (intersectObj argsort fuel h r ray).1 :=
        fun hh hc => hh.elim (kr hc).1 (kr hc).2
      have c1 : (t : EReal) ∉ (intersectObj argsort fuel h l ray).1 → keepsRight op (InsideAt (intersectObj argsort fuel h l ray).1 t) :=
        fun hn => by_contra fun hk => (C03_right_crossings argsort ha _ _ op sl'.1 sr'.1 sl'.2.1 sr'.2.1 _ ht hn).2 hk hm
      have c2 : (t : EReal) ∉ (intersectObj argsort fuel h r ray).1 → keepsLeft op (InsideAt (intersectObj argsort fuel h r ray).1 t) :=
        fun hn => by_contra fun hk => (C03_left_crossings argsort ha _ _ op sl'.1 sr'.1 sl'.2.1 sr'.2.1 _ ht hn).2 hk hm
      cases op with
      | union =>
        simp only [Solid.Interior, Solid.Outside, keepsLeft, keepsRight] at c1 c2 ⊢
        refine ⟨?_, fun ho => hmem.elim (nl (.inr ho.1)) (nr (.inr ho.2))⟩
        rintro (hi | hi)
        · exact c1 (nl (.inl hi)) (il.1 hi)
        · exact c2 (nr (.inl hi)) (ir.1 hi)
      | intersect =>
        simp only [Solid.Interior, Solid.Outside, keepsLeft, keepsRight] at c1 c2 ⊢
        refine ⟨fun hi => hmem.elim (nl (.inl hi.1)) (nr (.inl hi.2)), ?_⟩
        rintro (ho | ho)
        · exact il.2 ho (c1 (nl (.inr ho)))
        · exact ir.2 ho (c2 (nr (.inr ho)))
      | difference =>
        simp only [Solid.Interior, Solid.Outside, keepsLeft, keepsRight] at c1 c2 ⊢
        refine ⟨fun hi => hmem.elim (nl (.inl hi.1)) (nr (.inr hi.2)), ?_⟩
        rintro (ho | ho)
        · exact il.2 ho (c1 (nl (.inr ho)))
        · exact c2 (nr (.inl ho)) (ir.1 ho)
    · intro hm
      exact absurd (List.eq_of_mem_replicate hm) (EReal.coe_ne_top t)

/-- **C64.** In the situation of C04 and with an argsort that keeps equal values in order: no finite hit of a composite (of any
depth) is strictly inside or strictly outside the boolean combination; every hit is on its boundary. Missing from C64: as in C04;
for unions of separated parts it is false (`C64_separated_false`). -/
theorem C64_boundary_partial (ha : IsStableArgsort argsort) (fuel : ℕ) (h : Heap) (hr : Reaches argsort fuel Heap.empty h)
    (a : ℕ) (hlt : a < h.size) (s : Solid) (hrep : Represents h a s)
    (hbox : ∀ x k op l r, Chain h a x k → (h.obj x).kind = .csg op l r →
      (h.obj x).aobb = ((newCsg argsort h op l r).obj h.size).aobb)
    (hov : ∀ x k l r, Chain h a x k → (h.obj x).kind = .csg .union l r → Overlap (h.obj l).aobb (h.obj r).aobb)
    (ray : Ray) (hray : GoodRay ray) (hleaf : s.All fun p w => (p.Valid ∧ Affine w) ∧ Sees p (ray.map w⁻¹))
    (depth : ℕ) (hd : s.depth ≤ depth) (t : ℝ) (hm : (t : EReal) ∈ (intersectObj argsort depth h a ray).1) :
    ¬ s.Interior (ray.at t) ∧ ¬ s.Outside (ray.at t) := by
  have hi := reaches_inv argsort empty_inv hr
  exact intersectObj_boundary argsort ha hrep hray hleaf (boxesOk_of argsort hr hlt hbox hov)
    (fun x p hu _ => (hi.synced x (lt_of_le_of_lt (hu.le hi.toStruct hlt) hlt)).2.1) depth hd t hm

/-- **C64** for composites built from parts that are not used elsewhere -/
theorem C64_tidy_partial (ha : IsStableArgsort argsort) (fuel : ℕ) (h : Heap) (hr : TidyReaches argsort fuel Heap.empty h)
    (a : ℕ) (hlt : a < h.size) (s : Solid) (hrep : Represents h a s)
    (hov : ∀ x k l r, Chain h a x k → (h.obj x).kind = .csg .union l r → Overlap (h.obj l).aobb (h.obj r).aobb)
    (ray : Ray) (hray : GoodRay ray) (hleaf : s.All fun p w => (p.Valid ∧ Affine w) ∧ Sees p (ray.map w⁻¹))
    (depth : ℕ) (hd : s.depth ≤ depth) (t : ℝ) (hm : (t : EReal) ∈ (intersectObj argsort depth h a ray).1) :
    ¬ s.Interior (ray.at t) ∧ ¬ s.Outside (ray.at t) := by
  have hre := TidyReaches.reaches argsort hr
  have hi := reaches_inv argsort empty_inv hre
  refine C64_boundary_partial argsort ha fuel h hre a hlt s hrep (fun x k op l r hc hk => ?_) hov ray hray hleaf depth hd t hm
  have hu : Under h a x := by
    clear hk
    induction hc with
    | refl => exact .refl
    | left _ hk ih => exact .step ih ⟨_, _, _, hk, Or.inl rfl⟩
    | right _ hk ih => exact .step ih ⟨_, _, _, hk, Or.inr rfl⟩
  exact C19_tidy_partial argsort fuel h hr x (lt_of_le_of_lt (hu.le hi.toStruct hlt) hlt) op l r hk

/-- between two points of a ray that the parities tell apart there is a hit -/
theorem crossing_hit {hits : List EReal} {t t' : ℝ} (hlt : t < t') (hne : ¬ (InsideAt hits t ↔ InsideAt hits t')) :
    ∃ v : ℝ, (v : EReal) ∈ hits ∧ t ≤ v ∧ v < t' := by
  by_contra hc
  push Not at hc
  apply hne
  unfold InsideAt
  have : hits.countP (fun h => decide (h < (t : EReal))) = hits.countP (fun h => decide (h < (t' : EReal))) := by
    apply List.countP_congr
    intro v hv
    simp only [decide_eq_true_eq]
    constructor
    · intro h
      exact h.trans (EReal.coe_lt_coe_iff.2 hlt)
    · intro h
      by_contra hn
      rw [not_lt] at hn
      induction v using EReal.rec with
      | bot => exact absurd hn (not_le.2 (EReal.bot_lt_coe t))
      | top => exact absurd h (not_lt.2 le_top)
      | coe v =>
        exact absurd (EReal.coe_lt_coe_iff.1 h) (not_lt.2 (hc v hv (EReal.coe_le_coe_iff.1 hn)))
  rw [this]

/-- **C64 (no boundary is missed).** In the situation of C04: if one of two points of a ray is strictly inside the boolean
combination and the other strictly outside, a hit is reported between them. -/
theorem C64_crossing_partial (ha : IsArgsort argsort) (fuel : ℕ) (h : Heap) (hr : TidyReaches argsort fuel Heap.empty h)
    (a : ℕ) (hlt : a < h.size) (s : Solid) (hrep : Represents h a s)
    (hov : ∀ x k l r, Chain h a x k → (h.obj x).kind = .csg .union l r → Overlap (h.obj l).aobb (h.obj r).aobb)
    (ray : Ray) (hray : GoodRay ray) (hleaf : s.All fun p w => (p.Valid ∧ Affine w) ∧ Sees p (ray.map w⁻¹))
    (depth : ℕ) (hd : s.depth ≤ depth) (t t' : ℝ) (htt : t < t')
    (hio : (s.Interior (ray.at t) ∧ s.Outside (ray.at t')) ∨ (s.Outside (ray.at t) ∧ s.Interior (ray.at t'))) :
    ∃ v : ℝ, (v : EReal) ∈ (intersectObj argsort depth h a ray).1 ∧ t ≤ v ∧ v < t' := by
  have k := C04_tidy_partial argsort ha fuel h hr a hlt s hrep hov ray hray hleaf depth hd
  refine crossing_hit htt ?_
  rcases hio with ⟨h1, h2⟩ | ⟨h1, h2⟩
  · exact fun e => (k t').2 h2 (e.1 ((k t).1 h1))
  · exact fun e => (k t).2 h1 (e.2 ((k t').1 h2))

/-- non-vacuity of C64: the union of a sphere and a cube and the z axis of the example above; there is a hit, and it is on the
boundary. -/
example (ha : IsStableArgsort argsort) : ∃ (h : Heap) (s : Solid) (v : ℝ), TidyReaches argsort 2 Heap.empty h ∧ Represents h 2 s ∧
    (v : EReal) ∈ (intersectObj argsort 2 h 2 (zRay 0)).1 ∧ ¬ s.Interior ((zRay 0).at v) ∧ ¬ s.Outside ((zRay 0).at v) := by
  obtain ⟨h, s, t, sz, hrep, hov, hall, hd, hin, hout, -⟩ := sphere_cube_union argsort ha.1
  obtain ⟨v, hv, -⟩ := C64_crossing_partial argsort ha.1 2 h t 2 (by omega) s hrep hov (zRay 0) (zRay_good 0) hall 2 hd.le 0 5
    (by norm_num) (.inr ⟨hout, hin⟩)
  exact ⟨h, s, v, t, hrep, hv, C64_tidy_partial argsort ha 2 h t 2 (by omega) s hrep hov (zRay 0) (zRay_good 0) hall 2 hd.le v hv⟩

end PyRayT
