import Verif.Proofs.PrimAll
import Verif.Proofs.CsgHeap2
import Verif.Proofs.CsgBox
import Verif.Proofs.CsgStable
import Verif.Spec.Parity

/-! Ray / composite intersection, by induction over the tree. -/

namespace PyRayT

open Classical Matrix Spec

variable (argsort : List EReal → List ℕ)

theorem insideAt_pair {a b t : EReal} (hab : a ≤ b) : InsideAt [a, b] t ↔ a < t ∧ t ≤ b := by
  unfold InsideAt
  by_cases h1 : a < t <;> by_cases h2 : b < t
  · simp [List.countP_cons, h1, h2, not_le.2 h2]
  · simp [List.countP_cons, h1, h2, not_lt.1 h2]
  · exact absurd (lt_of_le_of_lt hab h2) h1
  · simp [List.countP_cons, h1, h2]

theorem insideAt_replicate_top (n : ℕ) (t : EReal) : ¬ InsideAt (List.replicate n ⊤) t := by
  unfold InsideAt
  rw [List.countP_replicate]
  simp

theorem csgCombine_perm {ι : Type*} (ha : IsArgsort argsort) (n : ι) (op : Operation) (l : List EReal) (ls : List ι)
    (r : List EReal) (rs : List ι) :
    (csgCombine argsort n op l ls r rs).1.Perm (arrayCsgUnsorted argsort l r op) := by
  unfold csgCombine
  exact gather_perm _ _ (ha _).1

theorem csgCombine_sorted {ι : Type*} (ha : IsArgsort argsort) (n : ι) (op : Operation) (l : List EReal) (ls : List ι)
    (r : List EReal) (rs : List ι) : (csgCombine argsort n op l ls r rs).1.Pairwise (· ≤ ·) := by
  unfold csgCombine
  exact (ha _).2

theorem csgCombine_length {ι : Type*} (ha : IsArgsort argsort) (n : ι) (op : Operation) (l : List EReal) (ls : List ι)
    (r : List EReal) (rs : List ι) :
    (csgCombine argsort n op l ls r rs).1.length = l.length + r.length ∧
    (csgCombine argsort n op l ls r rs).2.length = l.length + r.length := by
  have e := arrayCsgUnsorted_length argsort ha l r op
  constructor
  · rw [(csgCombine_perm argsort ha n op l ls r rs).length_eq, e]
  · unfold csgCombine
    simp only [gather, List.length_map]
    rw [(ha _).1.length_eq, List.length_range, e]

theorem csgCombine_inside {ι : Type*} (ha : IsArgsort argsort) (n : ι) (op : Operation) (l : List EReal) (ls : List ι)
    (r : List EReal) (rs : List ι) (hl : l.Pairwise (· ≤ ·)) (hr : r.Pairwise (· ≤ ·)) (hle : Even l.length)
    (hre : Even r.length) (t : EReal) :
    InsideAt (csgCombine argsort n op l ls r rs).1 t ↔ op.holds (InsideAt l t) (InsideAt r t) := by
  unfold InsideAt
  rw [(csgCombine_perm argsort ha n op l ls r rs).countP_eq]
  exact countP_arrayCsgUnsorted argsort ha l r op hle hre hl hr _ (lowerPred_lt t)

/-- shape of the result: sorted hits, an even number of them, one id per hit -/
theorem intersectObj_shape (ha : IsArgsort argsort) (h : Heap) (ray : Ray) : ∀ (fuel a : ℕ),
    let x := intersectObj argsort fuel h a ray
    x.1.Pairwise (· ≤ ·) ∧ Even x.1.length ∧ x.2.length = x.1.length := by
  intro fuel
  induction fuel with
  | zero => intro a; simp [intersectObj]
  | succ fuel ih =>
    intro a
    unfold intersectObj
    split
    · simp only [leafIntersect]
      refine ⟨?_, by simp, rfl⟩
      simpa using sort2_le _
    · rename_i op l r hk
      obtain ⟨hl1, hl2, hl3⟩ := ih l
      obtain ⟨hr1, hr2, hr3⟩ := ih r
      simp only
      split
      · refine ⟨csgCombine_sorted argsort ha _ _ _ _ _ _, ?_, ?_⟩
        · rw [(csgCombine_length argsort ha _ _ _ _ _ _).1]; exact hl2.add hr2
        · rw [(csgCombine_length argsort ha _ _ _ _ _ _).1, (csgCombine_length argsort ha _ _ _ _ _ _).2]
      · refine ⟨List.pairwise_replicate.2 (Or.inr le_rfl), ?_, by simp⟩
        simpa using hl2.add hr2
    · simp

theorem Ray.map_at (m : Mat4) (r : Ray) (t : ℝ) : (r.map m).at t = m *ᵥ r.at t := by
  have : r.at t = r.o + t • r.d := rfl
  rw [this, mulVec_add, mulVec_smul]
  rfl

/-- the hits of a placed primitive delimit the placed solid -/
theorem leaf_inside {w : Mat4} (hw : w.det ≠ 0) {p : Prim} {ray : Ray} (hs : Spec.Sees p (ray.map w⁻¹)) (oid : ℕ) (t : ℝ) :
    ((Solid.leaf p w).Interior (ray.at t) → InsideAt (leafIntersect w⁻¹ oid p ray).1 t) ∧
    ((Solid.leaf p w).Outside (ray.at t) → ¬ InsideAt (leafIntersect w⁻¹ oid p ray).1 t) := by
  have hu : IsUnit w.det := isUnit_iff_ne_zero.2 hw
  have hinv : w *ᵥ ((ray.map w⁻¹).at t) = ray.at t := by
    rw [Ray.map_at, mulVec_mulVec, mul_nonsing_inv _ hu, one_mulVec]
  simp only [leafIntersect]
  rw [insideAt_pair (sort2_le _)]
  constructor
  · intro hi
    simp only [Solid.Interior] at hi
    obtain ⟨x, hx, hxi⟩ := hi
    have e : x = (ray.map w⁻¹).at t := by
      rw [Ray.map_at, ← hx, mulVec_mulVec, nonsing_inv_mul _ hu, one_mulVec]
    rw [e] at hxi
    have := prim_sbtw hs hxi
    exact ⟨this.1, this.2.le⟩
  · intro ho hc
    simp only [Solid.Outside] at ho
    exact ho _ hinv (prim_btw hs ⟨hc.1.le, hc.2⟩)

/-! ### bounding boxes of composites -/

/-- the box contains the point strictly -/
def Inner (b : Box) (q : Vec4) : Prop :=
  ∀ i : Fin 3, (b i).1 < (q i.castSucc : EReal) ∧ (q i.castSucc : EReal) < (b i).2

theorem Inner.overlap {l r : Box} {q : Vec4} (hl : Inner l q) (hr : Inner r q) : Overlap l r := fun i =>
  ⟨(hl i).1.trans (hl i).2, (hr i).1.trans (hr i).2, (hl i).1.trans (hr i).2, (hr i).1.trans (hl i).2⟩

/-- no bound is `-inf` -/
def NoBot (b : Box) : Prop := ∀ i, (b i).1 ≠ ⊥ ∧ (b i).2 ≠ ⊥

theorem primBox_noBot (w : Mat4) (p : Prim) : NoBot (primBox w p) := by
  intro i
  have h1 := primBox_finite w p i
  refine ⟨h1.1, fun hc => h1.1 ?_⟩
  have : (primBox w p i).1 ≤ (primBox w p i).2 := sort2_le _
  rw [hc] at this
  exact le_bot_iff.1 this

theorem arrayCsg_getD_ne_bot (ha : IsArgsort argsort) {l r : List EReal} (hl : ∀ x ∈ l, x ≠ ⊥) (hr : ∀ x ∈ r, x ≠ ⊥)
    (op : Operation) (i : ℕ) : (arrayCsg argsort l r op).getD i ⊤ ≠ ⊥ := by
  obtain ⟨k, hk, e⟩ := arrayCsg_shape argsort ha l r op
  rw [e]
  have hmem : ∀ x ∈ k ++ List.replicate (l.length + r.length - k.length) ⊤, x ≠ (⊥ : EReal) := by
    intro x hx
    rcases List.mem_append.1 hx with hx | hx
    · rcases List.mem_append.1 (hk.subset hx) with hx | hx
      · exact hl x hx
      · exact hr x hx
    · rw [List.eq_of_mem_replicate hx]; simp
  rw [List.getD_eq_getElem?_getD]
  cases hc : (k ++ List.replicate (l.length + r.length - k.length) ⊤)[i]? with
  | none => simp
  | some v => exact hmem v (List.mem_of_getElem? hc)

theorem csgBox_noBot (ha : IsArgsort argsort) {l r : Box} (hl : NoBot l) (hr : NoBot r) (op : Operation) :
    NoBot (csgBox argsort op l r) := by
  have key : ∀ op i, let spans := arrayCsg argsort [(l i).1, (l i).2] [(r i).1, (r i).2] op
      (sort2 (spans.getD 0 ⊤, spans.getD 1 ⊤)).1 ≠ ⊥ ∧ (sort2 (spans.getD 0 ⊤, spans.getD 1 ⊤)).2 ≠ ⊥ := by
    intro op i
    have h1 : ∀ x ∈ [(l i).1, (l i).2], x ≠ (⊥ : EReal) := by simp [hl i]
    have h2 : ∀ x ∈ [(r i).1, (r i).2], x ≠ (⊥ : EReal) := by simp [hr i]
    have a0 := arrayCsg_getD_ne_bot argsort ha h1 h2 op 0
    have a1 := arrayCsg_getD_ne_bot argsort ha h1 h2 op 1
    simp only [sort2, ne_eq, min_eq_bot, max_eq_bot, not_or]
    exact ⟨⟨a0, a1⟩, fun hc => a0 hc.1⟩
  cases op with
  | difference => exact hl
  | union => exact key .union
  | intersect => exact key .intersect

/-- The boxes of everything below an object are up to date (leaves: C18, composites: C19), and the boxes of the two
operands of every union overlap. -/
structure BoxesOk (h : Heap) (a : ℕ) : Prop where
  leaf : ∀ x p, Under h a x → (h.obj x).kind = .prim p → (h.obj x).aobb = primBox (h.obj x).world p
  node : ∀ x, Under h a x → Fresh argsort h x
  over : ∀ x l r, Under h a x → (h.obj x).kind = .csg .union l r → Overlap (h.obj l).aobb (h.obj r).aobb

theorem BoxesOk.child {h : Heap} {a c : ℕ} (hb : BoxesOk argsort h a) (hc : IsParent h a c) : BoxesOk argsort h c where
  leaf x p hu := hb.leaf x p (Under.trans (.step .refl hc) hu)
  node x hu := hb.node x (Under.trans (.step .refl hc) hu)
  over x l r hu := hb.over x l r (Under.trans (.step .refl hc) hu)

theorem aobb_noBot (ha : IsArgsort argsort) {h : Heap} {a : ℕ} {s : Solid} (hr : Represents h a s)
    (hb : BoxesOk argsort h a) : NoBot (h.obj a).aobb := by
  induction hr with
  | @leaf a p hk => rw [hb.leaf a p .refl hk]; exact primBox_noBot _ _
  | @node a l r op sl sr hk hl hr ihl ihr =>
    rw [hb.node a .refl op l r hk]
    exact csgBox_noBot argsort ha (ihl (hb.child argsort ⟨op, l, r, hk, Or.inl rfl⟩))
      (ihr (hb.child argsort ⟨op, l, r, hk, Or.inr rfl⟩)) op

theorem interior_inner (ha : IsArgsort argsort) {h : Heap} {a : ℕ} {s : Solid} (hr : Represents h a s) {q : Vec4} (hq : q 3 = 1)
    (hg : s.All fun p w => p.Valid ∧ Affine w) (hb : BoxesOk argsort h a) (hi : s.Interior q) : Inner (h.obj a).aobb q := by
  induction hr with
  | @leaf a p hk =>
    simp only [Solid.Interior] at hi
    obtain ⟨x, hx, hxi⟩ := hi
    intro i
    rw [hb.leaf a p .refl hk]
    have x3 : x 3 = 1 := by rw [← affine_three hg.2 x, hx, hq]
    have h1 := interior_in_box hg.1 hg.2 x3 hxi i
    rw [hx] at h1
    exact h1
  | @node a l r op sl sr hk hl hr ihl ihr =>
    have hf := hb.node a .refl op l r hk
    have bl := hb.child argsort (c := l) ⟨op, l, r, hk, Or.inl rfl⟩
    have br := hb.child argsort (c := r) ⟨op, l, r, hk, Or.inr rfl⟩
    cases op with
    | union =>
      have ho := hb.over a l r .refl hk
      simp only [Solid.Interior] at hi
      intro i
      obtain ⟨h1, h2, h3, h4⟩ := ho i
      rw [hf, (csgBox_overlap ha _ _ i h1 h2 h3 h4).1]
      rcases hi with hi | hi
      · have := ihl hg.1 bl hi i
        exact ⟨lt_of_le_of_lt (min_le_left _ _) this.1, lt_of_lt_of_le this.2 (le_max_left _ _)⟩
      · have := ihr hg.2 br hi i
        exact ⟨lt_of_le_of_lt (min_le_right _ _) this.1, lt_of_lt_of_le this.2 (le_max_right _ _)⟩
    | intersect =>
      simp only [Solid.Interior] at hi
      have il := ihl hg.1 bl hi.1
      have ir := ihr hg.2 br hi.2
      intro i
      obtain ⟨h1, h2, h3, h4⟩ := il.overlap ir i
      rw [hf, (csgBox_overlap ha _ _ i h1 h2 h3 h4).2]
      exact ⟨max_lt (il i).1 (ir i).1, lt_min (il i).2 (ir i).2⟩
    | difference =>
      simp only [Solid.Interior] at hi
      rw [hf]
      exact ihl hg.1 bl hi.1

theorem ereal_sub_real_mul_ne {x : EReal} (h1 : x ≠ ⊥) (h2 : x ≠ ⊤) (o c : ℝ) :
    (x - (o : EReal)) * (c : EReal) ≠ ⊥ ∧ (x - (o : EReal)) * (c : EReal) ≠ ⊤ := by
  induction x with
  | bot => exact absurd rfl h1
  | top => exact absurd rfl h2
  | coe x =>
    rw [← EReal.coe_sub, ← EReal.coe_mul]
    exact ⟨EReal.coe_ne_bot _, EReal.coe_ne_top _⟩

/-- a ray through a point strictly inside the box passes the culling test -/
theorem inner_passes {b : Box} {ray : Ray} {t : ℝ} (hb : NoBot b) (hi : Inner b (ray.at t)) (hd : ClearDir ray)
    (hne : ray.d 0 ≠ 0 ∨ ray.d 1 ≠ 0 ∨ ray.d 2 ≠ 0) : boxPasses b ray := by
  have hin : InBoxS b (ray.at t) := ⟨hi 0, hi 1, hi 2⟩
  have hs := boxRaw_sbtw hd t hin
  have e : boxIntersect b ray = boxRaw b ray := by rw [boxIntersect_eq, if_pos (hs.1.trans hs.2)]
  -- an axis along which the ray moves
  have key : ∃ j : Fin 3, ray.d j.castSucc ≠ 0 := by
    rcases hne with h | h | h
    · exact ⟨0, h⟩
    · exact ⟨1, h⟩
    · exact ⟨2, h⟩
  obtain ⟨j, hj⟩ := key
  have hc : ¬ isclose0 (ray.d j.castSucc) := by
    have hcl : Clear (ray.d j.castSucc) := by
      fin_cases j
      · exact hd.1
      · exact hd.2.1
      · exact hd.2.2
    rw [hcl.isclose0_iff]; exact hj
  have hval : (slab (b j) (ray.o j.castSucc) (ray.d j.castSucc)) =
      sort2 (((b j).1 - (ray.o j.castSucc : EReal)) * (((ray.d j.castSucc)⁻¹ : ℝ) : EReal),
        ((b j).2 - (ray.o j.castSucc : EReal)) * (((ray.d j.castSucc)⁻¹ : ℝ) : EReal)) := by
    simp only [slab, hc, not_false_eq_true, if_true, addMask_False]
  have hfin := ereal_sub_real_mul_ne (hb j).1 (ne_of_lt ((hi j).1.trans (EReal.coe_lt_top _))) (ray.o j.castSucc)
    ((ray.d j.castSucc)⁻¹)
  have hor : (slab (b j) (ray.o j.castSucc) (ray.d j.castSucc)).1 ≠ ⊥ ∨
      (slab (b j) (ray.o j.castSucc) (ray.d j.castSucc)).2 ≠ ⊤ := by
    rw [hval]
    simp only [sort2]
    by_contra hcon
    push Not at hcon
    obtain ⟨c1, c2⟩ := hcon
    rcases min_eq_bot.1 c1 with c | c
    · exact hfin.1 c
    · rcases max_eq_top.1 c2 with c' | c'
      · exact hfin.2 c'
      · rw [c] at c'; exact absurd c' bot_ne_top
  have hle1 : (slab (b j) (ray.o j.castSucc) (ray.d j.castSucc)).1 ≤ (boxRaw b ray).1 := by
    simp only [boxRaw]
    fin_cases j
    · exact (le_max_left _ _).trans (le_max_left _ _)
    · exact (le_max_right _ _).trans (le_max_left _ _)
    · exact le_max_right _ _
  have hle2 : (boxRaw b ray).2 ≤ (slab (b j) (ray.o j.castSucc) (ray.d j.castSucc)).2 := by
    simp only [boxRaw]
    fin_cases j
    · exact (min_le_left _ _).trans (min_le_left _ _)
    · exact (min_le_left _ _).trans (min_le_right _ _)
    · exact min_le_right _ _
  unfold boxPasses
  simp only [e]
  rcases hor with h | h
  · left
    refine ⟨ne_of_lt (hs.1.trans (EReal.coe_lt_top _)), fun hc => h ?_⟩
    rw [hc] at hle1; exact le_bot_iff.1 hle1
  · right
    refine ⟨fun hc => h ?_, ne_of_gt ((EReal.bot_lt_coe _).trans hs.2)⟩
    rw [hc] at hle2; exact top_le_iff.1 hle2

/-- a ray with ordinary homogeneous coordinates whose direction components are zero or above tolerance, not all zero -/
structure GoodRay (ray : Ray) : Prop where
  o3 : ray.o 3 = 1
  d3 : ray.d 3 = 0
  clear : ClearDir ray
  ne : ray.d 0 ≠ 0 ∨ ray.d 1 ≠ 0 ∨ ray.d 2 ≠ 0

theorem GoodRay.at3 {ray : Ray} (h : GoodRay ray) (t : ℝ) : ray.at t 3 = 1 := by
  simp [Ray.at, h.o3, h.d3]

theorem interior_passes (ha : IsArgsort argsort) {h : Heap} {a : ℕ} {s : Solid} (hr : Represents h a s) {ray : Ray}
    (hray : GoodRay ray) (hg : s.All fun p w => p.Valid ∧ Affine w) (hb : BoxesOk argsort h a) {t : ℝ}
    (hi : s.Interior (ray.at t)) : boxPasses (h.obj a).aobb ray :=
  inner_passes (aobb_noBot argsort ha hr hb) (interior_inner argsort ha hr (hray.at3 t) hg hb hi) hray.clear hray.ne

theorem Solid.All.imp {P Q : Prim → Mat4 → Prop} (hpq : ∀ p w, P p w → Q p w) {s : Solid} (h : s.All P) : s.All Q := by
  induction s with
  | leaf p w => exact hpq p w h
  | node op l r ihl ihr => exact ⟨ihl h.1, ihr h.2⟩

/-- the main induction -/
theorem intersectObj_inside (ha : IsArgsort argsort) {h : Heap} {a : ℕ} {s : Solid} (hr : Represents h a s) {ray : Ray}
    (hray : GoodRay ray) (hg : s.All fun p w => (p.Valid ∧ Affine w) ∧ Spec.Sees p (ray.map w⁻¹))
    (hb : BoxesOk argsort h a)
    (hs : ∀ x p, Under h a x → (h.obj x).kind = .prim p → (h.obj x).objT = (h.obj x).world⁻¹) :
    ∀ fuel, s.depth ≤ fuel → ∀ t : ℝ,
    (s.Interior (ray.at t) → InsideAt (intersectObj argsort fuel h a ray).1 t) ∧
    (s.Outside (ray.at t) → ¬ InsideAt (intersectObj argsort fuel h a ray).1 t) := by
  induction hr with
  | @leaf a p hk =>
    intro fuel hf t
    obtain ⟨fuel, rfl⟩ : ∃ n, fuel = n + 1 := ⟨fuel - 1, by simp [Solid.depth] at hf; omega⟩
    have e : intersectObj argsort (fuel + 1) h a ray = leafIntersect (h.obj a).world⁻¹ (h.obj a).oid p ray := by
      rw [intersectObj, hk]
      simp only
      rw [hs a p .refl hk]
    rw [e]
    exact leaf_inside hg.1.2.2 hg.2 _ t
  | @node a l r op sl sr hk hl hr ihl ihr =>
    intro fuel hf t
    obtain ⟨fuel, rfl⟩ : ∃ n, fuel = n + 1 := ⟨fuel - 1, by simp [Solid.depth] at hf; omega⟩
    have dl : sl.depth ≤ fuel := by simp [Solid.depth] at hf; omega
    have dr : sr.depth ≤ fuel := by simp [Solid.depth] at hf; omega
    have pl : IsParent h a l := ⟨op, l, r, hk, Or.inl rfl⟩
    have pr : IsParent h a r := ⟨op, l, r, hk, Or.inr rfl⟩
    have kl := ihl hg.1 (hb.child argsort pl) (fun x p hu => hs x p (Under.trans (.step .refl pl) hu)) fuel dl t
    have kr := ihr hg.2 (hb.child argsort pr) (fun x p hu => hs x p (Under.trans (.step .refl pr) hu)) fuel dr t
    have sl' := intersectObj_shape argsort ha h ray fuel l
    have sr' := intersectObj_shape argsort ha h ray fuel r
    have hall : (Solid.node op sl sr).All fun p w => p.Valid ∧ Affine w := Solid.All.imp (fun _ _ h => h.1) hg
    have hpass := fun hi => interior_passes argsort ha (Represents.node hk hl hr) hray hall hb (t := t) hi
    rw [intersectObj, hk]
    simp only
    by_cases hp : boxPasses (h.obj a).aobb ray
    · rw [if_pos hp, csgCombine_inside argsort ha _ _ _ _ _ _ sl'.1 sr'.1 sl'.2.1 sr'.2.1]
      clear hpass hall sl' sr' hs hb hg ihl ihr
      cases op with
      | union =>
        simp only [Solid.Interior, Solid.Outside, Operation.holds]
        exact ⟨fun hi => hi.imp kl.1 kr.1, fun ho hc => hc.elim (kl.2 ho.1) (kr.2 ho.2)⟩
      | intersect =>
        simp only [Solid.Interior, Solid.Outside, Operation.holds]
        exact ⟨fun hi => ⟨kl.1 hi.1, kr.1 hi.2⟩, fun ho hc => ho.elim (fun h => kl.2 h hc.1) fun h => kr.2 h hc.2⟩
      | difference =>
        simp only [Solid.Interior, Solid.Outside, Operation.holds]
        exact ⟨fun hi => ⟨kl.1 hi.1, kr.2 hi.2⟩, fun ho hc => ho.elim (fun h => kl.2 h hc.1) fun h => hc.2 (kr.1 h)⟩
    · rw [if_neg hp]
      exact ⟨fun hi => absurd (hpass hi) hp, fun _ => insideAt_replicate_top _ _⟩

/-! ### labels -/

/-- leaves below an address -/
def LeafOf (h : Heap) (a x : ℕ) : Prop := Under h a x ∧ ∃ p, (h.obj x).kind = .prim p

theorem zipWith_mask_getElem? (vs : List EReal) (ks : List Bool) (i : ℕ) (v : EReal)
    (hv : (List.zipWith (fun v k => if k then v else ⊤) vs ks)[i]? = some v) (hne : v ≠ ⊤) : vs[i]? = some v := by
  rw [List.getElem?_zipWith] at hv
  cases h1 : vs[i]? with
  | none => simp [h1] at hv
  | some w =>
    cases h2 : ks[i]? with
    | none => simp [h1, h2] at hv
    | some k =>
      simp only [h1, h2, Option.map_some, Option.some.injEq] at hv
      cases k with
      | true => simpa using hv
      | false => simp at hv; exact absurd hv.symm hne

theorem gather_getElem? {β : Type*} (d : β) (xs : List β) (σ : List ℕ) (i : ℕ) (v : β) (hv : (gather d xs σ)[i]? = some v) :
    ∃ k, σ[i]? = some k ∧ xs.getD k d = v := by
  unfold gather at hv
  rw [List.getElem?_map] at hv
  cases h : σ[i]? with
  | none => simp [h] at hv
  | some k => simp only [h, Option.map_some, Option.some.injEq] at hv; exact ⟨k, rfl, hv⟩

/-- a finite entry of the combined hit list is an entry of one of the operands, with the same label -/
theorem csgCombine_label {ι : Type*} (n : ι) (op : Operation) (l : List EReal) (ls : List ι)
    (r : List EReal) (rs : List ι) (hl : ls.length = l.length) (hr : rs.length = r.length)
    (i : ℕ) (v : EReal) (s : ι) (hv : (csgCombine argsort n op l ls r rs).1[i]? = some v) (hne : v ≠ ⊤)
    (hs : (csgCombine argsort n op l ls r rs).2[i]? = some s) :
    ∃ k : ℕ, (l[k]? = some v ∧ ls[k]? = some s) ∨ (r[k]? = some v ∧ rs[k]? = some s) := by
  unfold csgCombine at hv hs
  obtain ⟨k, hk, ev⟩ := gather_getElem? _ _ _ _ _ hv
  obtain ⟨k', hk', es⟩ := gather_getElem? _ _ _ _ _ hs
  obtain rfl : k = k' := by rw [hk] at hk'; simpa using hk'
  have ev' : (arrayCsgUnsorted argsort l r op)[k]? = some v := by
    rw [List.getD_eq_getElem?_getD] at ev
    cases h : (arrayCsgUnsorted argsort l r op)[k]? with
    | none => rw [h] at ev; simp at ev; exact absurd ev.symm hne
    | some w => rw [h] at ev; simp at ev; rw [ev]
  have h1 := zipWith_mask_getElem? _ _ _ _ ev' hne
  obtain ⟨m, hm, em⟩ := gather_getElem? _ _ _ _ _ h1
  have em' : (l ++ r)[m]? = some v := by
    rw [List.getD_eq_getElem?_getD] at em
    cases h : (l ++ r)[m]? with
    | none => rw [h] at em; simp at em; exact absurd em.symm hne
    | some w => rw [h] at em; simp at em; rw [em]
  have hmlt : m < (ls ++ rs).length := by
    have := (List.getElem?_eq_some_iff.1 em').1
    simp only [List.length_append] at this ⊢
    omega
  have esurf : (gather n (ls ++ rs) (argsort (l ++ r)))[k]? = some ((ls ++ rs)[m]) := by
    unfold gather
    rw [List.getElem?_map, hm]
    simp [List.getElem?_eq_getElem hmlt]
  rw [List.getD_eq_getElem?_getD, esurf] at es
  simp only [Option.getD_some] at es
  have es' : (ls ++ rs)[m]? = some s := by rw [List.getElem?_eq_getElem hmlt, es]
  by_cases hlt : m < l.length
  · refine ⟨m, Or.inl ⟨?_, ?_⟩⟩
    · rwa [List.getElem?_append_left hlt] at em'
    · rwa [List.getElem?_append_left (by omega)] at es'
  · refine ⟨m - l.length, Or.inr ⟨?_, ?_⟩⟩
    · rwa [List.getElem?_append_right (by omega)] at em'
    · rw [List.getElem?_append_right (by omega), hl] at es'; exact es'

theorem intersectObj_label (ha : IsArgsort argsort) (h : Heap) (ray : Ray) : ∀ (fuel a i : ℕ) (v : EReal) (s : ℤ),
    (intersectObj argsort fuel h a ray).1[i]? = some v → v ≠ ⊤ → (intersectObj argsort fuel h a ray).2[i]? = some s →
    ∃ x p, Under h a x ∧ ((h.obj x).oid, x) ∈ surfaceIds fuel h a ∧ (h.obj x).kind = .prim p ∧ s = ((h.obj x).oid : ℤ) ∧
      v ∈ (leafIntersect (h.obj x).objT (h.obj x).oid p ray).1 := by
  intro fuel
  induction fuel with
  | zero => intro a i v s hv; simp [intersectObj] at hv
  | succ fuel ih =>
    intro a i v s hv hne hs
    rw [intersectObj] at hv hs
    split at hv
    · rename_i p hk
      simp only [hk] at hs
      refine ⟨a, p, .refl, by simp [surfaceIds, hk], hk, ?_, List.mem_of_getElem? hv⟩
      have := List.mem_of_getElem? hs
      simpa [leafIntersect] using this
    · rename_i op l r hk
      simp only [hk] at hs
      simp only at hv
      split at hv
      · rename_i hp
        rw [if_pos hp] at hs
        obtain ⟨k, hk'⟩ := csgCombine_label argsort _ _ _ _ _ _ (intersectObj_shape argsort ha h ray fuel l).2.2
          (intersectObj_shape argsort ha h ray fuel r).2.2 i v s hv hne hs
        rcases hk' with ⟨h1, h2⟩ | ⟨h1, h2⟩
        · obtain ⟨x, p, hu, hm, rest⟩ := ih l k v s h1 hne h2
          exact ⟨x, p, Under.trans (.step .refl ⟨op, l, r, hk, Or.inl rfl⟩) hu, by simp [surfaceIds, hk, hm], rest⟩
        · obtain ⟨x, p, hu, hm, rest⟩ := ih r k v s h1 hne h2
          exact ⟨x, p, Under.trans (.step .refl ⟨op, l, r, hk, Or.inr rfl⟩) hu, by simp [surfaceIds, hk, hm], rest⟩
      · have := List.mem_of_getElem? hv
        exact absurd (List.eq_of_mem_replicate this) hne
    · simp at hv

/-! ### boxes of unmoved primitives -/

theorem boundingBox_cornerPoints (s : Fin 3 → ℝ × ℝ) (hs : ∀ i, (s i).1 ≤ (s i).2) : boundingBox (cornerPoints s) = toBox s := by
  have h0 := EReal.coe_le_coe_iff.2 (hs 0)
  have h1 := EReal.coe_le_coe_iff.2 (hs 1)
  have h2 := EReal.coe_le_coe_iff.2 (hs 2)
  funext i
  fin_cases i <;>
    simp only [boundingBox, cornerPoints, List.flatMap_cons, List.flatMap_nil, List.map_cons, List.map_nil, List.append_nil,
      List.cons_append, List.nil_append, List.foldr_cons, List.foldr_nil, sort2, toBox, point]
  · change (min (min ((s 0).1 : EReal) (min ((s 0).1 : EReal) (min ((s 0).1 : EReal) (min ((s 0).1 : EReal) (min ((s 0).2 : EReal) (min ((s 0).2 : EReal) (min ((s 0).2 : EReal) (min ((s 0).2 : EReal) ⊤)))))))) (max ((s 0).1 : EReal) (max ((s 0).1 : EReal) (max ((s 0).1 : EReal) (max ((s 0).1 : EReal) (max ((s 0).2 : EReal) (max ((s 0).2 : EReal) (max ((s 0).2 : EReal) (max ((s 0).2 : EReal) ⊥)))))))),
      max (min ((s 0).1 : EReal) (min ((s 0).1 : EReal) (min ((s 0).1 : EReal) (min ((s 0).1 : EReal) (min ((s 0).2 : EReal) (min ((s 0).2 : EReal) (min ((s 0).2 : EReal) (min ((s 0).2 : EReal) ⊤)))))))) (max ((s 0).1 : EReal) (max ((s 0).1 : EReal) (max ((s 0).1 : EReal) (max ((s 0).1 : EReal) (max ((s 0).2 : EReal) (max ((s 0).2 : EReal) (max ((s 0).2 : EReal) (max ((s 0).2 : EReal) ⊥))))))))) = (((s 0).1 : EReal), ((s 0).2 : EReal))
    simp [h0]
  · change (min (min ((s 1).1 : EReal) (min ((s 1).1 : EReal) (min ((s 1).2 : EReal) (min ((s 1).2 : EReal) (min ((s 1).1 : EReal) (min ((s 1).1 : EReal) (min ((s 1).2 : EReal) (min ((s 1).2 : EReal) ⊤)))))))) (max ((s 1).1 : EReal) (max ((s 1).1 : EReal) (max ((s 1).2 : EReal) (max ((s 1).2 : EReal) (max ((s 1).1 : EReal) (max ((s 1).1 : EReal) (max ((s 1).2 : EReal) (max ((s 1).2 : EReal) ⊥)))))))),
      max (min ((s 1).1 : EReal) (min ((s 1).1 : EReal) (min ((s 1).2 : EReal) (min ((s 1).2 : EReal) (min ((s 1).1 : EReal) (min ((s 1).1 : EReal) (min ((s 1).2 : EReal) (min ((s 1).2 : EReal) ⊤)))))))) (max ((s 1).1 : EReal) (max ((s 1).1 : EReal) (max ((s 1).2 : EReal) (max ((s 1).2 : EReal) (max ((s 1).1 : EReal) (max ((s 1).1 : EReal) (max ((s 1).2 : EReal) (max ((s 1).2 : EReal) ⊥))))))))) = (((s 1).1 : EReal), ((s 1).2 : EReal))
    simp [h1]
  · change (min (min ((s 2).1 : EReal) (min ((s 2).2 : EReal) (min ((s 2).1 : EReal) (min ((s 2).2 : EReal) (min ((s 2).1 : EReal) (min ((s 2).2 : EReal) (min ((s 2).1 : EReal) (min ((s 2).2 : EReal) ⊤)))))))) (max ((s 2).1 : EReal) (max ((s 2).2 : EReal) (max ((s 2).1 : EReal) (max ((s 2).2 : EReal) (max ((s 2).1 : EReal) (max ((s 2).2 : EReal) (max ((s 2).1 : EReal) (max ((s 2).2 : EReal) ⊥)))))))),
      max (min ((s 2).1 : EReal) (min ((s 2).2 : EReal) (min ((s 2).1 : EReal) (min ((s 2).2 : EReal) (min ((s 2).1 : EReal) (min ((s 2).2 : EReal) (min ((s 2).1 : EReal) (min ((s 2).2 : EReal) ⊤)))))))) (max ((s 2).1 : EReal) (max ((s 2).2 : EReal) (max ((s 2).1 : EReal) (max ((s 2).2 : EReal) (max ((s 2).1 : EReal) (max ((s 2).2 : EReal) (max ((s 2).1 : EReal) (max ((s 2).2 : EReal) ⊥))))))))) = (((s 2).1 : EReal), ((s 2).2 : EReal))
    simp [h2]

theorem boundSpans_le (p : Prim) (i : Fin 3) : (p.boundSpans i).1 ≤ (p.boundSpans i).2 := by
  cases p <;> exact min_le_max

theorem primBox_one_eq (p : Prim) : primBox 1 p = toBox p.boundSpans := by
  rw [primBox_one, boundingBox_cornerPoints _ (boundSpans_le p)]

end PyRayT
