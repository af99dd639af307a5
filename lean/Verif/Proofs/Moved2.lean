import Verif.Proofs.Moved
import Verif.Props.Render5

/-! Composites seen from a carried ray. -/

namespace PyRayT

open Classical Matrix Spec

/-! ### hit lists that differ only in the labels of misses -/

/-- the same hits, and the same labels except for `inf` -/
def AgreeHits (x y : List EReal × List ℤ) : Prop :=
  x.1 = y.1 ∧ ∀ (i : ℕ) (v : EReal), x.1[i]? = some v → v ≠ ⊤ → x.2[i]? = y.2[i]?

theorem AgreeHits.refl (x : List EReal × List ℤ) : AgreeHits x x := ⟨rfl, fun _ _ _ _ => rfl⟩

theorem getElem?_getD_ne {xs : List EReal} {k : ℕ} {v : EReal} (h : xs.getD k ⊤ = v) (hv : v ≠ ⊤) : xs[k]? = some v := by
  rw [List.getD_eq_getElem?_getD] at h
  cases hx : xs[k]? with
  | none => rw [hx] at h; simp at h; exact absurd h.symm hv
  | some w => rw [hx] at h; simp at h; rw [h]

theorem gather_getElem?_eq {β : Type*} (d : β) (xs : List β) (σ : List ℕ) (i : ℕ) : (gather d xs σ)[i]? = (σ[i]?).map fun k => xs.getD k d := by
  simp [gather]

variable (argsort : List EReal → List ℕ)

theorem csgCombine_agree (op : Operation) {l l' r r' : List EReal × List ℤ} (hl : AgreeHits l l') (hr : AgreeHits r r')
    (ell : l.2.length = l.1.length) (ell' : l'.2.length = l'.1.length) :
    AgreeHits (csgCombine argsort (-1) op l.1 l.2 r.1 r.2) (csgCombine argsort (-1) op l'.1 l'.2 r'.1 r'.2) := by
  obtain ⟨hl1, hl2⟩ := hl
  obtain ⟨hr1, hr2⟩ := hr
  have el : l.2.length = l'.2.length := by rw [ell, ell', hl1]
  refine ⟨by unfold csgCombine; rw [hl1, hr1], fun i v hv hne => ?_⟩
  unfold csgCombine at hv ⊢
  dsimp only at hv ⊢
  rw [gather_getElem?_eq] at hv
  rw [gather_getElem?_eq, gather_getElem?_eq, ← hl1, ← hr1]
  cases hi : (argsort (arrayCsgUnsorted argsort l.1 r.1 op))[i]? with
  | none => rfl
  | some k =>
    rw [hi] at hv
    simp only [Option.map_some, Option.some.injEq] at hv ⊢
    have h1 := zipWith_mask_getElem? _ _ _ _ (getElem?_getD_ne hv hne) hne
    rw [gather_getElem?_eq] at h1
    rw [List.getD_eq_getElem?_getD, List.getD_eq_getElem?_getD, gather_getElem?_eq, gather_getElem?_eq]
    cases hk : (argsort (l.1 ++ r.1))[k]? with
    | none => rfl
    | some m =>
      rw [hk] at h1
      simp only [Option.map_some, Option.some.injEq, Option.getD_some] at h1 ⊢
      have h2 := getElem?_getD_ne h1 hne
      rw [List.getD_eq_getElem?_getD, List.getD_eq_getElem?_getD]
      congr 1
      by_cases hm : m < l.1.length
      · rw [List.getElem?_append_left hm] at h2
        rw [List.getElem?_append_left (by omega), List.getElem?_append_left (by omega)]
        exact hl2 m v h2 hne
      · rw [List.getElem?_append_right (by omega)] at h2
        rw [List.getElem?_append_right (by omega), List.getElem?_append_right (by omega), ell, ← el, ell]
        exact hr2 _ v h2 hne

theorem nearestHit_agree {x y : List EReal × List ℤ} (h : AgreeHits x y) :
    (nearestHit x).1 = (nearestHit y).1 ∧ ((nearestHit x).1 ≠ ⊤ → nearestHit x = nearestHit y) := by
  obtain ⟨h1, h2⟩ := h
  have e1 : (nearestHit x).1 = (nearestHit y).1 := by simp only [nearestHit, h1]
  refine ⟨e1, fun hne => Prod.ext e1 ?_⟩
  simp only [nearestHit] at hne ⊢
  rw [← h1]
  have h3 := getElem?_getD_ne rfl hne
  rw [List.getElem?_map] at h3
  cases hx : x.1[argmin (List.map positiveHit x.1)]? with
  | none => rw [hx] at h3; cases h3
  | some v =>
    have hv : v ≠ ⊤ := by
      rintro rfl
      rw [hx] at h3
      simp only [Option.map_some, Option.some.injEq] at h3
      apply hne
      rw [← h3]
      simp [positiveHit]
    rw [List.getD_eq_getElem?_getD, List.getD_eq_getElem?_getD, h2 _ v hx hv]

theorem hitOf_agree {cs cs' : List Component} {ray ray' : Ray}
    (h : List.Forall₂ (fun c c' => AgreeHits (c.intersect ray) (c'.intersect ray')) cs cs') : hitOf cs ray = hitOf cs' ray' := by
  unfold hitOf
  generalize ((⊤ : EReal), (-1 : ℤ)) = acc
  induction h generalizing acc with
  | nil => rfl
  | cons hc _ ih =>
    simp only [List.foldl_cons]
    obtain ⟨e1, e2⟩ := nearestHit_agree hc
    rw [← e1]
    split
    · rename_i hlt
      rw [← e2 (ne_top_of_lt hlt)]
      exact ih _
    · exact ih _

/-! ### carried solids -/

/-- the solid carried along -/
noncomputable def Solid.carry (m : Mat4) : Solid → Solid
  | .leaf p w => .leaf p (m * w)
  | .node op l r => .node op (l.carry m) (r.carry m)

theorem Solid.carry_depth (m : Mat4) (s : Solid) : (s.carry m).depth = s.depth := by
  induction s with
  | leaf => rfl
  | node op l r ihl ihr => simp [Solid.carry, Solid.depth, ihl, ihr]

theorem Solid.carry_points {m : Mat4} (hm : Isometry m) (s : Solid) (q : Vec4) :
    ((s.carry m).Interior (m *ᵥ q) ↔ s.Interior q) ∧ ((s.carry m).Outside (m *ᵥ q) ↔ s.Outside q) := by
  induction s with
  | leaf p w =>
    have e : ∀ x, (m * w) *ᵥ x = m *ᵥ q ↔ w *ᵥ x = q := by
      intro x
      rw [← mulVec_mulVec]
      constructor
      · intro h
        have := congrArg (fun v => m⁻¹ *ᵥ v) h
        simpa only [hm.inv_mulVec] using this
      · intro h; rw [h]
    simp only [Solid.carry, Solid.Interior, Solid.Outside, e, and_self]
  | node op l r ihl ihr =>
    cases op <;> simp only [Solid.carry, Solid.Interior, Solid.Outside, ihl, ihr, and_self]

theorem Solid.carry_all {m : Mat4} (hm : Isometry m) {ray : Ray} {s : Solid}
    (h : s.All fun p w => (p.Valid ∧ Affine w) ∧ Sees p (ray.map w⁻¹)) :
    (s.carry m).All fun p w => (p.Valid ∧ Affine w) ∧ Sees p ((ray.map m).map w⁻¹) := by
  induction s with
  | leaf p w =>
    obtain ⟨⟨h1, h2⟩, h3⟩ := h
    refine ⟨⟨h1, row_mul hm.1 h2.1, ?_⟩, ?_⟩
    · rw [det_mul]; exact mul_ne_zero hm.det h2.2
    · have e : (ray.map m).map (m * w)⁻¹ = ray.map w⁻¹ := by
        simp only [Ray.map, Matrix.mul_inv_rev, ← mulVec_mulVec, hm.inv_mulVec]
      rw [e]; exact h3
  | node op l r ihl ihr => exact ⟨ihl h.1, ihr h.2⟩

theorem Solid.carry_joined {m : Mat4} (hm : Isometry m) {s : Solid} (h : Joined s) : Joined (s.carry m) := by
  induction s with
  | leaf p w => trivial
  | node op l r ihl ihr =>
    refine ⟨ihl h.1, ihr h.2.1, fun ho => ?_⟩
    obtain ⟨q, h3, hl, hr⟩ := h.2.2 ho
    exact ⟨m *ᵥ q, by rw [hm.three, h3], (l.carry_points hm q).1.2 hl, (r.carry_points hm q).1.2 hr⟩

theorem represents_carry {h h' : Heap} {a : ℕ} {s : Solid} {m : Mat4} (hr : Represents h a s)
    (hk : ∀ x, (h'.obj x).kind = (h.obj x).kind)
    (hw : ∀ x p, Under h a x → (h.obj x).kind = .prim p → (h'.obj x).world = m * (h.obj x).world) : Represents h' a (s.carry m) := by
  induction hr with
  | @leaf a p hk' =>
    have := Represents.leaf (h := h') (a := a) (p := p) (by rw [hk, hk'])
    rw [hw a p .refl hk'] at this
    exact this
  | @node a l r op sl sr hk' hl hr ihl ihr =>
    refine .node (by rw [hk, hk']) (ihl fun x p hu => ?_) (ihr fun x p hu => ?_)
    · exact hw x p (Under.trans (.step .refl ⟨op, l, r, hk', Or.inl rfl⟩) hu)
    · exact hw x p (Under.trans (.step .refl ⟨op, l, r, hk', Or.inr rfl⟩) hu)

/-- boxes are in order if unions are joined -/
theorem boxesOk_joined (ha : IsArgsort argsort) {h : Heap} {a : ℕ} {s : Solid} (hr : Represents h a s) (hj : Joined s)
    (hg : s.All fun p w => p.Valid ∧ Affine w)
    (hleaf : ∀ x p, Under h a x → (h.obj x).kind = .prim p → (h.obj x).aobb = primBox (h.obj x).world p)
    (hnode : ∀ x, Under h a x → Fresh argsort h x) : BoxesOk argsort h a := by
  induction hr with
  | @leaf a p hk =>
    refine ⟨hleaf, hnode, fun x l r hu hkx => ?_⟩
    rcases hu.inv with rfl | ⟨c, ⟨op, l', r', hc, -⟩, -⟩
    · rw [hk] at hkx; cases hkx
    · rw [hk] at hc; cases hc
  | @node a l r op sl sr hk hl hr ihl ihr =>
    have pl : IsParent h a l := ⟨op, l, r, hk, Or.inl rfl⟩
    have pr : IsParent h a r := ⟨op, l, r, hk, Or.inr rfl⟩
    have bl := ihl hj.1 hg.1 (fun x p hu => hleaf x p (Under.trans (.step .refl pl) hu)) fun x hu => hnode x (Under.trans (.step .refl pl) hu)
    have br := ihr hj.2.1 hg.2 (fun x p hu => hleaf x p (Under.trans (.step .refl pr) hu)) fun x hu => hnode x (Under.trans (.step .refl pr) hu)
    refine ⟨hleaf, hnode, fun x l' r' hu hkx => ?_⟩
    rcases hu.inv with rfl | ⟨c, ⟨op', l2, r2, hc, hcc⟩, hu'⟩
    · rw [hk] at hkx
      cases hkx
      obtain ⟨q, h3, h4, h5⟩ := hj.2.2 rfl
      exact (interior_inner argsort ha hl h3 hg.1 bl h4).overlap (interior_inner argsort ha hr h3 hg.2 br h5)
    · rw [hk] at hc
      cases hc
      rcases hcc with rfl | rfl
      · exact bl.over x l' r' hu' hkx
      · exact br.over x l' r' hu' hkx

/-- where one of two carried composites is culled, the other reports no hit -/
theorem culled_top (ha : IsStableArgsort argsort) {fuel : ℕ} {h : Heap} (hre : Reaches argsort fuel Heap.empty h) {a depth : ℕ} {s : Solid} (hr : Represents h a s)
    (hlt : a < h.size) {ray : Ray} (hray : GoodRay ray) (hg : s.All fun p w => (p.Valid ∧ Affine w) ∧ Sees p (ray.map w⁻¹))
    (hb : BoxesOk argsort h a) (hd : s.depth ≤ depth) (ho : ∀ t, s.Outside (ray.at t)) :
    ∀ v ∈ (intersectObj argsort depth h a ray).1, v = ⊤ := by
  intro v hv
  have hi := reaches_inv argsort empty_inv hre
  have hbot := tree_ne_bot argsort ha.1 hre hray hlt hr hg v hv
  by_contra hne
  lift v to ℝ using ⟨hne, hbot⟩
  exact (intersectObj_boundary argsort ha hr hray hg hb
    (fun x p hu _ => (hi.synced x (lt_of_le_of_lt (hu.le hi.toStruct hlt) hlt)).2.1) depth hd v hv).2 (ho v)

/-- the hits of a carried object for the carried ray -/
theorem intersectObj_carried (ha : IsStableArgsort argsort) {fuel : ℕ} {h h' : Heap} (hre : Reaches argsort fuel Heap.empty h)
    (hre' : Reaches argsort fuel Heap.empty h') (hs : Static h h') {m : Mat4} (hm : Isometry m) {ray : Ray} (hray : GoodRay ray)
    (hray' : GoodRay (ray.map m)) {a : ℕ} {s : Solid} (hr : Represents h a s) : a < h.size → (∀ x p, Under h a x → (h.obj x).kind = .prim p →
      (h'.obj x).world = m * (h.obj x).world) → (s.All fun p w => (p.Valid ∧ Affine w) ∧ Sees p (ray.map w⁻¹)) →
    BoxesOk argsort h a → BoxesOk argsort h' a → Decided ray s → ∀ depth, s.depth ≤ depth →
    AgreeHits (intersectObj argsort depth h' a (ray.map m)) (intersectObj argsort depth h a ray) := by
  have hi := reaches_inv argsort empty_inv hre
  have hi' := reaches_inv argsort empty_inv hre'
  have hk : ∀ x, (h'.obj x).kind = (h.obj x).kind := fun x => (hs.2.2 x).1
  induction hr with
  | @leaf a p hka =>
    intro hlt hw hg hb hb' hdec depth hd
    obtain ⟨depth, rfl⟩ : ∃ n, depth = n + 1 := ⟨depth - 1, by simp [Solid.depth] at hd; omega⟩
    have e1 : (h.obj a).objT = (h.obj a).world⁻¹ := (hi.synced a hlt).2.1
    have e2 : (h'.obj a).objT = (h'.obj a).world⁻¹ := (hi'.synced a (by rw [hs.1]; exact hlt)).2.1
    have e3 : (ray.map m).map (m * (h.obj a).world)⁻¹ = ray.map (h.obj a).world⁻¹ := by
      simp only [Ray.map, Matrix.mul_inv_rev, ← mulVec_mulVec, hm.inv_mulVec]
    rw [intersectObj, intersectObj, hk, hka]
    simp only [leafIntersect]
    rw [e2, hw a p .refl hka, e3, e1, (hs.2.2 a).2.1]
    exact AgreeHits.refl _
  | @node a l r op sl sr hka hl hr ihl ihr =>
    intro hlt hw hg hb hb' hdec depth hd
    have hrep := Represents.node hka hl hr
    have hrep' := represents_carry (m := m) hrep hk hw
    have hg' := Solid.carry_all hm hg
    obtain ⟨depth, rfl⟩ : ∃ n, depth = n + 1 := ⟨depth - 1, by simp [Solid.depth] at hd; omega⟩
    have dl : sl.depth ≤ depth := by simp [Solid.depth] at hd; omega
    have dr : sr.depth ≤ depth := by simp [Solid.depth] at hd; omega
    have pl : IsParent h a l := ⟨op, l, r, hka, Or.inl rfl⟩
    have pr : IsParent h a r := ⟨op, l, r, hka, Or.inr rfl⟩
    have ll : l < h.size := lt_of_le_of_lt ((Under.step .refl pl).le hi.toStruct hlt) hlt
    have lr : r < h.size := lt_of_le_of_lt ((Under.step .refl pr).le hi.toStruct hlt) hlt
    have kl := ihl ll (fun x p hu => hw x p (Under.trans (.step .refl pl) hu)) hg.1 (hb.child argsort pl)
      (hb'.child argsort ((hs.isParent a l).2 pl)) hdec.1 depth dl
    have kr := ihr lr (fun x p hu => hw x p (Under.trans (.step .refl pr) hu)) hg.2 (hb.child argsort pr)
      (hb'.child argsort ((hs.isParent a r).2 pr)) hdec.2.1 depth dr
    have sl' := (intersectObj_shape argsort ha.1 h' (ray.map m) depth l).2.2
    have sl2 := (intersectObj_shape argsort ha.1 h ray depth l).2.2
    have eL : intersectObj argsort (depth + 1) h a ray =
        let lh := intersectObj argsort depth h l ray
        let rh := intersectObj argsort depth h r ray
        if boxPasses (h.obj a).aobb ray then csgCombine argsort (-1) op lh.1 lh.2 rh.1 rh.2
        else (List.replicate (lh.1.length + rh.1.length) ⊤, List.replicate (lh.1.length + rh.1.length) (-1)) := by
      rw [intersectObj, hka]
    have eR : intersectObj argsort (depth + 1) h' a (ray.map m) =
        let lh := intersectObj argsort depth h' l (ray.map m)
        let rh := intersectObj argsort depth h' r (ray.map m)
        if boxPasses (h'.obj a).aobb (ray.map m) then csgCombine argsort (-1) op lh.1 lh.2 rh.1 rh.2
        else (List.replicate (lh.1.length + rh.1.length) ⊤, List.replicate (lh.1.length + rh.1.length) (-1)) := by
      rw [intersectObj, hk, hka]
    -- if the line stays outside there are no hits on either side
    rcases hdec.2.2 with ⟨t, ht⟩ | hout
    · have hall : (Solid.node op sl sr).All fun p w => p.Valid ∧ Affine w := Solid.All.imp (fun _ _ h => h.1) hg
      have hall' : ((Solid.node op sl sr).carry m).All fun p w => p.Valid ∧ Affine w := Solid.All.imp (fun _ _ h => h.1) hg'
      have p1 := interior_passes argsort ha.1 hrep hray hall hb ht
      have p2 := interior_passes argsort ha.1 hrep' hray' hall' hb' (t := t)
        (by rw [Ray.map_at]; exact (Solid.carry_points hm _ _).1.2 ht)
      rw [eL, eR]
      simp only
      rw [if_pos p1, if_pos p2]
      exact csgCombine_agree argsort op kl kr sl' sl2
    · have t1 := culled_top argsort ha hre hrep hlt hray hg hb hd hout
      have t2 := culled_top argsort (depth := depth + 1) ha hre' hrep' (by rw [hs.1]; exact hlt) hray' hg' hb' (by rw [Solid.carry_depth]; exact hd)
        (fun t => by rw [Ray.map_at]; exact (Solid.carry_points hm _ _).2.2 (hout t))
      have len : ∀ (g : Heap) (ρ : Ray), (g.obj a).kind = .csg op l r → (intersectObj argsort (depth + 1) g a ρ).1.length =
          (intersectObj argsort depth g l ρ).1.length + (intersectObj argsort depth g r ρ).1.length := by
        intro g ρ hg
        rw [intersectObj, hg]
        simp only
        split
        · exact (csgCombine_length argsort ha.1 _ _ _ _ _ _).1
        · simp
      have e : (intersectObj argsort (depth + 1) h' a (ray.map m)).1 = (intersectObj argsort (depth + 1) h a ray).1 := by
        rw [List.eq_replicate_of_mem t1, List.eq_replicate_of_mem t2, len _ _ hka, len _ _ (by rw [hk, hka]), kl.1, kr.1]
      exact ⟨e, fun i v hv hne => absurd (t2 v (List.mem_of_getElem? hv)) hne⟩

end PyRayT
