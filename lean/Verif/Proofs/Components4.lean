import Verif.Proofs.Components3

/-! From the construction of a component to the labels, hits and normals of its surfaces. -/

namespace PyRayT

open Classical Matrix

variable {argsort : List EReal → List ℕ} {fuel : ℕ}

theorem Makes.of_run {s0 s : Scene} {x : Build ℕ} {M : Made} {a : ℕ} (h : Makes argsort fuel s0 x M) (hrun : x s0 = (.ok a, s)) :
    ∃ T : CTree, T.root = a ∧ Ctx argsort fuel s0 s [(T, M)] := by
  obtain ⟨s', T, e, c⟩ := h
  rw [hrun] at e
  simp only [Prod.mk.injEq, Except.ok.injEq] at e
  obtain ⟨rfl, rfl⟩ := e
  exact ⟨T, rfl, c⟩

theorem surfaceIds_oid {h : Heap} : ∀ {depth a : ℕ} {e : ℕ × ℕ}, e ∈ surfaceIds depth h a → e.1 = (h.obj e.2).oid
  | 0, _, _, he => by simp [surfaceIds] at he
  | depth + 1, a, e, he => by
    rw [surfaceIds] at he
    split at he
    · simp only [List.mem_singleton] at he; rw [he]
    · rcases List.mem_append.1 he with h | h
      · exact surfaceIds_oid h
      · exact surfaceIds_oid h
    · simp at he

theorem forall₂_mem_left {α β : Type*} {R : α → β → Prop} {l : List α} {l' : List β} (h : List.Forall₂ R l l') {x : α} (hx : x ∈ l) :
    ∃ y ∈ l', R x y := by
  induction h with
  | nil => simp at hx
  | @cons a b l l' hab _ ih =>
    rcases List.mem_cons.1 hx with rfl | hx
    · exact ⟨b, List.mem_cons_self, hab⟩
    · obtain ⟨y, hy, hr⟩ := ih hx
      exact ⟨y, List.mem_cons_of_mem _ hy, hr⟩

theorem Made.all_leaves {P : Prim → Mat4 → Prop} : ∀ {M : Made}, M.solid.All P → ∀ l ∈ M.leaves, P l.1 l.2.1
  | .leaf _ _ _ _, h, l, hl => by
    simp only [Made.leaves, List.mem_singleton] at hl
    rw [hl]; exact h
  | .node _ _ _, h, l, hl => by
    simp only [Made.leaves, List.mem_append] at hl
    rcases hl with hl | hl
    · exact Made.all_leaves h.1 l hl
    · exact Made.all_leaves h.2 l hl

/-- the surface at an address is the described leaf -/
def IsLeaf (s : Scene) (x : ℕ) (l : Prim × Mat4 × ℝ × Option Material) : Prop :=
  (s.heap.obj x).kind = .prim l.1 ∧ (s.heap.obj x).world = l.2.1 ∧ (s.heap.obj x).nscale = l.2.2.1 ∧ ∀ m, l.2.2.2 = some m → s.material x = m

/-- all surfaces have the material -/
theorem Ctx.material {s0 s : Scene} {T : CTree} {M : Made} (h : Ctx argsort fuel s0 s [(T, M)]) {depth : ℕ} (hd : M.depth ≤ depth)
    {m : Material} (hm : ∀ l ∈ M.leaves, l.2.2.2 = some m) : ∀ e ∈ surfaceIds depth s.heap T.root, s.material e.2 = m := by
  intro e he
  obtain ⟨hdesc, -⟩ := h.parts _ List.mem_cons_self
  obtain ⟨l, hl, hr⟩ := forall₂_mem_left (hdesc.surfaces hd) he
  exact hr.2.2.2 m (hm l hl)

/-- a reported finite hit is on the boundary of the leaf with that id -/
theorem Ctx.reports (ha : IsArgsort argsort) {s0 s : Scene} {T : CTree} {M : Made} (h : Ctx argsort fuel s0 s [(T, M)]) {ray : Ray}
    (hleaf : M.solid.All fun p w => (p.Valid ∧ Affine w) ∧ Spec.Sees p (ray.map w⁻¹)) {depth : ℕ} (hd : M.depth ≤ depth) {v : ℝ} {id : ℤ}
    (hr : Spec.Reports argsort s T.root depth ray v id) :
    ∃ x < s.heap.size, ∃ l ∈ M.leaves, id = (s.heap.obj x).oid ∧ ((s.heap.obj x).oid, x) ∈ surfaceIds depth s.heap T.root ∧ IsLeaf s x l ∧
      ¬ (Solid.leaf l.1 l.2.1).Interior (ray.at v) ∧ ¬ (Solid.leaf l.1 l.2.1).Outside (ray.at v) := by
  obtain ⟨i, hv, hl⟩ := hr
  obtain ⟨hdesc, -, haddr, -⟩ := h.parts _ List.mem_cons_self
  simp only at hdesc haddr
  obtain ⟨x, p, hu, hm, hk, e, hmem⟩ := intersectObj_label argsort ha s.heap ray depth T.root i v id hv (EReal.coe_ne_top v) hl
  obtain ⟨l, hll, hrel⟩ := forall₂_mem_left (hdesc.surfaces hd) hm
  have hx := (haddr x ((hdesc.under_iff x).1 hu)).2
  refine ⟨x, hx, l, hll, e, hm, hrel, ?_⟩
  obtain ⟨⟨-, haff⟩, hsees⟩ := Made.all_leaves hleaf l hll
  have hp : p = l.1 := by have := hrel.1; rw [hk] at this; exact Kind.prim.inj this
  rw [(h.ready.inv.synced x hx).2.1, hrel.2.1, hp] at hmem
  exact leaf_boundary haff.2 hsees _ v hmem

theorem Desc.surfaceIds_depth {s : Scene} : ∀ {T : CTree} {M : Made} {d d' : ℕ}, Desc s T M → M.depth ≤ d → d ≤ d' →
    surfaceIds d' s.heap T.root = surfaceIds d s.heap T.root
  | _, M, 0, _, _, hf, _ => by cases M <;> simp [Made.depth] at hf
  | .leaf a, .leaf p w n m, d + 1, d', hd, _, hle => by
    obtain ⟨k, rfl⟩ : ∃ k, d' = k + 1 := ⟨d' - 1, by omega⟩
    simp only [Desc] at hd
    simp only [surfaceIds, CTree.root_leaf, hd.1]
  | .node a op l r, .node op' l' r', d + 1, d', hd, hf, hle => by
    obtain ⟨k, rfl⟩ : ∃ k, d' = k + 1 := ⟨d' - 1, by omega⟩
    simp only [Desc] at hd
    simp only [Made.depth] at hf
    simp only [surfaceIds, CTree.root_node, hd.1]
    rw [hd.2.2.1.surfaceIds_depth (d := d) (d' := k) (by omega) (by omega), hd.2.2.2.surfaceIds_depth (d := d) (d' := k) (by omega) (by omega)]
  | .leaf _, .node _ _ _, _ + 1, _, hd, _, _ => hd.elim
  | .node _ _ _ _, .leaf _ _ _ _, _ + 1, _, hd, _, _ => hd.elim

/-- an object made of two different surfaces -/
theorem Ctx.two {s0 s : Scene} {T : CTree} {M : Made} (h : Ctx argsort fuel s0 s [(T, M)]) (hd : M.depth ≤ 3)
    {l1 l2 : Prim × Mat4 × ℝ × Option Material} (hl : M.leaves = [l1, l2]) (hne : l1.1 ≠ l2.1) :
    ∃ i x j y, (∀ depth, 3 ≤ depth → surfaceIds depth s.heap T.root = [(i, x), (j, y)]) ∧ i ≠ j ∧ x < s.heap.size ∧ y < s.heap.size ∧
      i = (s.heap.obj x).oid ∧ j = (s.heap.obj y).oid ∧ IsLeaf s x l1 ∧ IsLeaf s y l2 := by
  obtain ⟨hdesc, -, haddr, -⟩ := h.parts _ List.mem_cons_self
  simp only at hdesc haddr
  have hf := hdesc.surfaces hd
  rw [hl] at hf
  obtain ⟨e, es, h1, hf', hes⟩ := List.forall₂_cons_right_iff.1 hf
  obtain ⟨e', es', h2, hf'', hes'⟩ := List.forall₂_cons_right_iff.1 hf'
  rw [List.forall₂_nil_right_iff] at hf''
  rw [hes', hf''] at hes
  have lt : ∀ e ∈ surfaceIds 3 s.heap T.root, e.2 < s.heap.size := by
    intro e he
    have : ∀ depth a, ∀ e ∈ surfaceIds depth s.heap a, Under s.heap a e.2 := by
      intro depth
      induction depth with
      | zero => intro a e he; simp [surfaceIds] at he
      | succ depth ih =>
        intro a e he
        rw [surfaceIds] at he
        split at he
        · simp only [List.mem_singleton] at he; rw [he]; exact .refl
        · rename_i op l r hk
          rcases List.mem_append.1 he with hh | hh
          · exact Under.trans (.step .refl ⟨op, l, r, hk, Or.inl rfl⟩) (ih l e hh)
          · exact Under.trans (.step .refl ⟨op, l, r, hk, Or.inr rfl⟩) (ih r e hh)
        · simp at he
    exact (haddr _ ((hdesc.under_iff _).1 (this 3 _ e he))).2
  have m1 : e ∈ surfaceIds 3 s.heap T.root := by rw [hes]; simp
  have m2 : e' ∈ surfaceIds 3 s.heap T.root := by rw [hes]; simp
  have o1 := surfaceIds_oid m1
  have o2 := surfaceIds_oid m2
  refine ⟨e.1, e.2, e'.1, e'.2, fun depth h3 => (hdesc.surfaceIds_depth hd h3).trans hes, ?_, lt _ m1, lt _ m2, o1, o2, h1, h2⟩
  rw [o1, o2]
  intro hc
  have hxy : e.2 = e'.2 := by
    rcases lt_trichotomy e.2 e'.2 with hlt | heq | hlt
    · exact absurd hc (h.ready.inv.ids _ _ hlt (lt _ m2)).ne
    · exact heq
    · exact absurd hc (h.ready.inv.ids _ _ hlt (lt _ m1)).ne'
  have k1 := h1.1
  rw [hxy, h2.1] at k1
  exact hne (Kind.prim.inj k1).symm

/-- ... and which of the two a label names -/
theorem Ctx.reports_two (ha : IsArgsort argsort) {s0 s : Scene} {T : CTree} {M : Made} (h : Ctx argsort fuel s0 s [(T, M)]) {ray : Ray}
    (hleaf : M.solid.All fun p w => (p.Valid ∧ Affine w) ∧ Spec.Sees p (ray.map w⁻¹)) {depth : ℕ} (hd : M.depth ≤ depth) {v : ℝ}
    {l1 l2 : Prim × Mat4 × ℝ × Option Material} (hl : M.leaves = [l1, l2]) (hne : l1.1 ≠ l2.1) {x y : ℕ} (hx : x < s.heap.size)
    (hy : y < s.heap.size) (h1 : IsLeaf s x l1) (h2 : IsLeaf s y l2) (hids : surfaceIds depth s.heap T.root = [((s.heap.obj x).oid, x), ((s.heap.obj y).oid, y)]) :
    (Spec.Reports argsort s T.root depth ray v ((s.heap.obj x).oid : ℕ) →
      ¬ (Solid.leaf l1.1 l1.2.1).Interior (ray.at v) ∧ ¬ (Solid.leaf l1.1 l1.2.1).Outside (ray.at v)) ∧
    (Spec.Reports argsort s T.root depth ray v ((s.heap.obj y).oid : ℕ) →
      ¬ (Solid.leaf l2.1 l2.2.1).Interior (ray.at v) ∧ ¬ (Solid.leaf l2.1 l2.2.1).Outside (ray.at v)) ∧
    ((v : EReal) ∈ (intersectObj argsort depth s.heap T.root ray).1 →
      Spec.Reports argsort s T.root depth ray v ((s.heap.obj x).oid : ℕ) ∨
      Spec.Reports argsort s T.root depth ray v ((s.heap.obj y).oid : ℕ)) := by
  have inj : ∀ a b, a < s.heap.size → b < s.heap.size → (s.heap.obj a).oid = (s.heap.obj b).oid → a = b := by
    intro a b ha hb hc
    rcases lt_trichotomy a b with hlt | heq | hlt
    · exact absurd hc (h.ready.inv.ids _ _ hlt hb).ne
    · exact heq
    · exact absurd hc (h.ready.inv.ids _ _ hlt ha).ne'
  refine ⟨fun hr => ?_, fun hr => ?_, fun hm => ?_⟩
  · obtain ⟨x', hx', l, hll, e, -, hlf, hb⟩ := h.reports ha hleaf hd hr
    obtain rfl := inj x x' hx hx' (by exact_mod_cast e)
    rw [hl] at hll
    have hk := hlf.1
    rw [h1.1] at hk
    simp only [List.mem_cons, List.not_mem_nil, or_false] at hll
    rcases hll with rfl | rfl
    · exact hb
    · exact absurd (Kind.prim.inj hk) hne
  · obtain ⟨x', hx', l, hll, e, -, hlf, hb⟩ := h.reports ha hleaf hd hr
    obtain rfl := inj y x' hy hx' (by exact_mod_cast e)
    rw [hl] at hll
    have hk := hlf.1
    rw [h2.1] at hk
    simp only [List.mem_cons, List.not_mem_nil, or_false] at hll
    rcases hll with rfl | rfl
    · exact absurd (Kind.prim.inj hk).symm hne
    · exact hb
  · obtain ⟨i, hi⟩ := List.mem_iff_getElem?.1 hm
    have hlen := (intersectObj_shape argsort ha s.heap ray depth T.root).2.2
    obtain ⟨id, hid⟩ : ∃ id, (intersectObj argsort depth s.heap T.root ray).2[i]? = some id := by
      have := (List.getElem?_eq_some_iff.1 hi).1
      exact ⟨_, List.getElem?_eq_getElem (by omega)⟩
    have hr : Spec.Reports argsort s T.root depth ray v id := ⟨i, hi, hid⟩
    obtain ⟨x', hx', l, hll, e, hm', -, -⟩ := h.reports ha hleaf hd hr
    have hxy : x' = x ∨ x' = y := by
      rw [hids, List.mem_cons, List.mem_singleton, Prod.mk.injEq, Prod.mk.injEq] at hm'
      exact hm'.imp (·.2) (·.2)
    rcases hxy with rfl | rfl
    · left; rw [← e]; exact hr
    · right; rw [← e]; exact hr

/-! ### normals -/

theorem turn_worldNormal {o : Obj} {a b c : ℝ} (hT : o.objT = (turn * moveMatrix a b c)⁻¹) (p : Prim) (x y z : ℝ) {n1 n2 n3 : ℝ}
    (hn : p.normal (point (y - a) (z - b) (x - c)) = vector n1 n2 n3) (hu : norm4 (vector n1 n2 n3) = 1) :
    worldNormal o p (point x y z) = o.nscale • vector n3 n1 n2 := by
  unfold worldNormal
  rw [hT, turn_move_point, hn, turn_move_eq_inv]
  have e : zeroW ((moveMatrix (-a) (-b) (-c) * turnInv)ᵀ *ᵥ vector n1 n2 n3) = vector n3 n1 n2 := by
    funext i
    simp only [zeroW]
    rw [mulVec4, mulVec4, mulVec4]
    simp only [Matrix.transpose_apply, Matrix.mul_apply, Fin.sum_univ_four]
    fin_cases i <;> simp [moveMatrix, turnInv, vector]
  rw [e]
  congr 1
  have hu' : norm4 (vector n3 n1 n2) = 1 := by
    rw [← hu]; simp only [norm4, vector]; congr 1; simp; ring
  funext i
  simp [normalize, hu']

theorem interval_eq {h : EReal × EReal} {c1 c2 : ℝ} (hc : c1 ≤ c2) (hh : ∀ t : ℝ, (h.1 ≤ t ∧ (t : EReal) ≤ h.2) ↔ c1 ≤ t ∧ t ≤ c2) :
    h = ((c1 : EReal), (c2 : EReal)) := by
  obtain ⟨h1, h2⟩ := h
  simp only at hh
  have k1 := (hh c1).2 ⟨le_refl _, hc⟩
  have k2 := (hh c2).2 ⟨hc, le_refl _⟩
  have e1 : h1 = c1 := by
    refine le_antisymm k1.1 ?_
    by_contra hn
    rw [not_le] at hn
    obtain ⟨q, hq1, hq2⟩ := EReal.lt_iff_exists_real_btwn.1 hn
    have := (hh q).1 ⟨hq1.le, hq2.le.trans k1.2⟩
    exact absurd (EReal.coe_lt_coe_iff.1 hq2) (not_lt.2 this.1)
  have e2 : h2 = c2 := by
    refine le_antisymm ?_ k2.2
    by_contra hn
    rw [not_le] at hn
    obtain ⟨q, hq1, hq2⟩ := EReal.lt_iff_exists_real_btwn.1 hn
    have := (hh q).1 ⟨k2.1.trans hq1.le, hq2.le⟩
    exact absurd (EReal.coe_lt_coe_iff.1 hq1) (not_lt.2 this.2)
  rw [e1, e2]

end PyRayT
