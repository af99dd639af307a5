import Verif.Proofs.Prism
import Verif.Props.Room

/-!
# Property C92: the prism

The slanted faces of `equilateral_prism` and their normals; light that passes through both is turned by at least the angle of least deviation, 2 arcsin(n/2) - 60°.
-/

namespace PyRayT

open Classical Matrix Spec

variable {argsort : List EReal → List ℕ} {fuel : ℕ}

/-- on the slanted face towards positive x (`sg` = 1) or negative x (`sg` = -1) of the prism with the given side and width -/
def Spec.onSlant (side width sg : ℝ) (x y z : ℝ) : Prop :=
  z = √3 / 4 * side - √3 * (sg * x) ∧ 0 ≤ sg * x ∧ |y| ≤ width / 2 ∧ -(√3 / 4 * side) ≤ z

theorem prism_all {side width : ℝ} (m : Material) {ray : Ray} (hray : GoodRay ray) (hc : Spec.clearOfPrism ray) :
    (prismMade side width m).solid.All fun p w => (p.Valid ∧ Affine w) ∧ Spec.Sees p (ray.map w⁻¹) := by
  obtain ⟨c1, c2, c3, c4⟩ := hc
  obtain ⟨d0, d1, d2⟩ := hray.clear
  refine ⟨⟨⟨⟨trivial, rigid_affine (move_rigid _ _ _)⟩, ?_⟩, ⟨trivial, rigid_affine (cutPlace_rigid _ _ (.inr rfl))⟩, ?_⟩,
    ⟨trivial, rigid_affine (cutPlace_rigid _ _ (.inl rfl))⟩, ?_⟩
  · simp only [Spec.Sees, Ray.map, move_dir _ _ _ hray.d3]
    exact ⟨d0, d1, d2⟩
  · simp only [cutBlock, Spec.Sees, Ray.map, cutPlace_dir _ _ (.inr rfl) hray.d3, vector]
    refine ⟨?_, by simpa using d1, ?_⟩
    · convert c2 using 1; simp; ring
    · convert c3 using 1; simp; ring
  · simp only [cutBlock, Spec.Sees, Ray.map, cutPlace_dir _ _ (.inl rfl) hray.d3, vector]
    refine ⟨?_, by simpa using d1, ?_⟩
    · convert c1 using 1; simp
    · convert c4 using 1; simp; ring

/-- a hit labelled with the id of a surface is on the boundary of that surface -/
theorem Ctx.reports_at (ha : IsArgsort argsort) {s0 s : Scene} {T : CTree} {M : Made} (h : Ctx argsort fuel s0 s [(T, M)]) {ray : Ray}
    (hleaf : M.solid.All fun p w => (p.Valid ∧ Affine w) ∧ Spec.Sees p (ray.map w⁻¹)) {depth : ℕ} (hd : M.depth ≤ depth) {v : ℝ}
    {x : ℕ} (hx : x < s.heap.size) {l : Prim × Mat4 × ℝ × Option Material} (hl : IsLeaf s x l)
    (hr : Spec.Reports argsort s T.root depth ray v ((s.heap.obj x).oid : ℕ)) :
    ¬ (Solid.leaf l.1 l.2.1).Interior (ray.at v) ∧ ¬ (Solid.leaf l.1 l.2.1).Outside (ray.at v) := by
  obtain ⟨x', hx', l', -, e, -, hlf, hb⟩ := h.reports ha hleaf hd hr
  have hxx : x = x' := by
    have hc : (s.heap.obj x).oid = (s.heap.obj x').oid := by exact_mod_cast e
    rcases lt_trichotomy x x' with hlt | heq | hlt
    · exact absurd hc (h.ready.inv.ids _ _ hlt hx').ne
    · exact heq
    · exact absurd hc (h.ready.inv.ids _ _ hlt hx).ne'
  subst hxx
  have e1 : l'.1 = l.1 := Kind.prim.inj (hlf.1.symm.trans hl.1)
  have e2 : l'.2.1 = l.2.1 := hlf.2.1.symm.trans hl.2.1
  rw [← e1, ← e2]
  exact hb

theorem slant_of {side width sg x y z : ℝ} (hs : 0 < side) (hw : 0 < width) (hsg : sg = 1 ∨ sg = -1)
    (hb : ¬ (Solid.leaf (cutBlock side width) (cutPlace side (side / 2 * (1 - Real.sin (60 * Real.pi / 180))) sg)).Outside (point x y z))
    (ho : ¬ Spec.offPrism side width x y z) : Spec.onSlant side width sg x y z := by
  obtain ⟨k2, k0⟩ := sqrt_three
  rw [(cut_points hs hw _ hsg x y z).2, not_not, sin60] at hb
  simp only [Spec.offPrism, not_or, not_lt] at ho
  obtain ⟨⟨h1, -⟩, -⟩ := hb
  obtain ⟨o1, o2, o3⟩ := ho
  have habs : sg * x ≤ |x| := by
    rcases hsg with rfl | rfl
    · rw [one_mul]; exact le_abs_self x
    · rw [neg_one_mul]; exact neg_le_abs x
  have hm := mul_le_mul_of_nonneg_left habs k0.le
  have he : z = √3 / 4 * side - √3 * (sg * x) := le_antisymm (by linarith) (by linarith)
  have habs' : |x| ≤ sg * x := by
    refine le_of_mul_le_mul_left ?_ k0
    linarith
  exact ⟨he, (abs_nonneg x).trans habs', o1, o2⟩

theorem base_of {side width x y z : ℝ} (hs : 0 < side) (hw : 0 < width)
    (hb : ¬ (Solid.leaf (.cube ![-0.5 * side, -0.5 * width, -0.5 * side] ![0.5 * side, 0.5 * width, 0.5 * side])
      (moveMatrix 0 0 (side / 2 * (1 - Real.sin (60 * Real.pi / 180))))).Interior (point x y z))
    (ho : ¬ Spec.offPrism side width x y z) : |y| = width / 2 ∨ z = -(√3 / 4 * side) := by
  obtain ⟨k2, k0⟩ := sqrt_three
  have hk : √3 < 1.8 := by rw [Real.sqrt_lt' (by norm_num)]; norm_num
  rw [leaf_interior (rigid_affine (move_rigid 0 0 _)).2, move_inv_point, (centred_cube hs.le hw.le hs.le _ _ _).1, sin60] at hb
  simp only [Spec.offPrism, not_or, not_lt] at ho
  obtain ⟨o1, o2, o3⟩ := ho
  by_contra hcon
  push Not at hcon
  have o1' := lt_of_le_of_ne o1 hcon.1
  have o2' := lt_of_le_of_ne o2 hcon.2.symm
  apply hb
  have habs := abs_nonneg x
  have hx : |x| < side / 2 := by
    refine lt_of_mul_lt_mul_left ?_ k0.le
    linarith
  refine ⟨by rw [sub_zero]; exact hx, by rw [sub_zero]; exact o1', ?_⟩
  have hp := mul_nonneg k0.le habs
  have hks : √3 * side < 1.8 * side := mul_lt_mul_of_pos_right hk hs
  rw [abs_lt]
  constructor <;> linarith

theorem prism_leaves (side width : ℝ) (m : Material) : (prismMade side width m).leaves =
    [(.cube ![-0.5 * side, -0.5 * width, -0.5 * side] ![0.5 * side, 0.5 * width, 0.5 * side], moveMatrix 0 0 (side / 2 * (1 - Real.sin (60 * Real.pi / 180))), 1, some m),
     (cutBlock side width, cutPlace side (side / 2 * (1 - Real.sin (60 * Real.pi / 180))) (-1), -1, some m),
     (cutBlock side width, cutPlace side (side / 2 * (1 - Real.sin (60 * Real.pi / 180))) 1, -1, some m)] := rfl

/-- **C92, faces.** `equilateral_prism` has three surfaces. Hits labelled with the id of the first are on the ends or the base. The last two are the slanted faces: a hit labelled with the id of one of them is on that face, and the
normal there is the outward unit normal of the prism, except within the tolerance of the edge at the base. Sides and widths from 1e-6. -/
theorem C92_faces (ha : IsArgsort argsort) {s0 : Scene} (h0 : Ready argsort fuel s0) (hf : 3 ≤ fuel) {side width : ℝ} (hs : 1e-6 ≤ side) (hw : 1e-6 ≤ width)
    (m : Material) :
    ∃ s a k b i x j y, equilateralPrism argsort fuel side width m s0 = (.ok a, s) ∧
      Spec.Built argsort fuel s0 s a Spec.clearOfPrism (Spec.inPrism side width) (Spec.offPrism side width) ∧
      (∀ depth, 3 ≤ depth → surfaceIds depth s.heap a = [(k, b), (i, x), (j, y)]) ∧ k ≠ i ∧ k ≠ j ∧ i ≠ j ∧
      (s.material b = m ∧ s.material x = m ∧ s.material y = m) ∧
      (IsStableArgsort argsort → ∀ ray, GoodRay ray → Spec.clearOfPrism ray → ∀ depth, 3 ≤ depth → ∀ v : ℝ,
        (Spec.Reports argsort s a depth ray v k → |ray.at v 1| = width / 2 ∨ ray.at v 2 = -(√3 / 4 * side)) ∧
        (Spec.Reports argsort s a depth ray v i → Spec.onSlant side width (-1) (ray.at v 0) (ray.at v 1) (ray.at v 2)) ∧
        (Spec.Reports argsort s a depth ray v j → Spec.onSlant side width 1 (ray.at v 0) (ray.at v 1) (ray.at v 2))) ∧
      ∀ px py pz : ℝ, 1e-8 + 1e-5 * side < pz + √3 / 4 * side →
        (Spec.onSlant side width (-1) px py pz → surfaceNormal s.heap x (point px py pz) = vector (-(√3 / 2)) 0 (1 / 2)) ∧
        (Spec.onSlant side width 1 px py pz → surfaceNormal s.heap y (point px py pz) = vector (√3 / 2) 0 (1 / 2)) := by
  have hs0 : 0 < side := by linarith
  have hw0 : 0 < width := by linarith
  obtain ⟨s, T, e, c⟩ := prism_makes h0 hf side width m
  have hb : Spec.Built argsort fuel s0 s T.root Spec.clearOfPrism (Spec.inPrism side width) (Spec.offPrism side width) :=
    c.built ha (by simp [prismMade, Made.depth]) ⟨by simp, ⟨by simp, trivial, trivial⟩, trivial⟩
      (fun ray hray hc => prism_all m hray hc) (fun x y z => prism_points hs0 hw0 m x y z)
  have hd : (prismMade side width m).depth ≤ 3 := by simp [prismMade, Made.depth]
  obtain ⟨hdesc, -, haddr, -⟩ := c.parts _ List.mem_cons_self
  simp only at hdesc haddr
  have hfa := hdesc.surfaces hd
  rw [prism_leaves] at hfa
  obtain ⟨e1, es, l1, hfa, hes⟩ := List.forall₂_cons_right_iff.1 hfa
  obtain ⟨e2, es', l2, hfa, hes'⟩ := List.forall₂_cons_right_iff.1 hfa
  obtain ⟨e3, es'', l3, hfa, hes''⟩ := List.forall₂_cons_right_iff.1 hfa
  rw [List.forall₂_nil_right_iff] at hfa
  rw [hes', hes'', hfa] at hes
  have lt : ∀ e ∈ surfaceIds 3 s.heap T.root, e.2 < s.heap.size := fun e he =>
    (haddr _ ((hdesc.surface_addrs 3).subset (List.mem_map.2 ⟨e, he, rfl⟩))).2
  have hnd : ([e1, e2, e3].map Prod.snd).Nodup := by
    rw [← hes]
    exact (c.parts _ List.mem_cons_self).2.1.sublist (hdesc.surface_addrs 3)
  simp only [List.map_cons, List.map_nil, List.nodup_cons, List.mem_cons, List.not_mem_nil, or_false, not_or, not_false_eq_true, List.nodup_nil, and_true] at hnd
  have m1 : e1 ∈ surfaceIds 3 s.heap T.root := by rw [hes]; simp
  have m2 : e2 ∈ surfaceIds 3 s.heap T.root := by rw [hes]; simp
  have m3 : e3 ∈ surfaceIds 3 s.heap T.root := by rw [hes]; simp
  have o1 := surfaceIds_oid m1
  have o2 := surfaceIds_oid m2
  have o3 := surfaceIds_oid m3
  have inj : ∀ a b, a < s.heap.size → b < s.heap.size → a ≠ b → (s.heap.obj a).oid ≠ (s.heap.obj b).oid := by
    intro a b ha hb hne
    rcases lt_or_gt_of_ne hne with hlt | hlt
    · exact (c.ready.inv.ids _ _ hlt hb).ne
    · exact (c.ready.inv.ids _ _ hlt ha).ne'
  refine ⟨s, T.root, e1.1, e1.2, e2.1, e2.2, e3.1, e3.2, e, hb, fun depth h3 => (hdesc.surfaceIds_depth hd h3).trans hes, ?_, ?_, ?_,
    ⟨l1.2.2.2 _ rfl, l2.2.2.2 _ rfl, l3.2.2.2 _ rfl⟩, ?_, ?_⟩
  · rw [o1, o2]; exact inj _ _ (lt _ m1) (lt _ m2) hnd.1.1
  · rw [o1, o3]; exact inj _ _ (lt _ m1) (lt _ m3) hnd.1.2
  · rw [o2, o3]; exact inj _ _ (lt _ m2) (lt _ m3) hnd.2
  · intro hst ray hray hc depth h3 v
    have key : ∀ id, Spec.Reports argsort s T.root depth ray v id → ¬ Spec.offPrism side width (ray.at v 0) (ray.at v 1) (ray.at v 2) := by
      rintro id ⟨q, hq, -⟩
      exact (hb.bound hst ray hray hc depth h3 v (List.mem_of_getElem? hq)).2
    refine ⟨fun hr => ?_, fun hr => ?_, fun hr => ?_⟩
    · have hbd := (c.reports_at ha (prism_all m hray hc) (hd.trans h3) (lt _ m1) l1 (by rw [← o1]; exact hr)).1
      rw [point_eta (hray.at3 v)] at hbd
      simp only at hbd
      exact base_of hs0 hw0 hbd (key _ hr)
    · have hbd := (c.reports_at ha (prism_all m hray hc) (hd.trans h3) (lt _ m2) l2 (by rw [← o2]; exact hr)).2
      rw [point_eta (hray.at3 v)] at hbd
      exact slant_of hs0 hw0 (.inr rfl) hbd (key _ hr)
    · have hbd := (c.reports_at ha (prism_all m hray hc) (hd.trans h3) (lt _ m3) l3 (by rw [← o3]; exact hr)).2
      rw [point_eta (hray.at3 v)] at hbd
      exact slant_of hs0 hw0 (.inl rfl) hbd (key _ hr)
  · obtain ⟨k2, k0⟩ := sqrt_three
    intro px py pz hlo
    have hZ : pz - side / 2 * (1 - Real.sin (60 * Real.pi / 180)) + side / 2 = pz + √3 / 4 * side := by rw [sin60]; ring
    refine ⟨fun h => ?_, fun h => ?_⟩
    · unfold surfaceNormal
      rw [l2.1]
      simp only
      have := cut_normal (o := s.heap.obj e2.2) (.inr rfl) (by rw [(c.ready.inv.synced _ (lt _ m2)).2.1, l2.2.1]) l2.2.2.1 hs hw (x := px) (y := py) (z := pz)
        (by rw [hZ, h.1]; ring) h.2.2.1 (by rw [hZ]; exact hlo) (by
          rw [hZ, h.1]
          have := mul_nonneg k0.le h.2.1
          linarith)
      rw [this]
      congr 1; ring
    · unfold surfaceNormal
      rw [l3.1]
      simp only
      have := cut_normal (o := s.heap.obj e3.2) (.inl rfl) (by rw [(c.ready.inv.synced _ (lt _ m3)).2.1, l3.2.1]) l3.2.2.1 hs hw (x := px) (y := py) (z := pz)
        (by rw [hZ, h.1]; ring) h.2.2.1 (by rw [hZ]; exact hlo) (by
          rw [hZ, h.1]
          have := mul_nonneg k0.le h.2.1
          linarith)
      rw [this]
      congr 1; ring

/-- angle between the directions of two rows -/
noncomputable def Spec.turned (r r' : Row) : ℝ := Real.arccos (r.tilt 0 * r'.tilt 0 + r.tilt 1 * r'.tilt 1 + r.tilt 2 * r'.tilt 2)

/-- **C92.** After `equilateral_prism(side, width, glass)` has been called, on any scene built before, let a ray of any trace with the prism among the components come
from outside (index 1) to one slanted face, run inside (index n > 1) to the other, and leave (index 1). Then n is at most 2, the ray is turned by at least 2 arcsin(n/2) - 60°, and
by exactly this angle if and only if it runs parallel to the x axis inside. This includes rays outside the plane of the cross section. Rows in the tolerance bands of the faces
and ends within the tolerance of the edges at the base are excluded. -/
theorem C92_prism (hst : IsStableArgsort argsort) {s0 : Scene} (h0 : Ready argsort fuel s0) (hf : 3 ≤ fuel) {side width : ℝ} (hs : 1e-6 ≤ side) (hw : 1e-6 ≤ width)
    (g : IndexModel) :
    ∃ s a q i j, equilateralPrism argsort fuel side width (.glass g) s0 = (.ok a, s) ∧ [q, i, j].Nodup ∧
      (∀ depth, 3 ≤ depth → (surfaceIds depth s.heap a).map Prod.fst = [q, i, j]) ∧
      ∀ (objs : List ℕ) (depth : ℕ) (sources : List (ℕ → List Col)) (num : ℕ) (limit : ℤ) (k : ℕ) (t' : Tracer),
        a ∈ objs → 3 ≤ depth → Bench argsort fuel s objs depth sources num →
        Tracer.Traces k (Tracer.new sources (objs.map (s.component argsort depth)) num limit) t' →
        ∀ r ∈ t'.frame, ∀ r' ∈ t'.frame, ∀ r'' ∈ t'.frame, Follows r r' → Follows r' r'' →
          (r.surface = (i : ℤ) ∧ r'.surface = (j : ℤ)) ∨ (r.surface = (j : ℤ) ∧ r'.surface = (i : ℤ)) →
          GoodRay (rowRay r) → Spec.clearOfPrism (rowRay r) → GoodRay (rowRay r') → Spec.clearOfPrism (rowRay r') →
          1e-8 + 1e-5 * side < r.stop 2 + √3 / 4 * side → 1e-8 + 1e-5 * side < r'.stop 2 + √3 / 4 * side →
          1 < g.indexAt r.wavelength → r.index = 1 → r'.index = g.indexAt r.wavelength → r''.index = 1 →
          g.indexAt r.wavelength ≤ 2 ∧ leastDeviation (g.indexAt r.wavelength) ≤ turned r r'' ∧
          (turned r r'' = leastDeviation (g.indexAt r.wavelength) ↔ r'.tilt 1 = 0 ∧ r'.tilt 2 = 0) := by
  obtain ⟨s, a, q, b, i, x, j, y, hrun, hb, hids, hqi, hqj, hij, ⟨hmb, hmx, hmy⟩, hon, hnrm⟩ := C92_faces hst.1 h0 hf hs hw (.glass g)
  refine ⟨s, a, q, i, j, hrun, by simp [hqi, hqj, hij], fun depth h3 => by simp [hids depth h3], ?_⟩
  intro objs depth sources num limit k t' haa h3 bench htr r hr r' hr' r'' hr'' hf1 hf2 hsurf hg1 hc1 hg2 hc2 hz1 hz2 hn i1 i2 i3
  obtain ⟨k2, k0⟩ := sqrt_three
  set n := g.indexAt r.wavelength with hndef
  have hxm : (i, x) ∈ surfaceIds depth s.heap a := by rw [hids depth h3]; simp
  have hym : (j, y) ∈ surfaceIds depth s.heap a := by rw [hids depth h3]; simp
  have ok := bench.ok hst.1 limit
  have hr0 : Reaches argsort fuel Heap.empty s.heap := bench.history.reaches
  -- the normal where a row meets a slanted face
  have face : ∀ {ρ : Row}, ρ ∈ t'.frame → GoodRay (rowRay ρ) → Spec.clearOfPrism (rowRay ρ) → 1e-8 + 1e-5 * side < ρ.stop 2 + √3 / 4 * side →
      (ρ.surface = (i : ℤ) → surfaceNormal s.heap x ρ.finish = vector (-(√3 / 2)) 0 (1 / 2)) ∧
      (ρ.surface = (j : ℤ) → surfaceNormal s.heap y ρ.finish = vector (√3 / 2) 0 (1 / 2)) := by
    intro ρ hρ hgood hclear hz
    obtain ⟨d, -, hnear, hat⟩ := row_arrives ok htr hρ
    refine ⟨fun hsf => ?_, fun hsf => ?_⟩
    · have hrep := nearest_reports hst.1 hr0 bench.exist bench.distinct hnear haa hxm hsf
      rw [hsf] at hrep
      have := (hon hst _ hgood hclear depth h3 d).2.1 hrep
      rw [hat] at this
      exact (hnrm _ _ _ hz).1 this
    · have hrep := nearest_reports hst.1 hr0 bench.exist bench.distinct hnear haa hym hsf
      rw [hsf] at hrep
      have := (hon hst _ hgood hclear depth h3 d).2.2 hrep
      rw [hat] at this
      exact (hnrm _ _ _ hz).2 this
  have hu := bench.unit hst.1 htr hr
  have hw' := bench.unit hst.1 htr hr'
  have hv := bench.unit hst.1 htr hr''
  have hwl := bench.wavelength hst.1 htr hr hr' hf1
  have hdot : dot4 r.dir r''.dir = r.tilt 0 * r''.tilt 0 + r.tilt 1 * r''.tilt 1 + r.tilt 2 * r''.tilt 2 := by
    simp [dot4, Row.dir, vector]
  -- both orders of the faces at once
  have main : ∀ (x1 x2 : ℕ) (m1 m2 : Vec4), s.material x1 = .glass g → s.material x2 = .glass g →
      (∃ id, (id, x1) ∈ surfaceIds depth s.heap a ∧ r.surface = ((id : ℕ) : ℤ)) → (∃ id, (id, x2) ∈ surfaceIds depth s.heap a ∧ r'.surface = ((id : ℕ) : ℤ)) →
      surfaceNormal s.heap x1 r.finish = m1 → surfaceNormal s.heap x2 r'.finish = m2 → dot4 m1 m2 = -1 / 2 →
      (0 < dot4 r'.dir m2 - dot4 r'.dir m1) ∧ n ≤ 2 ∧ dot4 r.dir r''.dir ≤ 1 - leastTurn n ^ 2 / 2 ∧ (dot4 r.dir r''.dir = 1 - leastTurn n ^ 2 / 2 ↔ ∀ i, r'.dir i = (m2 i - m1 i) / √3) := by
    rintro x1 x2 m1 m2 hm1 hm2 ⟨id1, hx1, hs1⟩ ⟨id2, hx2, hs2⟩ rfl rfl h12
    obtain ⟨hn1, -, hi1⟩ := bench.optics hst.1 htr hr hr' hf1 haa hx1 hs1
    obtain ⟨hn2, -, hi2⟩ := bench.optics hst.1 htr hr' hr'' hf2 haa hx2 hs2
    rw [hm1, i1, i2] at hi1
    rw [hm2, i2, i3, hwl] at hi2
    set m1 := surfaceNormal s.heap x1 r.finish
    set m2 := surfaceNormal s.heap x2 r'.finish
    simp only [Interacts, one_mul, ← hndef] at hi1 hi2
    have hin : ¬ 0 < dot4 r.dir m1 := by
      intro hp
      rw [if_pos hp] at hi1
      rcases hi1 with h | h
      · exact hn.ne' h.2.2.2.2.2.2
      · exact hn.ne' h.2.2
    have hout : 0 < dot4 r'.dir m2 := by
      by_contra hp
      rw [if_neg hp] at hi2
      rcases hi2 with h | h
      · exact hn.ne h.2.2.2.2.2.2
      · exact hn.ne h.2.2
    rw [if_neg hin] at hi1
    rw [if_pos hout] at hi2
    rcases hi1 with ⟨-, -, t1, -, -, p1, -⟩ | ⟨-, -, h⟩
    swap
    · exact absurd h hn.ne'
    rcases hi2 with ⟨-, -, t2, -, p2, -, -⟩ | ⟨-, -, h⟩
    swap
    · exact absurd h hn.ne
    refine ⟨sub_pos.2 ((p1 (not_lt.1 hin)).trans hout), ?_⟩
    exact deviation_core hn hu hw' hv hn1 hn2 h12 (not_lt.1 hin) (p1 (not_lt.1 hin)) hout (p2 hout) t1 (fun l => by rw [t2 l, one_mul])
  have conclude : ∀ σ : ℝ, (σ = 1 ∨ σ = -1) → (n ≤ 2 ∧ dot4 r.dir r''.dir ≤ 1 - leastTurn n ^ 2 / 2 ∧
        (dot4 r.dir r''.dir = 1 - leastTurn n ^ 2 / 2 ↔ ∀ i, r'.dir i = (vector (σ * (√3 / 2)) 0 (1 / 2) i - vector (-σ * (√3 / 2)) 0 (1 / 2) i) / √3)) →
      (0 < σ * r'.tilt 0) →
      n ≤ 2 ∧ leastDeviation n ≤ turned r r'' ∧ (turned r r'' = leastDeviation n ↔ r'.tilt 1 = 0 ∧ r'.tilt 2 = 0) := by
    rintro σ hσ ⟨hn2, hle, hiff⟩ hpos
    obtain ⟨hcos, hd0, hd1⟩ := leastDeviation_spec hn.le hn2
    rw [← hcos] at hle hiff
    have hdle : -1 ≤ dot4 r.dir r''.dir := by
      have : dot4 (fun i => r.dir i + r''.dir i) (fun i => r.dir i + r''.dir i) = dot4 r.dir r.dir + dot4 r''.dir r''.dir + 2 * dot4 r.dir r''.dir := by
        simp only [dot4]; ring
      have h0 : 0 ≤ dot4 (fun i => r.dir i + r''.dir i) (fun i => r.dir i + r''.dir i) := by
        simp only [dot4]
        exact add_nonneg (add_nonneg (add_nonneg (mul_self_nonneg _) (mul_self_nonneg _)) (mul_self_nonneg _)) (mul_self_nonneg _)
      rw [hu, hv] at this
      linarith
    have harc : leastDeviation n = Real.arccos (Real.cos (leastDeviation n)) := (Real.arccos_cos hd0 hd1).symm
    refine ⟨hn2, ?_, ?_⟩
    · unfold turned
      rw [← hdot, harc]
      exact Real.arccos_le_arccos hle
    · have e : turned r r'' = leastDeviation n ↔ dot4 r.dir r''.dir = Real.cos (leastDeviation n) := by
        unfold turned
        rw [← hdot]
        constructor
        · intro h
          rw [← h, Real.cos_arccos hdle (hle.trans (Real.cos_le_one _))]
        · intro h
          rw [h, ← harc]
      rw [e, hiff]
      constructor
      · intro h
        have a1 : r'.tilt 1 = (0 - 0) / √3 := h 1
        have a2 : r'.tilt 2 = (1 / 2 - 1 / 2) / √3 := h 2
        exact ⟨by rw [a1]; simp, by rw [a2]; simp⟩
      · rintro ⟨a1, a2⟩
        have hsq := (C35_unit_tilts ok htr r' hr').1
        rw [a1, a2] at hsq
        have ht : r'.tilt 0 = σ := by
          rcases hσ with rfl | rfl
          · nlinarith
          · nlinarith
        intro l
        fin_cases l
        · show r'.tilt 0 = (σ * (√3 / 2) - -σ * (√3 / 2)) / √3
          rw [ht]; field_simp; ring
        · show r'.tilt 1 = (0 - 0) / √3
          rw [a1]; simp
        · show r'.tilt 2 = (1 / 2 - 1 / 2) / √3
          rw [a2]; simp
        · show (0 : ℝ) = (0 - 0) / √3
          simp
  have hd12 : ∀ σ : ℝ, (σ = 1 ∨ σ = -1) → dot4 (vector (-σ * (√3 / 2)) 0 (1 / 2)) (vector (σ * (√3 / 2)) 0 (1 / 2)) = -1 / 2 := by
    intro σ hσ
    have hsg : σ * σ = 1 := by rcases hσ with rfl | rfl <;> norm_num
    simp [dot4, vector]
    linear_combination (-σ * σ / 4) * k2 - 3 / 4 * hsg
  have hgo : ∀ σ : ℝ, dot4 r'.dir (vector (σ * (√3 / 2)) 0 (1 / 2)) - dot4 r'.dir (vector (-σ * (√3 / 2)) 0 (1 / 2)) = √3 * (σ * r'.tilt 0) := by
    intro σ
    simp [dot4, vector, Row.dir]; ring
  rcases hsurf with ⟨hs1, hs2⟩ | ⟨hs1, hs2⟩
  · have n1 := (face hr hg1 hc1 hz1).1 hs1
    have n2 := (face hr' hg2 hc2 hz2).2 hs2
    obtain ⟨hp, hres⟩ := main x y (vector (-1 * (√3 / 2)) 0 (1 / 2)) (vector (1 * (√3 / 2)) 0 (1 / 2)) hmx hmy ⟨i, hxm, hs1⟩ ⟨j, hym, hs2⟩
      (by rw [n1]; congr 1; ring) (by rw [n2]; congr 1; ring) (hd12 1 (.inl rfl))
    rw [hgo 1] at hp
    exact conclude 1 (.inl rfl) hres (pos_of_mul_pos_right hp k0.le)
  · have n1 := (face hr hg1 hc1 hz1).2 hs1
    have n2 := (face hr' hg2 hc2 hz2).1 hs2
    obtain ⟨hp, hres⟩ := main y x (vector (-(-1) * (√3 / 2)) 0 (1 / 2)) (vector (-1 * (√3 / 2)) 0 (1 / 2)) hmy hmx ⟨j, hym, hs1⟩ ⟨i, hxm, hs2⟩
      (by rw [n1]; congr 1; ring) (by rw [n2]; congr 1; ring) (hd12 (-1) (.inr rfl))
    rw [hgo (-1)] at hp
    exact conclude (-1) (.inr rfl) hres (pos_of_mul_pos_right hp k0.le)

set_option maxHeartbeats 1000000 in
/-- C92: a prism of side 2, width 1 and index (12 + 5√3)/13 in the room. The ray in the direction (12, 0, 5)/13 to the middle of a face runs parallel to the base inside,
and leaves by the middle of the other face. -/
example (hst : IsStableArgsort argsort) : ∃ s0, Ready argsort 3 s0 ∧ ∃ n : ℝ, n = (12 + 5 * √3) / 13 ∧ 1 < n ∧
    ∃ s a q i j, equilateralPrism argsort 3 2 1 (.glass (.basic n)) s0 = (.ok a, s) ∧
    (surfaceIds 3 s.heap a).map Prod.fst = [q, i, j] ∧
    ∃ (objs : List ℕ) (sources : List (ℕ → List Col)) (k : ℕ) (t' : Tracer),
      Bench argsort 3 s objs 3 sources 1 ∧ a ∈ objs ∧ Tracer.Traces k (Tracer.new sources (objs.map (s.component argsort 3)) 1 5) t' ∧
      ∃ r ∈ t'.frame, ∃ r' ∈ t'.frame, ∃ r'' ∈ t'.frame, Follows r r' ∧ Follows r' r'' ∧ r.surface = (i : ℤ) ∧ r'.surface = (j : ℤ) ∧
        GoodRay (rowRay r) ∧ Spec.clearOfPrism (rowRay r) ∧ GoodRay (rowRay r') ∧ Spec.clearOfPrism (rowRay r') ∧
        r.stop 2 = 0 ∧ r'.stop 2 = 0 ∧ r.index = 1 ∧ r'.index = n ∧ r''.index = 1 ∧ r'.tilt 1 = 0 ∧ r'.tilt 2 = 0 := by
  obtain ⟨k2, k0⟩ := sqrt_three
  have ka : √3 < 1.74 := by rw [Real.sqrt_lt' (by norm_num)]; norm_num
  have kb : 1.73 < √3 := by rw [Real.lt_sqrt (by norm_num)]; norm_num
  obtain ⟨s0, -, h0, hsz, hk0, hw0, hm0⟩ := room_made (argsort := argsort) (fuel := 3)
  obtain ⟨n, hn⟩ : ∃ n : ℝ, n = (12 + 5 * √3) / 13 := ⟨_, rfl⟩
  have hn1 : 1 < n := by rw [hn]; linarith
  have hn2 : n < 2 := by rw [hn]; linarith
  refine ⟨s0, h0, n, hn, hn1, ?_⟩
  obtain ⟨s, a, q, b', i, x, j, y, hrun, hb, hids, hqi, hqj, hij, ⟨hmb, hmx, hmy⟩, hon, hnrm⟩ := C92_faces hst.1 h0 le_rfl (side := 2) (width := 1) (by norm_num) (by norm_num)
    (.glass (.basic n))
  obtain ⟨T, rfl, c⟩ := (prism_makes h0 le_rfl 2 1 (.glass (.basic n))).of_run hrun
  have hdepth : (prismMade 2 1 (.glass (.basic n))).depth ≤ 2 + 1 := by simp [prismMade, Made.depth]
  set ray : Ray := ⟨point (-1 / 2 - 12 / 13) 0 (-5 / 13), vector (12 / 13) 0 (5 / 13)⟩ with hray
  set col : Col := ⟨ray, 0, 100, 0.633, 1, 0⟩ with hcol
  have hmt : ∀ l ∈ (prismMade 2 1 (.glass (.basic n))).leaves, l.2.2.2 = some (.glass (.basic n)) := by
    rw [prism_leaves]; simp
  have b : Bench argsort 3 s [T.root, 0] 3 [fun _ => [col]] 1 := by
    refine room_bench hsz hk0 hm0 c hdepth ?_ hmt ?_ ?_ ?_
    · rw [prism_leaves]
      simp [Sized, cutBlock]
    · exact ⟨rfl, rfl, rfl, by simp [hcol, hray, norm4, vector]; norm_num⟩
    · exact one_pos
    · rintro g hg
      cases hg
      show 0 < n
      linarith
  have hkp : (s.heap.obj 0).kind = .prim (.sphere 1000) := (c.old 0 hsz).1.trans hk0
  have hTp : (s.heap.obj 0).objT = 1 := by
    have hinv := reaches_inv argsort empty_inv b.history.reaches
    rw [(hinv.synced 0 (b.exist 0 (by simp))).2.1, (c.old 0 hsz).2.1, hw0, inv_one]
  have hmat : ∀ e ∈ surfaceIds 3 s.heap T.root, s.material e.2 ≠ .absorber := by
    intro e he
    rw [c.material hdepth hmt e he]
    simp
  obtain ⟨k, t', htr, -, -, -⟩ := C26_terminates (Tracer.new [fun _ => [col]] ([T.root, 0].map (s.component argsort 3)) 1 5) (by simp [Tracer.new]) (by simp [Tracer.new])
    (by simp [Tracer.new, hcol])
  have ok := b.ok hst.1 5
  refine ⟨s, T.root, q, i, j, hrun, by simp [hids 3 le_rfl], [T.root, 0], _, k, t', b, by simp, htr, ?_⟩
  have hxm : (i, x) ∈ surfaceIds 3 s.heap T.root := by rw [hids 3 le_rfl]; simp
  have hym : (j, y) ∈ surfaceIds 3 s.heap T.root := by rw [hids 3 le_rfl]; simp
  have hat : ∀ t, ray.at t 0 = -1 / 2 + 12 / 13 * (t - 1) ∧ ray.at t 1 = 0 ∧ ray.at t 2 = 5 / 13 * (t - 1) := by
    intro t
    refine ⟨?_, ?_, ?_⟩ <;> simp [Ray.at, hray, point, vector] <;> ring
  have hgood : GoodRay ray := by
    refine ⟨rfl, rfl, ⟨.inr ?_, .inl rfl, .inr ?_⟩, .inl ?_⟩ <;> simp [hray, vector] <;> norm_num [abs_of_pos]
  have hclear : Spec.clearOfPrism ray := by
    have a1 : 0 < √3 / 2 * (12 / 13) + 1 / 2 * (5 / 13) := by positivity
    refine ⟨.inr ?_, .inr ?_, .inr ?_, .inr ?_⟩
    · show 1e-8 < |√3 / 2 * (12 / 13) + 1 / 2 * (5 / 13)|
      rw [abs_of_pos (by linarith)]; linarith
    · show 1e-8 < |√3 / 2 * (12 / 13) - 1 / 2 * (5 / 13)|
      rw [abs_of_pos (by linarith)]; linarith
    · show 1e-8 < |√3 / 2 * (5 / 13) + 1 / 2 * (12 / 13)|
      rw [abs_of_pos (by linarith)]; linarith
    · show 1e-8 < |√3 / 2 * (5 / 13) - 1 / 2 * (12 / 13)|
      rw [abs_of_neg (by linarith)]; linarith
  obtain ⟨id0, hnear0, hrep0⟩ := hb.entry hst hgood hclear (depth := 3) le_rfl (d := 1) (d' := 5 / 4) one_pos (by norm_num)
    (by
      intro t t0 t1
      obtain ⟨e0, e1, e2⟩ := hat t
      right; right
      rw [e0, e2, abs_of_neg (by linarith)]
      nlinarith)
    (by
      intro t t0 t1
      obtain ⟨e0, e1, e2⟩ := hat t
      refine ⟨by rw [e1]; norm_num, ?_, ?_⟩
      · rw [e2]; nlinarith
      · rw [e0, e2, abs_of_neg (by linarith)]; nlinarith)
  have hhit : ((1 : ℝ) : EReal) ∈ (intersectObj argsort 3 s.heap T.root ray).1 := by
    obtain ⟨m, hm, -⟩ := hrep0
    exact List.mem_of_getElem? hm
  rcases C89_starts b hst.1 htr (i := 0) (c := col) rfl with ⟨r, hr, g0, -, hray0, hwl, hi0⟩ | hmiss
  swap
  · exact absurd ⟨by exact_mod_cast (by norm_num : (0 : ℝ) < 1), EReal.coe_lt_top _⟩ (hmiss (s.component argsort 3 T.root) (by simp) _ hhit)
  have hray0 : rowRay r = ray := hray0
  have ho : ∀ l : Fin 3, r.start l = ray.o l.castSucc := fun l => by
    rw [← hray0]; fin_cases l <;> rfl
  have hsm : ∀ l, |r.start l| ≤ 20 := by
    intro l
    rw [ho l]
    fin_cases l <;> simp [hray, point] <;> norm_num [abs_le]
  obtain ⟨⟨e, he, hse⟩, r', hr', hf⟩ := room_step b hst.1 htr hkp hTp hr (fun e he _ => hmat e he) hsm ⟨1, one_pos, by norm_num, by rw [hray0]; exact hhit⟩
    (by rw [g0]; norm_num)
  -- the first row ends in the middle of the face on the left
  obtain ⟨d, d0, hnr, hatd⟩ := row_arrives ok htr hr
  have hrep := nearest_reports hst.1 b.history.reaches b.exist b.distinct hnr (a := T.root) (by simp) he hse
  rw [hray0] at hnr hatd hrep
  have hd1 : d = 1 := by
    apply le_antisymm
    · exact EReal.coe_le_coe_iff.1 (hnr.2.1 (s.component argsort 3 T.root) (by simp [Tracer.new]) ((1 : ℝ) : EReal) hhit (by exact_mod_cast (by norm_num : (0 : ℝ) < 1)))
    · obtain ⟨m, hm, -⟩ := hrep
      exact EReal.coe_le_coe_iff.1 (hnear0.2.1 (s.component argsort 3 T.root) (by simp) (d : EReal) (List.mem_of_getElem? hm) (by exact_mod_cast d0))
  rw [hd1] at hrep hatd
  obtain ⟨p0, p1, p2⟩ := hat 1
  have hstop : ∀ l : Fin 3, r.stop l = ray.at 1 l.castSucc := fun l => by
    rw [hatd]; fin_cases l <;> rfl
  have q0 : r.stop 0 = -1 / 2 := by rw [hstop 0]; exact p0.trans (by norm_num)
  have q1 : r.stop 1 = 0 := by rw [hstop 1]; exact p1
  have q2 : r.stop 2 = 0 := by rw [hstop 2]; exact p2.trans (by norm_num)
  obtain ⟨f1, f2, f3⟩ := hon hst ray hgood hclear 3 le_rfl 1
  rw [p1, p2] at f1
  rw [p0, p1, p2] at f2 f3
  have hes : r.surface = (i : ℤ) := by
    rw [hids 3 le_rfl] at he
    simp only [List.mem_cons, List.not_mem_nil, or_false] at he
    rcases he with rfl | rfl | rfl
    · rw [hse] at hrep
      rcases f1 hrep with h | h
      · norm_num at h
      · linarith
    · exact hse
    · rw [hse] at hrep
      have h := (f3 hrep).1
      linarith
  rw [hes] at hrep
  have hslant := f2 hrep
  have hnormal : surfaceNormal s.heap x r.finish = vector (-(√3 / 2)) 0 (1 / 2) := by
    have : r.finish = point (-1 / 2 + 12 / 13 * (1 - 1)) 0 (5 / 13 * (1 - 1)) := by
      unfold Row.finish
      rw [q0, q1, q2]; norm_num
    rw [this]
    exact (hnrm _ _ _ (by linarith)).1 hslant
  have hdir : r.dir = vector (12 / 13) 0 (5 / 13) := by
    have : r.dir = (rowRay r).d := rfl
    rw [this, hray0]
  obtain ⟨hnn, -, hi⟩ := b.optics hst.1 htr hr hr' hf (a := T.root) (by simp) hxm hes
  rw [hmx, hnormal, hdir, show r.index = 1 from hi0] at hi
  have hdot : dot4 (vector (12 / 13) 0 (5 / 13)) (vector (-(√3 / 2)) 0 (1 / 2)) = (5 - 12 * √3) / 26 := by
    simp [dot4, vector]; ring
  have hsin : 1 - ((5 - 12 * √3) / 26) ^ 2 = (n / 2) ^ 2 := by
    rw [hn]; linear_combination (-(169 : ℝ) / 676) * k2
  have hunit' := b.unit hst.1 htr hr'
  obtain ⟨hidx', hw'⟩ := interacts_enter (by simp [dot4, vector]; norm_num) (by rw [← hnormal]; exact hnn) hunit' (show 0 < (IndexModel.basic n).indexAt r.wavelength from one_pos.trans hn1)
    (by rw [hdot]; linarith) (by
      rw [Spec.sinTo, hdot, hsin, Real.sqrt_sq (by linarith), one_mul]
      show n / 2 < n
      linarith) hi
  have hidx' : r'.index = n := hidx'
  have hsq : √(1 - (1 / (IndexModel.basic n).indexAt r.wavelength) ^ 2 * (1 - dot4 (vector (12 / 13) 0 (5 / 13)) (vector (-(√3 / 2)) 0 (1 / 2)) ^ 2)) = √3 / 2 := by
    rw [hdot, hsin]
    show √(1 - (1 / n) ^ 2 * (n / 2) ^ 2) = √3 / 2
    rw [show 1 - (1 / n) ^ 2 * (n / 2) ^ 2 = (√3 / 2) ^ 2 by field_simp; linarith, Real.sqrt_sq (by positivity)]
  rw [hsq, hdot] at hw'
  have hn13 : (12 + 5 * √3) / n = 13 := by rw [hn]; field_simp
  have w0 : r'.tilt 0 = 1 := by
    have : r'.tilt 0 = 1 / n * (12 / 13 - (5 - 12 * √3) / 26 * (-(√3 / 2))) - √3 / 2 * (-(√3 / 2)) := hw' 0
    rw [this]
    have e : 12 / 13 - (5 - 12 * √3) / 26 * (-(√3 / 2)) = n / 4 := by
      rw [hn]; linear_combination (-(12 : ℝ) / 52) * k2
    rw [e]; field_simp; linarith
  have w1 : r'.tilt 1 = 0 := by
    have : r'.tilt 1 = 1 / n * (0 - (5 - 12 * √3) / 26 * 0) - √3 / 2 * 0 := hw' 1
    rw [this]; ring
  have w2 : r'.tilt 2 = 0 := by
    have : r'.tilt 2 = 1 / n * (5 / 13 - (5 - 12 * √3) / 26 * (1 / 2)) - √3 / 2 * (1 / 2) := hw' 2
    rw [this]
    have e : 5 / 13 - (5 - 12 * √3) / 26 * (1 / 2) = n * (√3 / 4) := by
      rw [hn]; linear_combination (-(5 : ℝ) / 52) * k2
    rw [e]; field_simp; ring
  -- the second row runs along the x axis
  have hstart := (C28_connected ok htr r r' hr hr' hf.1 hf.2).1
  obtain ⟨ε, hε⟩ : ∃ ε : ℝ, ε = 1e-6 := ⟨_, rfl⟩
  have hst0 : r'.start 0 = -1 / 2 + ε := by
    rw [hstart 0, q0, w0, mul_one, hε]; rfl
  have hst1 : r'.start 1 = 0 := by rw [hstart 1, q1, w1]; ring
  have hst2 : r'.start 2 = 0 := by rw [hstart 2, q2, w2]; ring
  have hray1 : rowRay r' = Spec.axisRay 1 (-1 / 2 + ε) 0 0 := by
    unfold rowRay Spec.axisRay
    rw [hst0, hst1, hst2, w0, w1, w2]
  have hgood1 : GoodRay (rowRay r') := by rw [hray1]; exact axisRay_good (.inl rfl) _ _ _
  have hclear1 : Spec.clearOfPrism (rowRay r') := by
    rw [hray1]
    refine ⟨.inr ?_, .inr ?_, .inr ?_, .inr ?_⟩ <;> simp [Spec.axisRay, vector]
    · rw [abs_of_pos (by positivity)]; norm_num; linarith
    · rw [abs_of_pos (by positivity)]; norm_num; linarith
    · norm_num
    · norm_num
  have hits := fun v => hb.chord hst hgood1 hclear1 (depth := 3) le_rfl (c1 := -ε) (c2 := 1 - ε) (by linarith)
    (by
      intro t h1 h2
      rw [hray1, axisRay_at]
      have : |-1 / 2 + ε + t| < 1 / 2 := abs_lt.2 ⟨by linarith, by linarith⟩
      simp [Spec.inPrism, point]
      nlinarith)
    (by
      intro t h
      rw [hray1, axisRay_at]
      have : 1 / 2 < |-1 / 2 + ε + t| := by
        rcases h with h | h
        · exact lt_abs.2 (.inr (by linarith))
        · exact lt_abs.2 (.inl (by linarith))
      simp [Spec.offPrism, point]
      right; right
      nlinarith) v
  obtain ⟨⟨e', he', hse'⟩, r'', hr'', hf'⟩ := room_step b hst.1 htr hkp hTp hr' (fun e he _ => hmat e he)
    (by
      intro l
      have h : l = 0 ∨ l = 1 ∨ l = 2 := by fin_cases l <;> simp
      rcases h with rfl | rfl | rfl
      · rw [hst0, hε]; norm_num [abs_le]
      · rw [hst1]; norm_num
      · rw [hst2]; norm_num) ⟨1 - ε, by rw [hε]; norm_num, by rw [hε]; norm_num, (hits (1 - ε)).2 (.inr rfl)⟩ (by rw [hf.2, g0]; norm_num)
  obtain ⟨d', d0', hnr', hatd'⟩ := row_arrives ok htr hr'
  have hrep' := nearest_reports hst.1 b.history.reaches b.exist b.distinct hnr' (a := T.root) (by simp) he' hse'
  have hd1' : d' = 1 - ε := by
    obtain ⟨m, hm, -⟩ := hrep'
    rcases (hits d').1 (List.mem_of_getElem? hm) with h | h
    · rw [hε] at h; norm_num at h; linarith
    · exact h
  rw [hd1'] at hrep' hatd'
  obtain ⟨f1', f2', f3'⟩ := hon hst (rowRay r') hgood1 hclear1 3 le_rfl (1 - ε)
  rw [hray1, axisRay_at] at hatd'
  have u0 : r'.stop 0 = 1 / 2 := by
    have : -1 / 2 + ε + (1 - ε) * 1 = r'.stop 0 := congrFun hatd' 0
    rw [← this]; ring
  have u1 : r'.stop 1 = 0 := (congrFun hatd' 1).symm
  have u2 : r'.stop 2 = 0 := (congrFun hatd' 2).symm
  have v0 : (rowRay r').at (1 - ε) 0 = 1 / 2 := by rw [hray1, axisRay_at]; simp [point]; ring
  have v1 : (rowRay r').at (1 - ε) 1 = 0 := by rw [hray1, axisRay_at]; simp [point]
  have v2 : (rowRay r').at (1 - ε) 2 = 0 := by rw [hray1, axisRay_at]; simp [point]
  rw [v1, v2] at f1'
  rw [v0, v1, v2] at f2' f3'
  have hes' : r'.surface = (j : ℤ) := by
    rw [hids 3 le_rfl] at he'
    simp only [List.mem_cons, List.not_mem_nil, or_false] at he'
    rcases he' with rfl | rfl | rfl
    · rw [hse'] at hrep'
      rcases f1' hrep' with h | h
      · norm_num at h
      · linarith
    · rw [hse'] at hrep'
      have h := (f2' hrep').1
      linarith
    · exact hse'
  rw [hes'] at hrep'
  have hnormal' : surfaceNormal s.heap y r'.finish = vector (√3 / 2) 0 (1 / 2) := by
    have : r'.finish = point (1 / 2) 0 0 := by
      unfold Row.finish
      rw [u0, u1, u2]
    rw [this]
    exact (hnrm _ _ _ (by linarith)).2 (f3' hrep')
  obtain ⟨hnn', -, hi'⟩ := b.optics hst.1 htr hr' hr'' hf' (a := T.root) (by simp) hym hes'
  rw [hmy, hnormal', hidx'] at hi'
  have hdot' : dot4 r'.dir (vector (√3 / 2) 0 (1 / 2)) = √3 / 2 := by
    simp [dot4, vector, Row.dir, w0, w2]
  obtain ⟨hidx'', -⟩ := interacts_leave hunit' (by rw [← hnormal']; exact hnn') (b.unit hst.1 htr hr'') (by rw [hdot']; positivity) (by
      rw [Spec.sinTo, hdot', show 1 - (√3 / 2) ^ 2 = (1 / 2) ^ 2 by linarith, Real.sqrt_sq (by norm_num)]
      linarith) hi'
  exact ⟨r, hr, r', hr', r'', hr'', hf, hf', hes, hes', hray0 ▸ hgood, hray0 ▸ hclear, hgood1, hclear1, q2, u2, hi0, hidx', hidx'', w1, w2⟩

end PyRayT
