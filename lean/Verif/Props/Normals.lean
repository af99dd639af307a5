import Verif.Proofs.Normals
import Verif.Props.Solid

/-!
# Property C12: surface normals

`OutwardNormal inside closed q n` and `SmoothPoint p x`: see `Spec/Normals.lean`.
-/

namespace PyRayT

open Classical Matrix Spec

variable (argsort : List EReal → List ℕ)

theorem subtracted_chain {h : Heap} {x : ℕ} (hs : Subtracted h x) : ∃ c k, c < h.size ∧ Chain h c x k ∧ 1 ≤ k := by
  obtain ⟨d, l, r, hd, hk, hu⟩ := hs
  refine ⟨d, ?_⟩
  induction hu with
  | refl => exact ⟨1, hd, Chain.right (op := .difference) .refl hk, le_refl _⟩
  | step _ hp ih =>
    obtain ⟨k, h1, h2, h3⟩ := ih
    obtain ⟨op, l, r, hkind, rfl | rfl⟩ := hp
    · exact ⟨k, h1, .left h2 hkind, h3⟩
    · refine ⟨_, h1, .right h2 hkind, ?_⟩
      split <;> omega

/-- **C12.** After any history, for a surface whose matrix is affine, at every smooth point of the surface (outside the
tolerance bands of `np.isclose`): `get_world_normals` returns the outward unit normal of the placed solid, or its opposite
if the surface is subtracted in some composite. Missing from C12: points inside the tolerance bands, where it is false
(`C12_thin_cuboid_false`), and planes, which have no inside (`C12_plane`). -/
theorem C12_normals_partial (fuel : ℕ) (h : Heap) (hr : Reaches argsort fuel Heap.empty h) (a : ℕ) (ha : a < h.size)
    (p : Prim) (hk : (h.obj a).kind = .prim p) (hw : (h.obj a).world 3 = ![0, 0, 0, 1]) (x : Vec4) (hx : SmoothPoint p x) :
    let o := h.obj a
    ∃ n, OutwardNormal (Solid.leaf p o.world).Interior (fun y => ¬ (Solid.leaf p o.world).Outside y) (o.world *ᵥ x) n ∧
      ((∀ c k, c < h.size → Chain h c a k → k = 0) → worldNormal o p (o.world *ᵥ x) = n) ∧
      (∀ c k, c < h.size → Chain h c a k → 1 ≤ k → worldNormal o p (o.world *ᵥ x) = -n) := by
  intro o
  have hi := reaches_inv argsort empty_inv hr
  have hn := reaches_normals argsort empty_inv empty_normals hr a ha p hk
  obtain ⟨hdet, hobj, -⟩ := hi.synced a ha
  have hA : Affine o.world := ⟨hw, hdet⟩
  have hu : IsUnit o.world.det := isUnit_iff_ne_zero.2 hdet
  have hinv : ∀ y, o.world⁻¹ *ᵥ (o.world *ᵥ y) = y := fun y => by rw [mulVec_mulVec, nonsing_inv_mul _ hu, one_mulVec]
  have hinv' : ∀ y, o.world *ᵥ (o.world⁻¹ *ᵥ y) = y := fun y => by rw [mulVec_mulVec, mul_nonsing_inv _ hu, one_mulVec]
  have out : OutwardNormal (Interior p) (Closed p) (o.world⁻¹ *ᵥ (o.world *ᵥ x)) (p.normal x) := by
    rw [hinv]; exact prim_outward hx
  have out' := outward_map hA out
  have e1 : (fun y => Interior p (o.world⁻¹ *ᵥ y)) = (Solid.leaf p o.world).Interior := by
    funext y
    simp only [Solid.Interior, eq_iff_iff]
    exact ⟨fun h => ⟨_, hinv' y, h⟩, fun ⟨z, hz, h⟩ => by rw [← hz, hinv]; exact h⟩
  have e2 : (fun y => Closed p (o.world⁻¹ *ᵥ y)) = fun y => ¬ (Solid.leaf p o.world).Outside y := by
    funext y
    simp only [Solid.Outside, eq_iff_iff]
    push Not
    exact ⟨fun h => ⟨_, hinv' y, h⟩, fun ⟨z, hz, h⟩ => by rw [← hz, hinv]; exact h⟩
  rw [e1, e2] at out'
  have e3 : worldNormal o p (o.world *ᵥ x) = o.nscale • normalize (zeroW (o.world⁻¹ᵀ *ᵥ p.normal x)) := by
    unfold worldNormal
    rw [show o.objT = o.world⁻¹ from hobj, hinv]
  refine ⟨_, out', fun hc => ?_, fun c k hcs hch hk1 => ?_⟩
  · rw [e3, show o.nscale = 1 from ?_, one_smul]
    rw [show o.nscale = _ from hn, if_neg]
    intro hs
    obtain ⟨c, k, hcs, hch, hk1⟩ := subtracted_chain hs
    have := hc c k hcs hch
    omega
  · rw [e3, show o.nscale = -1 from ?_, neg_smul, one_smul]
    rw [show o.nscale = _ from hn, if_pos (chain_subtracted hi.toStruct hcs hch hk1)]

/-- **C12 for planes.** The normal of a placed `XYPlane` (not subtracted) is a unit vector, orthogonal to the images of all
in-plane directions, on the side to which the plane's local z axis points. -/
theorem C12_plane (fuel : ℕ) (h : Heap) (hr : Reaches argsort fuel Heap.empty h) (a : ℕ) (ha : a < h.size)
    (w l : ℝ) (hk : (h.obj a).kind = .prim (.plane w l)) (hw : (h.obj a).world 3 = ![0, 0, 0, 1])
    (hc : ∀ c k, c < h.size → Chain h c a k → k = 0) (q : Vec4) :
    let o := h.obj a
    let n := worldNormal o (.plane w l) q
    n 3 = 0 ∧ norm4 n = 1 ∧ (∀ x y, dot4 n (o.world *ᵥ ![x, y, 0, 0]) = 0) ∧ 0 < dot4 n (o.world *ᵥ ![0, 0, 1, 0]) := by
  intro o n
  have hi := reaches_inv argsort empty_inv hr
  have hn := reaches_normals argsort empty_inv empty_normals hr a ha _ hk
  obtain ⟨hdet, hobj, -⟩ := hi.synced a ha
  have hA : Affine o.world := ⟨hw, hdet⟩
  have hu : IsUnit o.world.det := isUnit_iff_ne_zero.2 hdet
  have hinv : ∀ y, o.world⁻¹ *ᵥ (o.world *ᵥ y) = y := fun y => by rw [mulVec_mulVec, nonsing_inv_mul _ hu, one_mulVec]
  set u := zeroW (o.world⁻¹ᵀ *ᵥ ![0, 0, 1, 0]) with hud
  have e3 : n = normalize u := by
    show o.nscale • _ = _
    rw [show o.objT = o.world⁻¹ from hobj, show o.nscale = 1 from ?_, one_smul]
    · rfl
    · rw [show o.nscale = _ from hn, if_neg]
      intro hs
      obtain ⟨c, k, hcs, hch, hk1⟩ := subtracted_chain hs
      have := hc c k hcs hch
      omega
  have hd : ∀ v : Vec4, v 3 = 0 → dot4 u (o.world *ᵥ v) = v 2 := by
    intro v hv
    rw [hud, dot_zeroW_transpose _ _ _ (by rw [affine_three hA, hv]), hinv]
    simp [dot4]
  have h1 := hd ![0, 0, 1, 0] rfl
  have hpos : 0 < norm4 u := by
    apply norm4_pos_of
    by_contra hcon
    push Not at hcon
    unfold dot4 at h1
    rw [hcon.1, hcon.2.1, hcon.2.2, show u 3 = 0 from rfl] at h1
    simp at h1
  rw [e3]
  refine ⟨by simp [normalize, show u 3 = 0 from rfl], norm4_normalize hpos, fun x y => ?_, ?_⟩
  · rw [dot4_normalize, hd _ rfl]; simp
  · rw [dot4_normalize, h1]; simpa using hpos

/-- A thin cuboid away from the origin. -/
noncomputable def thinCuboid : Prim := .cube ![0, 0, 1000] ![1, 1, 1000 + 5 / 1000]

theorem thin_normal : worldNormal ((newPrim Heap.empty thinCuboid).obj 0) thinCuboid ![1 / 2, 1 / 2, 1000, 1] = ![0, 0, 1, 0] := by
  have hc : ∀ (sp : ℝ × ℝ), sp = (0, 1) → cubeNormalComp sp (1 / 2) = 0 := by
    rintro sp rfl
    apply cubeNormalComp_none <;>
    · unfold isclose
      rw [not_le]
      norm_num [abs_of_nonneg, abs_of_neg]
  have hs : ∀ j : Fin 3, cubeSpans ![0, 0, 1000] ![1, 1, 1000 + 5 / 1000] j =
      (![(0, 1), (0, 1), (1000, 1000 + 5 / 1000)] : Fin 3 → ℝ × ℝ) j := by
    intro j
    fin_cases j <;> simp [cubeSpans] <;> norm_num
  have hz : cubeNormalComp (1000, 1000 + 5 / 1000) 1000 = 1 := by
    apply cubeNormalComp_hi
    unfold isclose
    norm_num [abs_of_nonneg, abs_of_neg]
  have hn : thinCuboid.normal ![1 / 2, 1 / 2, 1000, 1] = ![0, 0, 1, 0] := by
    simp only [thinCuboid, Prim.normal, hs]
    simp only [cons_val, hz, hc _ rfl]
    have : norm4 ![0, 0, 1, 0] = 1 := by unfold norm4; simp
    funext j
    simp only [normalize, this, div_one]
  have o1 : ((newPrim Heap.empty thinCuboid).obj 0).objT = 1 := by simp [newPrim, Heap.alloc, Heap.empty]
  have o2 : ((newPrim Heap.empty thinCuboid).obj 0).nscale = 1 := by simp [newPrim, Heap.alloc, Heap.empty]
  unfold worldNormal
  rw [o1, o2, one_mulVec, hn, transpose_one, one_mulVec, one_smul]
  have : zeroW ![0, 0, 1, 0] = ![0, 0, 1, 0] := by unfold zeroW; simp
  rw [this]
  have : norm4 ![0, 0, 1, 0] = 1 := by unfold norm4; simp
  funext j
  simp only [normalize, this, div_one]

/-- **C12 is false inside the tolerance bands.** For the fresh cuboid with corners (0,0,1000) and (1,1,1000.005), the normal
returned at the centre of its lower face is +z, which points into the cuboid: `np.isclose` has a relative tolerance, so the
point also counts as a point of the upper face, which is tested first. -/
theorem C12_thin_cuboid_false :
    Reaches argsort 1 Heap.empty (newPrim Heap.empty thinCuboid) ∧
    ((newPrim Heap.empty thinCuboid).obj 0).kind = .prim thinCuboid ∧
    worldNormal ((newPrim Heap.empty thinCuboid).obj 0) thinCuboid (point (1 / 2) (1 / 2) 1000) = vector 0 0 1 ∧
    ∀ s : ℝ, 0 < s → s < 5 / 1000 → Interior thinCuboid (point (1 / 2) (1 / 2) 1000 + s • vector 0 0 1) := by
  refine ⟨.step (.newPrim _) (.refl _) trivial rfl, by simp [newPrim, Heap.alloc, Heap.empty], thin_normal,
    fun s h0 h1 => ?_⟩
  intro j
  fin_cases j
  · simp [point, vector]; norm_num
  · simp [point, vector]; norm_num
  · simp [point, vector]; exact ⟨Or.inl h0, Or.inr (by linarith)⟩

/-- The hypotheses of `C12_normals_partial` are met by a sphere of radius 2 at the point (0,0,2) ... -/
example : ∃ h : Heap, Reaches argsort 1 Heap.empty h ∧ 0 < h.size ∧ (h.obj 0).kind = .prim (.sphere 2) ∧
    (h.obj 0).world 3 = ![0, 0, 0, 1] ∧ SmoothPoint (.sphere 2) (point 0 0 2) := by
  refine ⟨newPrim Heap.empty (.sphere 2), .step (.newPrim _) (.refl _) trivial rfl, by simp [newPrim, Heap.alloc, Heap.empty],
    by simp [newPrim, Heap.alloc, Heap.empty], ?_, ?_⟩
  · have : ((newPrim Heap.empty (.sphere 2)).obj 0).world = 1 := by simp [newPrim, Heap.alloc, Heap.empty]
    rw [this]
    funext j
    fin_cases j
    all_goals first | rfl | simp
  · simp [SmoothPoint, point]

/-- ... and every kind of solid has smooth points. -/
example : SmoothPoint (.cube ![-1, -1, -1] ![1, 1, 1]) (point 0 0 1) ∧ SmoothPoint (.cylinder 1 (-1) 1) (point 1 0 0) ∧
    SmoothPoint (.cylinder 1 (-1) 1) (point 0 0 (-1)) ∧ SmoothPoint (.paraboloid 1 4) (point 2 0 1) := by
  have c : ∀ a b : ℝ, 1 ≤ |a - b| → |b| ≤ 4 → ¬ isclose a b := fun a b h h' => by
    unfold isclose; rw [not_le]; norm_num; linarith
  refine ⟨⟨2, by change (-1 : ℝ) ≠ 1; norm_num, Or.inl (by simp [point]), fun j hj => ?_⟩, ?_, ?_, ?_⟩
  · have n1 : ¬ isclose 0 (-1) := c _ _ (by norm_num) (by norm_num)
    have n2 : ¬ isclose 0 1 := c _ _ (by norm_num) (by norm_num)
    fin_cases j
    · simp [point, n1, n2]
    · simp [point, n1, n2]
    · exact absurd rfl hj
  · have n1 : ¬ isclose 0 (-1) := c _ _ (by norm_num) (by norm_num)
    have n2 : ¬ isclose 0 1 := c _ _ (by norm_num) (by norm_num)
    refine ⟨one_pos, by norm_num, Or.inl ?_⟩
    simp [point, n1, n2]
  · have n1 : ¬ isclose (-1) 1 := c _ _ (by norm_num [abs_of_neg]) (by norm_num)
    refine ⟨one_pos, by norm_num, Or.inr (Or.inr ?_)⟩
    simp [point, n1]
  · have n1 : ¬ isclose 1 4 := c _ _ (by norm_num [abs_of_neg]) (by norm_num)
    refine ⟨one_pos, Or.inl ?_⟩
    simp [point, n1]; norm_num

end PyRayT
