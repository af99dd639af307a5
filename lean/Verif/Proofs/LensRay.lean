import Verif.Proofs.LensPath
import Verif.Props.Components3

/-! Helper lemmas for C88: a lens and a ray that is on its way through the glass. -/

namespace PyRayT

open Classical Matrix Spec Lens

variable {argsort : List EReal → List ℕ} {fuel : ℕ}

theorem cutSide_eval (convex : Prop) (r c : ℝ) (m : Option Material) (M : Made) (f : Prim → Mat4 → Prop) :
    ((cutSide (if convex then .intersect else .difference) r c m M).map turn).solid.eval f ↔
      (M.map turn).solid.eval f ∧ if convex then f (.sphere r) (turn * moveMatrix 0 0 c) else ¬ f (.sphere r) (turn * moveMatrix 0 0 c) := by
  by_cases h : convex
  · simp only [cutSide, Made.join, if_pos h]
    rw [if_neg (by simp)]
    simp only [Made.map, Made.solid, Solid.eval, Operation.holds]
  · simp only [cutSide, Made.join, if_neg h]
    rw [if_pos trivial]
    simp only [Made.map, Made.flip, Made.solid, Solid.eval, Operation.holds]

theorem cutSide_spine {op : Operation} (hop : op ≠ .union) {r c : ℝ} {m : Option Material} {M : Made} (h : (M.map turn).solid.Spine) :
    ((cutSide op r c m M).map turn).solid.Spine := by
  unfold cutSide Made.join
  split
  · exact ⟨hop, h, _, _, rfl⟩
  · exact ⟨hop, h, _, _, rfl⟩

theorem sag_pos {R q : ℝ} (hR : 0 < R) (h0 : 0 < q) : 0 < sag (some R) q := by
  simp only [sag, if_pos hR, sub_pos]
  rw [Real.sqrt_lt' hR]; linarith

theorem sag_neg {R q : ℝ} (hR : R < 0) (h0 : 0 < q) : sag (some R) q < 0 := by
  simp only [sag, if_neg (not_lt.2 hR.le)]
  have : √(R ^ 2 - q) < -R := by rw [Real.sqrt_lt' (by linarith)]; nlinarith
  linarith

theorem sag_zero {R : ℝ} : sag (some R) 0 = 0 := by
  simp only [sag, sub_zero, Real.sqrt_sq_eq_abs]
  split
  · rename_i h; rw [abs_of_pos h, sub_self]
  · rename_i h; rw [abs_of_nonpos (not_lt.1 h)]; ring

/-- how far the aperture reaches, strictly -/
theorem lens_reach {R1 R2 t : ℝ} {ap : Aperture} (fits : LensFits (some R1) (some R2) t ap) : ∃ lo hi : ℝ, lo ≤ hi ∧
    lensFullThickness (some R1) (some R2) t ap = (hi - lo, hi + lo) ∧
    ∀ q, 0 < q → q < rim ap → lo < -t / 2 + sag (some R1) q ∧ t / 2 + sag (some R2) q < hi := by
  obtain ⟨lo, hi, hle, hfull, s1, s2⟩ := fullThickness (some R1) (some R2) t ap fits.thick fits.wide1 fits.wide2
  refine ⟨lo, hi, hle, hfull, fun q q0 q1 => ?_⟩
  have w1 := fits.wide1 R1 rfl
  have w2 := fits.wide2 R2 rfl
  have hr := rim_pos fits.opening
  have n1 : R1 ≠ 0 := by rintro rfl; norm_num at w1; linarith
  have n2 : R2 ≠ 0 := by rintro rfl; norm_num at w2; linarith
  have k1 : ∀ q, 0 ≤ q → q ≤ rim ap → lo ≤ -t / 2 + sag (some R1) q := fun q h0 h1 =>
    (s1 q (R1 - t / 2 + √(R1 ^ 2 - q)) h0 h1 (fun r hr _ => by cases hr; exact le_rfl) (fun r hr => by cases hr; exact n1) 0).1
  have k2 : ∀ q, 0 ≤ q → q ≤ rim ap → t / 2 + sag (some R2) q ≤ hi := fun q h0 h1 =>
    (s2 q (R2 + t / 2 - √(R2 ^ 2 - q)) h0 h1 (fun r hr _ => by cases hr; exact le_rfl) (fun r hr => by cases hr; exact n2) 0).1
  have hs : ∀ R : ℝ, rim ap ≤ R ^ 2 → √(R ^ 2 - rim ap) < √(R ^ 2 - q) := fun R h => Real.sqrt_lt_sqrt (by linarith) (by linarith)
  constructor
  · rcases lt_or_gt_of_ne n1 with h | h
    · have := k1 (rim ap) hr.le le_rfl
      have h3 := hs R1 w1
      simp only [sag, if_neg (not_lt.2 h.le)] at this ⊢
      linarith
    · have := k1 0 le_rfl hr.le
      rw [sag_zero] at this
      have := sag_pos h q0
      linarith
  · rcases lt_or_gt_of_ne n2 with h | h
    · have := k2 0 le_rfl hr.le
      rw [sag_zero] at this
      have := sag_neg h q0
      linarith
    · have := k2 (rim ap) hr.le le_rfl
      have h3 := hs R2 w2
      simp only [sag, if_pos h] at this ⊢
      linarith

/-- the three surfaces -/
noncomputable def lensLeaf1 (R1 t : ℝ) (m : Material) : Prim × Mat4 × ℝ × Option Material :=
  (.sphere R1, turn * moveMatrix 0 0 (R1 - t / 2), if R1 > 0 then 1 else -1, some m)
noncomputable def lensLeaf2 (R2 t : ℝ) (m : Material) : Prim × Mat4 × ℝ × Option Material :=
  (.sphere R2, turn * moveMatrix 0 0 (R2 + t / 2), if R2 < 0 then 1 else -1, some m)

theorem thickLens_leaves {R1 R2 t lo hi : ℝ} {ap : Aperture} {m : Material} (hfull : lensFullThickness (some R1) (some R2) t ap = (hi - lo, hi + lo)) :
    ((thickLensMade (some R1) (some R2) t ap m).map turn).leaves =
      [(aperturePrim ap (hi - lo), turn * moveMatrix 0 0 ((hi + lo) / 2), 1, some m), lensLeaf1 R1 t m, lensLeaf2 R2 t m] := by
  simp only [thickLensMade, hfull, lensLeaf1, lensLeaf2]
  rw [map_leaves]
  unfold cutSide Made.join
  by_cases h1 : R1 > 0 <;> by_cases h2 : R2 < 0 <;> simp [h1, h2, Made.leaves, Made.flip]

/-- a sphere leaf placed on the axis -/
theorem sphereLeaf_interior (r c x y z : ℝ) : (Solid.leaf (.sphere r) (turn * moveMatrix 0 0 c)).Interior (point x y z) ↔
    y ^ 2 + z ^ 2 + (x - c) ^ 2 < r ^ 2 := by
  rw [turn_interior]; simp [Spec.Interior, point]

theorem sphereLeaf_outside (r c x y z : ℝ) : (Solid.leaf (.sphere r) (turn * moveMatrix 0 0 c)).Outside (point x y z) ↔
    r ^ 2 < y ^ 2 + z ^ 2 + (x - c) ^ 2 := by
  rw [turn_outside]; simp [Spec.Closed, point]

theorem sphereLeaf_sees {r c : ℝ} {ray : Ray} (hd : ray.d 3 = 0) (hx : ray.d 0 ≠ 0) : Spec.Sees (.sphere r) (ray.map (turn * moveMatrix 0 0 c)⁻¹) := by
  have e : (ray.map (turn * moveMatrix 0 0 c)⁻¹).d = vector (ray.d 1) (ray.d 2) (ray.d 0) := turn_move_dir 0 0 c hd
  simp only [Spec.Sees, e]
  exact .inr (.inr hx)

/-- The ray in the glass, from the distance `μ` on behind the front. -/
noncomputable def Lens.inner (R1 t n y z μ : ℝ) : Ray :=
  let q := y ^ 2 + z ^ 2
  ⟨point (x1 R1 t q + μ * a1 R1 n q) ((1 + μ * b1 R1 n q) * y) ((1 + μ * b1 R1 n q) * z), vector (a1 R1 n q) (b1 R1 n q * y) (b1 R1 n q * z)⟩

theorem Lens.inner_at (R1 t n y z μ v : ℝ) : (Lens.inner R1 t n y z μ).at v =
    point (x1 R1 t (y ^ 2 + z ^ 2) + (v + μ) * a1 R1 n (y ^ 2 + z ^ 2)) ((1 + (v + μ) * b1 R1 n (y ^ 2 + z ^ 2)) * y)
      ((1 + (v + μ) * b1 R1 n (y ^ 2 + z ^ 2)) * z) := by
  funext i
  fin_cases i <;> simp [Ray.at, Lens.inner, point, vector] <;> ring

section
variable {R1 R2 t n ρ : ℝ} {ap : Aperture} {y z : ℝ}

theorem height_eq (k y z : ℝ) : (k * y) ^ 2 + (k * z) ^ 2 = k ^ 2 * (y ^ 2 + z ^ 2) := by ring

/-- the aperture contains the ray on its way through the glass -/
theorem Lens.Good.in_aperture (g : Lens.Good R1 R2 t n ρ (y ^ 2 + z ^ 2)) (hn : n ≠ 0) (h1 : R1 ≠ 0) (h2 : R2 ≠ 0)
    (fits : LensFits (some R1) (some R2) t ap) (hρ : ∀ y z, y ^ 2 + z ^ 2 < ρ → inAperture ap y z) (hρ2 : ρ ≤ rim ap) {lo hi : ℝ}
    (hle : lo ≤ hi) (hreach : ∀ q, 0 < q → q < rim ap → lo < -t / 2 + sag (some R1) q ∧ t / 2 + sag (some R2) q < hi) {s : ℝ} (hs : 0 ≤ s)
    (hs2 : s ≤ Lens.path R1 R2 t n (y ^ 2 + z ^ 2)) :
    (Solid.leaf (aperturePrim ap (hi - lo)) (turn * moveMatrix 0 0 ((hi + lo) / 2))).Interior
      (point (x1 R1 t (y ^ 2 + z ^ 2) + s * a1 R1 n (y ^ 2 + z ^ 2)) ((1 + s * b1 R1 n (y ^ 2 + z ^ 2)) * y)
      ((1 + s * b1 R1 n (y ^ 2 + z ^ 2)) * z)) := by
  rw [turn_interior, aperture_interior fits.opening (by linarith), sub_zero, sub_zero]
  have hp := g.hpath
  have ha := g.ha
  have hlow := g.low
  have hx1 : x1 R1 t (y ^ 2 + z ^ 2) = -t / 2 + sag (some R1) (y ^ 2 + z ^ 2) := by rw [Lens.sag_eq h1]; unfold x1; ring
  have k1 := (hreach _ g.q0 (by linarith)).1
  have k2 := (hreach (Lens.c2 R1 R2 t n (y ^ 2 + z ^ 2) ^ 2 * (y ^ 2 + z ^ 2)) (mul_pos (by have := g.hc2; positivity) g.q0) (by
    have := g.height (s := Lens.path R1 R2 t n (y ^ 2 + z ^ 2)) (by norm_num at hp; linarith) (by linarith)
    unfold Lens.c2
    linarith)).2
  rw [← g.back_sag hn h1 h2] at k2
  rw [← hx1] at k1
  unfold Lens.x2 at k2
  set q := y ^ 2 + z ^ 2
  refine ⟨hρ _ _ ?_, ?_⟩
  · rw [height_eq]
    exact g.height hs (by linarith)
  · rw [abs_lt]
    have e1 : 0 ≤ s * a1 R1 n q := mul_nonneg hs (by linarith)
    have e2 : s * a1 R1 n q ≤ Lens.path R1 R2 t n q * a1 R1 n q := mul_le_mul_of_nonneg_right hs2 (by linarith)
    constructor <;> linarith

theorem thickLens_solid_facts (m : Material) : ((thickLensMade (some R1) (some R2) t ap m).map turn).solid.Spine ∧
    ((thickLensMade (some R1) (some R2) t ap m).map turn).solid.All (fun p w => p.Valid ∧ Affine w) ∧
    ((thickLensMade (some R1) (some R2) t ap m).map turn).depth = 3 := by
  refine ⟨cutSide_spine (ite_ne_union _) (cutSide_spine (ite_ne_union _) trivial), ?_, ?_⟩
  · have hv : ∀ r, Prim.Valid (.sphere r) := fun _ => trivial
    simp only [thickLensMade]
    unfold cutSide Made.join
    by_cases h1 : R1 > 0 <;> by_cases h2 : R2 < 0 <;> simp [h1, h2, Made.flip, Made.map, Made.solid, Solid.All, turn_move_affine, aperture_valid, hv]
  · rw [Made.map_depth]; simp [thickLensMade, cutSide_depth, Made.depth]

/-- what the lens reports about the ray in the glass: it leaves through the back, and nothing is met before -/
theorem lens_inner (ha : IsArgsort argsort) {s0 s : Scene} {T : CTree} {m : Material}
    (c : Ctx argsort fuel s0 s [(T, (thickLensMade (some R1) (some R2) t ap m).map turn)])
    (g : Lens.Good R1 R2 t n ρ (y ^ 2 + z ^ 2)) (hn : n ≠ 0) (h1 : R1 ≠ 0) (h2 : R2 ≠ 0)
    (fits : LensFits (some R1) (some R2) t ap) (hρ : ∀ y z, y ^ 2 + z ^ 2 < ρ → inAperture ap y z) (hρ2 : ρ ≤ rim ap)
    {depth : ℕ} (hdep : 3 ≤ depth) :
    (∀ v : ℝ, 0 < v → ∀ id, Reports argsort s T.root depth (Lens.inner R1 t n y z 1e-6) v id → v + 1e-6 ≤ Lens.path R1 R2 t n (y ^ 2 + z ^ 2) →
      v + 1e-6 = Lens.path R1 R2 t n (y ^ 2 + z ^ 2) ∧ ∃ x < s.heap.size, id = (s.heap.obj x).oid ∧
        ((s.heap.obj x).oid, x) ∈ surfaceIds depth s.heap T.root ∧ IsLeaf s x (lensLeaf2 R2 t m)) ∧
    (∀ η > 0, ∃ w : ℝ, (w : EReal) ∈ (intersectObj argsort depth s.heap T.root (Lens.inner R1 t n y z 1e-6)).1 ∧ 0 < w ∧
      w < Lens.path R1 R2 t n (y ^ 2 + z ^ 2) - 1e-6 + η) := by
  obtain ⟨lo, hi, hle, hfull, hreach⟩ := lens_reach fits
  have hap : ∀ s, 0 ≤ s → s ≤ Lens.path R1 R2 t n (y ^ 2 + z ^ 2) → _ := fun s hs hs2 => g.in_aperture hn h1 h2 fits hρ hρ2 hle hreach hs hs2
  obtain ⟨fspine, fall, fdepth⟩ := thickLens_solid_facts (R1 := R1) (R2 := R2) (t := t) (ap := ap) m
  have hleaves := thickLens_leaves (m := m) hfull
  obtain ⟨hdesc, -, haddr, -⟩ := c.parts _ List.mem_cons_self
  simp only at hdesc haddr
  have hp := g.hpath
  have hp0 : 0 < Lens.path R1 R2 t n (y ^ 2 + z ^ 2) := by norm_num at hp; linarith
  have ha1 := g.ha
  set ray := Lens.inner R1 t n y z 1e-6 with hray
  have hd3 : ray.d 3 = 0 := rfl
  have hd0 : ray.d 0 = a1 R1 n (y ^ 2 + z ^ 2) := rfl
  have hx : ¬ isclose0 (ray.d 0) := by
    rw [hd0]; apply not_isclose0
    rw [abs_of_pos (by linarith)]; norm_num; linarith
  have hx0 : ray.d 0 ≠ 0 := by rw [hd0]; linarith
  have hat : ∀ v, ray.at v = _ := fun v => Lens.inner_at R1 t n y z 1e-6 v
  have hin : ∀ v : ℝ, v + 1e-6 ≤ Lens.path R1 R2 t n (y ^ 2 + z ^ 2) → 0 ≤ v + 1e-6 →
      SBtw (sort2 ((aperturePrim ap (hi - lo)).intersect (ray.map (turn * moveMatrix 0 0 ((hi + lo) / 2))⁻¹))) v := by
    intro v hv hv0
    have hdet := (turn_move_affine 0 0 ((hi + lo) / 2)).2
    have ed : (ray.map (turn * moveMatrix 0 0 ((hi + lo) / 2))⁻¹).d = vector (ray.d 1) (ray.d 2) (ray.d 0) := turn_move_dir _ _ _ hd3
    have eo : (ray.map (turn * moveMatrix 0 0 ((hi + lo) / 2))⁻¹).o = _ := turn_move_point 0 0 ((hi + lo) / 2) (ray.o 0) (ray.o 1) (ray.o 2)
    refine aperture_within (by linarith) ?_ ?_ (by rw [ed]; exact hx) ?_
    · have := hap 1e-6 (by norm_num) hp.le
      rw [leaf_interior hdet] at this
      exact this
    · have := hap (v + 1e-6) hv0 hv
      rw [leaf_interior hdet, ← hat v, ← Ray.map_at] at this
      exact this
    · intro D _
      have n1 := g.near1
      have n2 := g.near2
      rw [ed, eo]
      constructor
      · unfold isclose0
        have : ray.d 1 * ray.d 1 + ray.d 2 * ray.d 2 = b1 R1 n (y ^ 2 + z ^ 2) ^ 2 * (y ^ 2 + z ^ 2) := by
          simp only [hray, Lens.inner, vector]; simp; ring
        change |ray.d 1 * ray.d 1 + ray.d 2 * ray.d 2| ≤ _
        rw [this, abs_of_nonneg (by positivity)]
        exact n1.le
      · unfold isclose0
        have : 2 * (ray.d 1 * (ray.o 1 - 0) + ray.d 2 * (ray.o 2 - 0)) =
            2 * (b1 R1 n (y ^ 2 + z ^ 2) * (1 + 1e-6 * b1 R1 n (y ^ 2 + z ^ 2)) * (y ^ 2 + z ^ 2)) := by
          simp only [hray, Lens.inner, vector, point]; simp; ring
        change |2 * (ray.d 1 * (ray.o 1 - 0) + ray.d 2 * (ray.o 2 - 0))| ≤ _
        rw [this]
        exact n2.le
  have hS1 : ∀ v : ℝ, 0 < v + 1e-6 → v + 1e-6 ≤ Lens.path R1 R2 t n (y ^ 2 + z ^ 2) → _ := fun v hv hv2 => g.side1 hn h1 hv hv2
  constructor
  · intro v v0 id ⟨i, hv, hl⟩ hle
    obtain ⟨x, p, hu, hm, hk, e, hmem⟩ := intersectObj_label argsort ha s.heap ray depth T.root i v id hv (EReal.coe_ne_top v) hl
    obtain ⟨l, hll, hrel⟩ := forall₂_mem_left (hdesc.surfaces (by omega)) hm
    have hxs := (haddr x ((hdesc.under_iff x).1 hu)).2
    have hpl : p = l.1 := by have := hrel.1; rw [hk] at this; exact Kind.prim.inj this
    rw [(c.ready.inv.synced x hxs).2.1, hrel.2.1, hpl] at hmem
    rw [hleaves] at hll
    simp only [List.mem_cons, List.not_mem_nil, or_false] at hll
    have v0' : 0 < v + 1e-6 := by norm_num; linarith
    rcases hll with rfl | rfl | rfl
    · exfalso
      have hb := hin v hle v0'.le
      simp only [leafIntersect, List.mem_cons, List.not_mem_nil, or_false] at hmem
      rcases hmem with hm' | hm'
      · exact absurd hb.1 (by rw [← hm']; exact lt_irrefl _)
      · exact absurd hb.2 (by rw [← hm']; exact lt_irrefl _)
    · exfalso
      obtain ⟨b1, b2⟩ := leaf_boundary (turn_move_affine _ _ _).2 (sphereLeaf_sees hd3 hx0) _ v hmem
      rw [hat, sphereLeaf_interior, height_eq] at b1
      rw [hat, sphereLeaf_outside, height_eq] at b2
      have := hS1 v v0' hle
      unfold sideIn at this
      split at this
      · exact b1 this
      · exact b2 this
    · obtain ⟨b1, b2⟩ := leaf_boundary (turn_move_affine _ _ _).2 (sphereLeaf_sees hd3 hx0) _ v hmem
      rw [hat, sphereLeaf_interior, height_eq] at b1
      rw [hat, sphereLeaf_outside, height_eq] at b2
      exact ⟨g.only hn h1 h2 v0'.le hle (le_antisymm (not_lt.1 b2) (not_lt.1 b1)), x, hxs, e, hm, hrel⟩
  · intro η hη
    have hbase : ∀ v : ℝ, v + 1e-6 < Lens.path R1 R2 t n (y ^ 2 + z ^ 2) → 0 < v + 1e-6 →
        ((thickLensMade (some R1) (some R2) t ap m).map turn).solid.Interior (ray.at v) := by
      intro v hv hv0
      have q1 := hap (v + 1e-6) hv0.le hv.le
      have q2 := hS1 v hv0 hv.le
      have q3 := g.side2 hn h1 h2 hv0.le hv
      rw [hat]
      simp only [thickLensMade, hfull]
      rw [cutSide_interior, cutSide_interior, height_eq]
      exact ⟨⟨q1, q2⟩, q3⟩
    have heval := fun v : ℝ => intersectObj_spine ha hdesc.represents fspine (ray := ray) rfl (j := 0) hx fall (c.boxesOk (thickLens_noUnion _ _ _ _ _))
      (fun x p hu _ => (c.ready.inv.synced x (haddr x ((hdesc.under_iff x).1 hu)).2).2.1)
      (by have := hbase 0 (by linarith) (by norm_num)
          rwa [show ray.at 0 = ray.o by funext i; simp [Ray.at]] at this) depth (by rw [Made.solid_depth, fdepth]; exact hdep) (v : EReal)
    obtain ⟨η', hη', hbeh⟩ := g.behind hn h1 h2
    obtain ⟨ζ, hζ, hζ1, hζ2⟩ : ∃ ζ > 0, ζ < η ∧ ζ < η' := ⟨min η η' / 2, by positivity, by
      have := min_le_left η η'; have : 0 < min η η' := by positivity
      linarith, by
      have := min_le_right η η'; have : 0 < min η η' := by positivity
      linarith⟩
    set v1 : ℝ := (Lens.path R1 R2 t n (y ^ 2 + z ^ 2) - 1e-6) / 2 with hv1
    set v2 : ℝ := Lens.path R1 R2 t n (y ^ 2 + z ^ 2) - 1e-6 + ζ with hv2
    have hs1 : ∀ (v : ℝ) (r c : ℝ), _ := fun v r c => leaf_inside (turn_move_affine 0 0 c).2 (sphereLeaf_sees (r := r) hd3 hx0) 0 v
    have i1 : InsideAt (intersectObj argsort depth s.heap T.root ray).1 v1 := by
      rw [heval]
      have w0 : 0 < v1 + 1e-6 := by rw [hv1]; linarith
      have w1 : v1 + 1e-6 < Lens.path R1 R2 t n (y ^ 2 + z ^ 2) := by rw [hv1]; linarith
      have q1 := hin v1 w1.le w0.le
      have q2 := hS1 v1 w0 w1.le
      have q3 := g.side2 hn h1 h2 w0.le w1
      simp only [thickLensMade, hfull]
      rw [cutSide_eval, cutSide_eval]
      refine ⟨⟨?_, ?_⟩, ?_⟩
      · change InsideAt (leafIntersect _ 0 _ ray).1 _
        simp only [leafIntersect]
        rw [insideAt_pair (sort2_le _)]
        exact ⟨q1.1, q1.2.le⟩
      · unfold sideIn at q2
        have k := hs1 v1 R1 (R1 - t / 2)
        rw [hat, sphereLeaf_interior, sphereLeaf_outside, height_eq] at k
        split at q2
        · rw [if_pos (by assumption)]; exact k.1 q2
        · rw [if_neg (by assumption)]; exact k.2 q2
      · unfold sideIn at q3
        have k := hs1 v1 R2 (R2 + t / 2)
        rw [hat, sphereLeaf_interior, sphereLeaf_outside, height_eq] at k
        split at q3
        · rw [if_pos (by assumption)]; exact k.1 q3
        · rw [if_neg (by assumption)]; exact k.2 q3
    have i2 : ¬ InsideAt (intersectObj argsort depth s.heap T.root ray).1 v2 := by
      rw [heval]
      simp only [thickLensMade, hfull]
      rw [cutSide_eval]
      rintro ⟨-, hh⟩
      have q3 := hbeh (v2 + 1e-6) (by rw [hv2]; linarith) (by rw [hv2]; linarith)
      unfold sideOut at q3
      have k := hs1 v2 R2 (R2 + t / 2)
      rw [hat, sphereLeaf_interior, sphereLeaf_outside, height_eq] at k
      split at q3
      · rw [if_pos (by assumption)] at hh; exact k.2 q3 hh
      · rw [if_neg (by assumption)] at hh; exact hh (k.1 q3)
    obtain ⟨w, hw, w1, w2⟩ := crossing_hit (t := v1) (t' := v2) (by rw [hv1, hv2]; linarith) (fun e => i2 (e.1 i1))
    refine ⟨w, hw, ?_, ?_⟩
    · have : 0 < v1 := by rw [hv1]; linarith
      linarith
    · rw [hv2] at w2; linarith
end

end PyRayT
