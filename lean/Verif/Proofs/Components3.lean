import Verif.Proofs.Components2

/-! Which points the other components contain. -/

namespace PyRayT

open Classical Matrix

variable {argsort : List EReal → List ℕ} {fuel : ℕ}

theorem turn_sphere (r c x y z : ℝ) :
    ((Solid.leaf (.sphere r) (turn * moveMatrix 0 0 c)).Interior (point x y z) ↔ (y ^ 2 + z ^ 2) + (x - c) ^ 2 < r ^ 2) ∧
    ((Solid.leaf (.sphere r) (turn * moveMatrix 0 0 c)).Outside (point x y z) ↔ r ^ 2 < (y ^ 2 + z ^ 2) + (x - c) ^ 2) := by
  rw [turn_interior, turn_outside]
  simp [Spec.Interior, Spec.Closed, point]

theorem turn_aperture {ap : Aperture} (hap : Spec.goodAperture ap) {T : ℝ} (hT : 0 ≤ T) (a b c x y z : ℝ) :
    ((Solid.leaf (aperturePrim ap T) (turn * moveMatrix a b c)).Interior (point x y z) ↔
      Spec.inAperture ap (y - a) (z - b) ∧ c - T / 2 < x ∧ x < c + T / 2) ∧
    ((Solid.leaf (aperturePrim ap T) (turn * moveMatrix a b c)).Outside (point x y z) ↔
      Spec.offAperture ap (y - a) (z - b) ∨ x < c - T / 2 ∨ c + T / 2 < x) :=
  base_points hap hT a b c 1 none x y z

/-- the balls and the cylinder of a biconvex lens, as the code places them -/
theorem biconvex_points (r1 r2 : ℝ) {t : ℝ} (ht : 0 ≤ t) {ap : Aperture} (hap : Spec.goodAperture ap) (m : Material) (x y z : ℝ) :
    (((biconvexMade r1 r2 t ap m).map turn).solid.Interior (point x y z) ↔
      ((y ^ 2 + z ^ 2) + (x - (r1 - t / 2)) ^ 2 < r2 ^ 2 ∧ (y ^ 2 + z ^ 2) + (x + (r1 - t / 2)) ^ 2 < r1 ^ 2) ∧
      Spec.inAperture ap y z ∧ -(t / 2) < x ∧ x < t / 2) ∧
    (((biconvexMade r1 r2 t ap m).map turn).solid.Outside (point x y z) ↔
      (r2 ^ 2 < (y ^ 2 + z ^ 2) + (x - (r1 - t / 2)) ^ 2 ∨ r1 ^ 2 < (y ^ 2 + z ^ 2) + (x + (r1 - t / 2)) ^ 2) ∨
      Spec.offAperture ap y z ∨ x < -(t / 2) ∨ t / 2 < x) := by
  simp only [biconvexMade, Made.map, Made.solid, Solid.Interior.eq_3, Solid.Outside.eq_3, turn_sphere, turn_aperture hap ht, sub_zero,
    zero_sub, zero_add, sub_neg_eq_add]
  exact ⟨trivial, trivial⟩

theorem planoConvex_points (r : ℝ) {t : ℝ} (ht : 0 ≤ t) {ap : Aperture} (hap : Spec.goodAperture ap) (m : Material) (x y z : ℝ) :
    (((planoConvexMade r t ap m).map turn).solid.Interior (point x y z) ↔
      (y ^ 2 + z ^ 2) + (x - (-(r - t / 2))) ^ 2 < r ^ 2 ∧ Spec.inAperture ap y z ∧ -(t / 2) < x ∧ x < t / 2) ∧
    (((planoConvexMade r t ap m).map turn).solid.Outside (point x y z) ↔
      r ^ 2 < (y ^ 2 + z ^ 2) + (x - (-(r - t / 2))) ^ 2 ∨ Spec.offAperture ap y z ∨ x < -(t / 2) ∨ t / 2 < x) := by
  simp only [planoConvexMade, Made.map, Made.solid, Solid.Interior.eq_3, Solid.Outside.eq_3, turn_sphere, turn_aperture hap ht, sub_zero,
    zero_sub, zero_add]
  exact ⟨trivial, trivial⟩

theorem planoConvex_spec {r t : ℝ} (hr : 0 < r) {ap : Aperture} (hf : Spec.LensFits none (some (-r)) t ap) (m : Material) (x y z : ℝ) :
    (((planoConvexMade r t ap m).map turn).solid.Interior (point x y z) ↔
      Spec.inAperture ap y z ∧ -t / 2 + Spec.sag none (y ^ 2 + z ^ 2) < x ∧ x < t / 2 + Spec.sag (some (-r)) (y ^ 2 + z ^ 2)) ∧
    (((planoConvexMade r t ap m).map turn).solid.Outside (point x y z) ↔
      Spec.offAperture ap y z ∨ x < -t / 2 + Spec.sag none (y ^ 2 + z ^ 2) ∨ t / 2 + Spec.sag (some (-r)) (y ^ 2 + z ^ 2) < x) := by
  obtain ⟨h1, h2⟩ := planoConvex_points r hf.thick hf.opening m x y z
  rw [h1, h2]
  set q := y ^ 2 + z ^ 2 with hq
  have hq0 : 0 ≤ q := by positivity
  by_cases hoff : Spec.offAperture ap y z
  · have hin : ¬ Spec.inAperture ap y z := fun h => inAperture_not_off h hoff
    simp [hoff, hin]
  · have hqr : q ≤ Spec.rim ap := rim_bound hoff
    have hw := hf.wide2 (-r) rfl
    have hfar := hf.far2 q hq0 hqr (-r) rfl (by linarith)
    obtain ⟨f1, f2, f3⟩ := sqrt_facts (r := r) hq0 hqr
    rw [neg_sq] at hw hfar
    rw [abs_of_pos hr] at f3
    simp only [Spec.sag, if_neg (show ¬ 0 < -r by linarith), neg_sq] at hfar ⊢
    rw [ball_in, ball_out (hqr.trans hw)]
    have ht := hf.thick
    constructor
    · constructor
      · rintro ⟨⟨-, h4⟩, h, h5, -⟩
        exact ⟨h, by linarith, by linarith⟩
      · rintro ⟨h, h3, h4⟩
        exact ⟨⟨by linarith, by linarith⟩, h, by linarith, by linarith⟩
    · constructor
      · rintro ((h | h) | h | h | h)
        · exact .inr (.inl (by linarith))
        · exact .inr (.inr (by linarith))
        · exact .inl h
        · exact .inr (.inl (by linarith))
        · exact .inr (.inr (by linarith))
      · rintro (h | h | h)
        · exact .inr (.inl h)
        · exact .inr (.inr (.inl (by linarith)))
        · exact .inl (.inr (by linarith))

theorem biconvex_spec {r t : ℝ} (hr : 0 < r) {ap : Aperture} (hf : Spec.LensFits (some r) (some (-r)) t ap) (m : Material) (x y z : ℝ) :
    (((biconvexMade r r t ap m).map turn).solid.Interior (point x y z) ↔
      Spec.inAperture ap y z ∧ -t / 2 + Spec.sag (some r) (y ^ 2 + z ^ 2) < x ∧ x < t / 2 + Spec.sag (some (-r)) (y ^ 2 + z ^ 2)) ∧
    (((biconvexMade r r t ap m).map turn).solid.Outside (point x y z) ↔
      Spec.offAperture ap y z ∨ x < -t / 2 + Spec.sag (some r) (y ^ 2 + z ^ 2) ∨ t / 2 + Spec.sag (some (-r)) (y ^ 2 + z ^ 2) < x) := by
  obtain ⟨h1, h2⟩ := biconvex_points r r hf.thick hf.opening m x y z
  rw [h1, h2]
  set q := y ^ 2 + z ^ 2 with hq
  have hq0 : 0 ≤ q := by positivity
  by_cases hoff : Spec.offAperture ap y z
  · have hin : ¬ Spec.inAperture ap y z := fun h => inAperture_not_off h hoff
    simp [hoff, hin]
  · have hqr : q ≤ Spec.rim ap := rim_bound hoff
    have hw := hf.wide1 r rfl
    have hfar := hf.far2 q hq0 hqr (-r) rfl (by linarith)
    obtain ⟨f1, f2, f3⟩ := sqrt_facts (r := r) hq0 hqr
    rw [neg_sq] at hfar
    rw [abs_of_pos hr] at f3
    simp only [Spec.sag, if_neg (show ¬ 0 < -r by linarith), if_pos hr, neg_sq] at hfar ⊢
    rw [show x + (r - t / 2) = x - (-(r - t / 2)) by ring]
    rw [ball_in, ball_out (hqr.trans hw), ball_in, ball_out (hqr.trans hw)]
    have ht := hf.thick
    constructor
    · constructor
      · rintro ⟨⟨⟨h3, -⟩, -, h4⟩, h, -, -⟩
        exact ⟨h, by linarith, by linarith⟩
      · rintro ⟨h, h3, h4⟩
        exact ⟨⟨⟨by linarith, by linarith⟩, by linarith, by linarith⟩, h, by linarith, by linarith⟩
    · constructor
      · rintro (((h | h) | h | h) | h | h | h)
        · exact .inr (.inl (by linarith))
        · exact .inr (.inr (by linarith))
        · exact .inr (.inl (by linarith))
        · exact .inr (.inr (by linarith))
        · exact .inl h
        · exact .inr (.inl (by linarith))
        · exact .inr (.inr (by linarith))
      · rintro (h | h | h)
        · exact .inr (.inl h)
        · exact .inl (.inl (.inl (by linarith)))
        · exact .inl (.inr (.inr (by linarith)))

/-! ### mirrors -/

theorem maxHeight_nonneg {ap : Aperture} (h : Spec.goodAperture ap) : 0 ≤ ap.maxHeight := by
  cases ap with
  | scalar d => simp only [Aperture.maxHeight]; exact div_nonneg (le_of_lt h) (by norm_num)
  | pair a b => simp only [Aperture.maxHeight]; positivity

theorem maxHeight_eq {ap : Aperture} (h : Spec.goodAperture ap) : ap.maxHeight = √(Spec.rim ap) := by
  rw [← maxHeight_sq, Real.sqrt_sq (maxHeight_nonneg h)]

/-- points of a displaced aperture -/
theorem off_bound {ap : Aperture} {ox oy y z : ℝ} (h : ¬ Spec.offAperture ap (y - ox) (z - oy)) :
    y ^ 2 + z ^ 2 ≤ (√(ox ^ 2 + oy ^ 2) + √(Spec.rim ap)) ^ 2 := by
  have h1 := rim_bound h
  set l := √(ox ^ 2 + oy ^ 2) with hl
  set k := √(Spec.rim ap) with hk
  have l0 : 0 ≤ l := Real.sqrt_nonneg _
  have k0 : 0 ≤ k := Real.sqrt_nonneg _
  have l2 : l ^ 2 = ox ^ 2 + oy ^ 2 := Real.sq_sqrt (by positivity)
  have hrim : 0 ≤ Spec.rim ap := le_trans (by positivity) h1
  have k2 : k ^ 2 = Spec.rim ap := Real.sq_sqrt hrim
  set u := y - ox with hu
  set v := z - oy with hv
  have hc : u * ox + v * oy ≤ k * l := by
    apply abs_le_of_sq_le_sq' _ (by positivity) |>.2
    have : (u * ox + v * oy) ^ 2 ≤ (u ^ 2 + v ^ 2) * (ox ^ 2 + oy ^ 2) := by nlinarith [sq_nonneg (u * oy - v * ox)]
    calc (u * ox + v * oy) ^ 2 ≤ (u ^ 2 + v ^ 2) * (ox ^ 2 + oy ^ 2) := this
      _ ≤ k ^ 2 * l ^ 2 := by rw [l2, k2]; exact mul_le_mul_of_nonneg_right h1 (by positivity)
      _ = (k * l) ^ 2 := by ring
  have : y = u + ox ∧ z = v + oy := by constructor <;> simp [hu, hv]
  rw [this.1, this.2]
  nlinarith

theorem spherical_points (r t : ℝ) (hr : r ≠ 0) (ht : 0 ≤ t) {ap : Aperture} (hap : Spec.goodAperture ap) (off : ℝ × ℝ)
    (hw : √(off.1 ^ 2 + off.2 ^ 2) + √(Spec.rim ap) ≤ |r|) (m : Material) (x y z : ℝ) :
    (((sphericalMade r t ap m off).map turn).solid.Interior (point x y z) ↔
      Spec.inAperture ap (y - off.1) (z - off.2) ∧
        if 0 < r then -t < x ∧ x < Spec.sag (some r) (y ^ 2 + z ^ 2) else Spec.sag (some r) (y ^ 2 + z ^ 2) < x ∧ x < t) ∧
    (((sphericalMade r t ap m off).map turn).solid.Outside (point x y z) ↔
      Spec.offAperture ap (y - off.1) (z - off.2) ∨
        if 0 < r then x < -t ∨ Spec.sag (some r) (y ^ 2 + z ^ 2) < x else x < Spec.sag (some r) (y ^ 2 + z ^ 2) ∨ t < x) := by
  set K := √(off.1 ^ 2 + off.2 ^ 2) + √(Spec.rim ap) with hK
  have hK0 : 0 ≤ K := by positivity
  have hfr : sphFront r ap off = |r| - √(r ^ 2 - K ^ 2) := by rw [sphFront, maxHeight_eq hap]
  have hK2 : K ^ 2 ≤ r ^ 2 := by rw [← sq_abs r]; exact pow_le_pow_left₀ hK0 hw 2
  set F := sphFront r ap off with hF
  have hsq : √(r ^ 2 - K ^ 2) ≤ |r| := by
    rw [← Real.sqrt_sq_eq_abs]; exact Real.sqrt_le_sqrt (by nlinarith)
  have hF0 : 0 ≤ F := by linarith
  simp only [sphericalMade, Made.map, Made.solid, Solid.Interior.eq_4, Solid.Outside.eq_4, turn_sphere, ← hF,
    turn_aperture hap (show 0 ≤ t + F by linarith)]
  set q := y ^ 2 + z ^ 2 with hq
  have hq0 : 0 ≤ q := by positivity
  rw [sq_abs]
  by_cases hoff : Spec.offAperture ap (y - off.1) (z - off.2)
  · have hin : ¬ Spec.inAperture ap (y - off.1) (z - off.2) := fun h => inAperture_not_off h hoff
    simp [hoff, hin]
  · have hqK : q ≤ K ^ 2 := off_bound hoff
    have hs2 : √(r ^ 2 - K ^ 2) ≤ √(r ^ 2 - q) := Real.sqrt_le_sqrt (by linarith)
    have hs0 : 0 ≤ √(r ^ 2 - K ^ 2) := Real.sqrt_nonneg _
    rw [ball_in, ball_out (hqK.trans hK2)]
    by_cases hp : 0 < r
    · simp only [gt_iff_lt, if_pos hp, Spec.sag]
      rw [abs_of_pos hp] at hfr
      constructor
      · constructor
        · rintro ⟨⟨h, h1, h2⟩, h3 | h3⟩
          · exact ⟨h, by linarith, by linarith⟩
          · exact ⟨h, by linarith, by linarith⟩
        · rintro ⟨h, h1, h2⟩
          exact ⟨⟨h, by linarith, by linarith⟩, .inl (by linarith)⟩
      · constructor
        · rintro ((h | h | h) | ⟨h1, h2⟩)
          · exact .inl h
          · exact .inr (.inl (by linarith))
          · exact .inr (.inr (by linarith))
          · exact .inr (.inr (by linarith))
        · rintro (h | h | h)
          · exact .inl (.inl h)
          · exact .inl (.inr (.inl (by linarith)))
          · by_cases h1 : F < x
            · exact .inl (.inr (.inr (by linarith)))
            · refine .inr ⟨by linarith, ?_⟩
              by_contra hc
              have : r + √(r ^ 2 - q) ≤ x := not_lt.1 hc
              linarith
    · have hn : r < 0 := lt_of_le_of_ne (not_lt.1 hp) hr
      simp only [gt_iff_lt, if_neg hp, Spec.sag]
      rw [abs_of_neg hn] at hfr
      constructor
      · constructor
        · rintro ⟨⟨h, h1, h2⟩, h3 | h3⟩
          · exact ⟨h, by linarith, by linarith⟩
          · exact ⟨h, by linarith, by linarith⟩
        · rintro ⟨h, h1, h2⟩
          exact ⟨⟨h, by linarith, by linarith⟩, .inr (by linarith)⟩
      · constructor
        · rintro ((h | h | h) | ⟨h1, h2⟩)
          · exact .inl h
          · exact .inr (.inl (by linarith))
          · exact .inr (.inr (by linarith))
          · exact .inr (.inl (by linarith))
        · rintro (h | h | h)
          · exact .inl (.inl h)
          · by_cases h1 : x < -F
            · exact .inl (.inr (.inl (by linarith)))
            · refine .inr ⟨?_, by linarith⟩
              by_contra hc
              have : x ≤ r - √(r ^ 2 - q) := not_lt.1 hc
              linarith
          · exact .inl (.inr (.inr (by linarith)))

theorem furthest_bound {ap : Aperture} (hap : Spec.goodAperture ap) {off : ℝ × ℝ} {y z : ℝ} (h : ¬ Spec.offAperture ap (y - off.1) (z - off.2)) :
    y ^ 2 + z ^ 2 ≤ furthestPoint ap off ^ 2 := by
  cases ap with
  | scalar d =>
    have h1 := off_bound h
    have hd : 0 < d := hap
    simp only [Spec.rim] at h1
    rw [Real.sqrt_sq (by linarith)] at h1
    refine h1.trans ?_
    simp only [furthestPoint]
    have := Real.sqrt_nonneg (off.1 ^ 2 + off.2 ^ 2)
    nlinarith
  | pair a b =>
    simp only [Spec.offAperture, not_or, not_lt] at h
    simp only [furthestPoint]
    rw [Real.sq_sqrt (by positivity)]
    have h1 : |y| ≤ |off.1| + a / 2 := by
      calc |y| = |off.1 + (y - off.1)| := by rw [add_sub_cancel]
        _ ≤ |off.1| + |y - off.1| := abs_add_le _ _
        _ ≤ _ := by linarith [h.1]
    have h2 : |z| ≤ |off.2| + b / 2 := by
      calc |z| = |off.2 + (z - off.2)| := by rw [add_sub_cancel]
        _ ≤ |off.2| + |z - off.2| := abs_add_le _ _
        _ ≤ _ := by linarith [h.2]
    have h1 := pow_le_pow_left₀ (abs_nonneg y) h1 2
    have h2 := pow_le_pow_left₀ (abs_nonneg z) h2 2
    rw [sq_abs] at h1 h2
    linarith

theorem parFront_pos {f : ℝ} (hf : 0 < f) {ap : Aperture} (hap : Spec.goodAperture ap) (off : ℝ × ℝ) : 0 < parFront f ap off := by
  have := furthest_pos hap off
  unfold parFront; positivity

theorem turn_paraboloid {f h c : ℝ} (x y z : ℝ) :
    ((Solid.leaf (.paraboloid f h) (turn * moveMatrix 0 0 c)).Interior (point x y z) ↔ y ^ 2 + z ^ 2 < 4 * f * (x - c) ∧ x - c < h) ∧
    ((Solid.leaf (.paraboloid f h) (turn * moveMatrix 0 0 c)).Outside (point x y z) ↔ 4 * f * (x - c) < y ^ 2 + z ^ 2 ∨ h < x - c) := by
  rw [turn_interior, turn_outside]
  simp only [Spec.Interior, Spec.Closed, point, not_and_or, not_le]
  simp

theorem parabolic_points {f t : ℝ} (hf : 0 < f) (ht : 0 ≤ t) {ap : Aperture} (hap : Spec.goodAperture ap) (off : ℝ × ℝ)
    (m : Material) (x y z : ℝ) :
    (((parabolicMade f t ap m off).map turn).solid.Interior (point x y z) ↔
      Spec.inAperture ap (y - off.1) (z - off.2) ∧ -(f + t) < x ∧ x < (y ^ 2 + z ^ 2) / (4 * f) - f) ∧
    (((parabolicMade f t ap m off).map turn).solid.Outside (point x y z) ↔
      Spec.offAperture ap (y - off.1) (z - off.2) ∨ x < -(f + t) ∨ (y ^ 2 + z ^ 2) / (4 * f) - f < x) := by
  have hF0 := parFront_pos hf hap off
  have hF : parFront f ap off = furthestPoint ap off ^ 2 / (4 * f) := by unfold parFront; ring
  set F := parFront f ap off with hFd
  simp only [parabolicMade, Made.map, Made.solid, Solid.Interior.eq_4, Solid.Outside.eq_4, turn_paraboloid, ← hFd,
    turn_aperture hap (show 0 ≤ t + F by linarith)]
  set q := y ^ 2 + z ^ 2 with hq
  by_cases hoff : Spec.offAperture ap (y - off.1) (z - off.2)
  · have hin : ¬ Spec.inAperture ap (y - off.1) (z - off.2) := fun h => inAperture_not_off h hoff
    simp [hoff, hin]
  · have hqF : q / (4 * f) ≤ F := by
      rw [hF]; exact div_le_div_of_nonneg_right (furthest_bound hap hoff) (by linarith)
    have e : ∀ v, 4 * f * v < q ↔ v < q / (4 * f) := fun v => by rw [lt_div_iff₀ (by linarith), mul_comm]
    have e' : ∀ v, q < 4 * f * v ↔ q / (4 * f) < v := fun v => by rw [div_lt_iff₀ (by linarith), mul_comm]
    rw [e, e']
    norm_num
    constructor
    · constructor
      · rintro ⟨⟨h, h1, h2⟩, h3 | h3⟩
        · exact ⟨h, by linarith, by linarith⟩
        · linarith
      · rintro ⟨h, h1, h2⟩
        exact ⟨⟨h, by linarith, by linarith⟩, .inl (by linarith)⟩
    · constructor
      · rintro ((h | h | h) | ⟨h1, h2⟩)
        · exact .inl h
        · exact .inr (.inl (by linarith))
        · exact .inr (.inr (by linarith))
        · exact .inr (.inr (by linarith))
      · rintro (h | h | h)
        · exact .inl (.inl h)
        · exact .inl (.inr (.inl (by linarith)))
        · by_cases h1 : F - f < x
          · exact .inl (.inr (.inr (by linarith)))
          · exact .inr ⟨by linarith, by linarith⟩

theorem paraboloid_sees {f h : ℝ} (hf : 0 < f) (hh : 0 < h) {ray : Ray} (hray : GoodRay ray)
    (hs : 1e-8 < ray.d 1 * ray.d 1 + ray.d 2 * ray.d 2 ∨ (ray.d 1 * ray.d 1 + ray.d 2 * ray.d 2 = 0 ∧ 1e-8 < |4 * f * ray.d 0|)) (a b c : ℝ) :
    Spec.Sees (.paraboloid f h) (ray.map (turn * moveMatrix a b c)⁻¹) := by
  have e : (ray.map (turn * moveMatrix a b c)⁻¹).d = vector (ray.d 1) (ray.d 2) (ray.d 0) := turn_move_dir a b c hray.d3
  simp only [Spec.Sees, e]
  exact ⟨hf, hh, hray.clear.1, hs⟩

/-! ### the prism -/

theorem move_inv_point (a b c x y z : ℝ) : (moveMatrix a b c)⁻¹ *ᵥ point x y z = point (x - a) (y - b) (z - c) := by
  have : (moveMatrix a b c)⁻¹ = moveMatrix (-a) (-b) (-c) := by
    apply inv_eq_left_inv
    rw [move_mul]; simp [move_zero]
  rw [this]
  funext i
  rw [mulVec4]
  fin_cases i <;> simp [moveMatrix, point] <;> ring

theorem rotY_inv_point {s c : ℝ} (h : s ^ 2 + c ^ 2 = 1) (x y z : ℝ) :
    (rotYMatrix s c)⁻¹ *ᵥ point x y z = point (c * x - s * z) y (s * x + c * z) := by
  have : (rotYMatrix s c)⁻¹ = rotYMatrix (-s) c := by
    apply inv_eq_left_inv
    ext i j
    rw [Matrix.mul_apply, Fin.sum_univ_four]
    fin_cases i <;> fin_cases j <;> simp [rotYMatrix] <;> nlinarith
  rw [this]
  funext i
  rw [mulVec4]
  fin_cases i <;> simp [rotYMatrix, point] <;> ring

theorem cutPlace_rigid (side u : ℝ) {sg : ℝ} (h : sg = 1 ∨ sg = -1) : Rigid (cutPlace side u sg) := by
  have h3 : √3 ^ 2 = 3 := Real.sq_sqrt (by norm_num)
  refine rigid_mul (move_rigid _ _ _) (rigid_mul (rotY_rigid ?_) (move_rigid _ _ _))
  rcases h with rfl | rfl <;> nlinarith

theorem cutPlace_point (side u : ℝ) {sg : ℝ} (h : sg = 1 ∨ sg = -1) (x y z : ℝ) :
    (cutPlace side u sg)⁻¹ *ᵥ point x y z =
      point (√3 / 2 * (x - sg * (side / 2)) + sg * (1 / 2) * (z - u + side / 2) - sg * (1.1 * side / Real.sin (60 * Real.pi / 180) / 2)) y
        (-sg * (1 / 2) * (x - sg * (side / 2)) + √3 / 2 * (z - u + side / 2) - 1.1 * side / Real.sin (60 * Real.pi / 180) / 2) := by
  have h3 : √3 ^ 2 = 3 := Real.sq_sqrt (by norm_num)
  have hs : (-sg * (1 / 2)) ^ 2 + (√3 / 2) ^ 2 = 1 := by rcases h with rfl | rfl <;> nlinarith
  unfold cutPlace
  rw [Matrix.mul_inv_rev, Matrix.mul_inv_rev, ← mulVec_mulVec, ← mulVec_mulVec, move_inv_point, rotY_inv_point hs, move_inv_point]
  congr 1 <;> ring

theorem centred_cube {a b c : ℝ} (ha : 0 ≤ a) (hb : 0 ≤ b) (hc : 0 ≤ c) (x y z : ℝ) :
    (Spec.Interior (.cube ![-0.5 * a, -0.5 * b, -0.5 * c] ![0.5 * a, 0.5 * b, 0.5 * c]) (point x y z) ↔
      |x| < a / 2 ∧ |y| < b / 2 ∧ |z| < c / 2) ∧
    (Spec.Closed (.cube ![-0.5 * a, -0.5 * b, -0.5 * c] ![0.5 * a, 0.5 * b, 0.5 * c]) (point x y z) ↔
      |x| ≤ a / 2 ∧ |y| ≤ b / 2 ∧ |z| ≤ c / 2) := by
  have e : ∀ v : ℝ, 0.5 * v = v / 2 := fun v => by norm_num; ring
  have e' : ∀ v : ℝ, -0.5 * v = -(v / 2) := fun v => by norm_num; ring
  have m1 : ∀ v : ℝ, 0 ≤ v → min (-(v / 2)) (v / 2) = -(v / 2) := fun v hv => min_eq_left (by linarith)
  have m2 : ∀ v : ℝ, 0 ≤ v → max (-(v / 2)) (v / 2) = v / 2 := fun v hv => max_eq_right (by linarith)
  simp only [Spec.Interior, Spec.Closed, point, Fin.forall_fin_succ, abs_lt, abs_le, e, e', Fin.isValue, Matrix.cons_val_zero,
    Fin.castSucc_zero, Matrix.cons_val_succ, m1 a ha, m2 a ha, m1 b hb, m2 b hb, m1 c hc, m2 c hc]
  simp [m1 a ha, m2 a ha, m1 b hb, m2 b hb, m1 c hc, m2 c hc, -lt_inf_iff, -sup_lt_iff, -le_inf_iff, -min_lt_iff, -lt_max_iff,
    -min_le_iff, -le_max_iff, -inf_le_iff, -le_sup_iff, -inf_lt_iff, -lt_sup_iff]

/-- the part of the body that a cutting block removes is the part beyond the slanted side -/
theorem cut_geometry {s : ℝ} (hs : 0 < s) {p Z : ℝ} (hp : 0 ≤ p) (hZ : 0 ≤ Z) (hZs : Z ≤ s) (h : √3 * p < Z) :
    let cut := 1.1 * s / (√3 / 2)
    0 < Z / 2 - √3 / 2 * p ∧ Z / 2 - √3 / 2 * p < cut ∧ 0 < p / 2 + √3 / 2 * Z ∧ p / 2 + √3 / 2 * Z < cut := by
  have k2 : √3 ^ 2 = 3 := Real.sq_sqrt (by norm_num)
  have k0 : 0 < √3 := Real.sqrt_pos.2 (by norm_num)
  have hk : √3 < 1.8 := by rw [Real.sqrt_lt' (by norm_num)]; norm_num
  intro cut
  have hcut : cut = 2.2 * s / √3 := by simp only [cut]; field_simp; norm_num
  have hc1 : s < cut := by rw [hcut, lt_div_iff₀ k0]; nlinarith
  have hc2 : √3 * cut = 2.2 * s := by rw [hcut]; field_simp
  refine ⟨by linarith, by nlinarith, by nlinarith, ?_⟩
  have : √3 * (p / 2 + √3 / 2 * Z) < √3 * cut := by rw [hc2]; nlinarith
  exact lt_of_mul_lt_mul_left this k0.le

theorem cut_geometry' {s : ℝ} (hs : 0 < s) {p Z : ℝ} (hp : 0 ≤ p) (hZ : 0 ≤ Z) (hZs : Z ≤ s) (h : √3 * p ≤ Z) :
    let cut := 1.1 * s / (√3 / 2)
    0 ≤ Z / 2 - √3 / 2 * p ∧ Z / 2 - √3 / 2 * p ≤ cut ∧ 0 ≤ p / 2 + √3 / 2 * Z ∧ p / 2 + √3 / 2 * Z ≤ cut := by
  have k2 : √3 ^ 2 = 3 := Real.sq_sqrt (by norm_num)
  have k0 : 0 < √3 := Real.sqrt_pos.2 (by norm_num)
  have hk : √3 < 1.8 := by rw [Real.sqrt_lt' (by norm_num)]; norm_num
  intro cut
  have hcut : cut = 2.2 * s / √3 := by simp only [cut]; field_simp; norm_num
  have hc1 : s < cut := by rw [hcut, lt_div_iff₀ k0]; nlinarith
  have hc2 : √3 * cut = 2.2 * s := by rw [hcut]; field_simp
  refine ⟨by linarith, by nlinarith, by positivity, ?_⟩
  have : √3 * (p / 2 + √3 / 2 * Z) ≤ √3 * cut := by rw [hc2]; nlinarith
  exact le_of_mul_le_mul_left this k0

theorem cut_points {s w : ℝ} (hs : 0 < s) (hw : 0 < w) (u : ℝ) {sg : ℝ} (h : sg = 1 ∨ sg = -1) (x y z : ℝ) :
    let cut := 1.1 * s / (√3 / 2)
    let p := s / 2 - sg * x
    let Z := z - u + s / 2
    ((Solid.leaf (cutBlock s w) (cutPlace s u sg)).Interior (point x y z) ↔
      (0 < Z / 2 - √3 / 2 * p ∧ Z / 2 - √3 / 2 * p < cut) ∧ |y| < 1.1 * w / 2 ∧ 0 < p / 2 + √3 / 2 * Z ∧ p / 2 + √3 / 2 * Z < cut) ∧
    ((Solid.leaf (cutBlock s w) (cutPlace s u sg)).Outside (point x y z) ↔
      ¬ ((0 ≤ Z / 2 - √3 / 2 * p ∧ Z / 2 - √3 / 2 * p ≤ cut) ∧ |y| ≤ 1.1 * w / 2 ∧ 0 ≤ p / 2 + √3 / 2 * Z ∧ p / 2 + √3 / 2 * Z ≤ cut)) := by
  intro cut p Z
  have k0 : 0 < √3 := Real.sqrt_pos.2 (by norm_num)
  have hc0 : 0 ≤ 1.1 * s / (√3 / 2) := by positivity
  have hw0 : 0 ≤ 1.1 * w := by positivity
  have hdet := (rigid_affine (cutPlace_rigid s u h)).2
  rw [leaf_interior hdet, leaf_outside hdet, cutPlace_point s u h]
  unfold cutBlock
  rw [sin60, (centred_cube hc0 hw0 hc0 _ _ _).1, (centred_cube hc0 hw0 hc0 _ _ _).2]
  change (|√3 / 2 * (x - sg * (s / 2)) + sg * (1 / 2) * Z - sg * (cut / 2)| < cut / 2 ∧ _ ∧ |-sg * (1 / 2) * (x - sg * (s / 2)) + √3 / 2 * Z - cut / 2| < cut / 2 ↔ _) ∧
    (¬ (|√3 / 2 * (x - sg * (s / 2)) + sg * (1 / 2) * Z - sg * (cut / 2)| ≤ cut / 2 ∧ _ ∧ |-sg * (1 / 2) * (x - sg * (s / 2)) + √3 / 2 * Z - cut / 2| ≤ cut / 2) ↔ _)
  have e1 : |√3 / 2 * (x - sg * (s / 2)) + sg * (1 / 2) * Z - sg * (cut / 2)| = |Z / 2 - √3 / 2 * p - cut / 2| := by
    rcases h with rfl | rfl
    · congr 1; simp only [p]; ring
    · rw [← abs_neg]; congr 1; simp only [p]; ring
  have e2 : -sg * (1 / 2) * (x - sg * (s / 2)) + √3 / 2 * Z = p / 2 + √3 / 2 * Z := by
    rcases h with rfl | rfl <;> simp only [p] <;> ring
  have f : ∀ v : ℝ, |v - cut / 2| < cut / 2 ↔ 0 < v ∧ v < cut := fun v => by
    rw [abs_lt]; constructor <;> rintro ⟨h1, h2⟩ <;> constructor <;> linarith
  have f' : ∀ v : ℝ, |v - cut / 2| ≤ cut / 2 ↔ 0 ≤ v ∧ v ≤ cut := fun v => by
    rw [abs_le]; constructor <;> rintro ⟨h1, h2⟩ <;> constructor <;> linarith
  rw [e1, e2, f, f, f', f']
  exact ⟨Iff.rfl, Iff.rfl⟩

theorem prism_points {s w : ℝ} (hs : 0 < s) (hw : 0 < w) (m : Material) (x y z : ℝ) :
    ((prismMade s w m).solid.Interior (point x y z) ↔ |y| < w / 2 ∧ -(√3 / 4 * s) < z ∧ z < √3 / 4 * s - √3 * |x|) ∧
    ((prismMade s w m).solid.Outside (point x y z) ↔ w / 2 < |y| ∨ z < -(√3 / 4 * s) ∨ √3 / 4 * s - √3 * |x| < z) := by
  have k2 : √3 ^ 2 = 3 := Real.sq_sqrt (by norm_num)
  have k0 : 0 < √3 := Real.sqrt_pos.2 (by norm_num)
  have hk : √3 < 1.8 := by rw [Real.sqrt_lt' (by norm_num)]; norm_num
  simp only [prismMade, Made.solid, Solid.Interior.eq_4, Solid.Outside.eq_4]
  obtain ⟨u, hu⟩ : ∃ u, u = s / 2 * (1 - Real.sin (60 * Real.pi / 180)) := ⟨_, rfl⟩
  rw [← hu]
  rw [sin60] at hu
  obtain ⟨i1, o1⟩ := cut_points hs hw u (.inr rfl : (-1 : ℝ) = 1 ∨ (-1 : ℝ) = -1) x y z
  obtain ⟨i2, o2⟩ := cut_points hs hw u (.inl rfl : (1 : ℝ) = 1 ∨ (1 : ℝ) = -1) x y z
  have hdet : (moveMatrix 0 0 u).det ≠ 0 := (rigid_affine (move_rigid 0 0 u)).2
  rw [i1, o1, i2, o2, leaf_interior hdet, leaf_outside hdet, move_inv_point, (centred_cube hs.le hw.le hs.le _ _ _).1,
    (centred_cube hs.le hw.le hs.le _ _ _).2]
  simp only [sub_zero]
  obtain ⟨Z, hZ⟩ : ∃ Z, Z = z - u + s / 2 := ⟨_, rfl⟩
  have hzu : z - u = Z - s / 2 := by linarith
  have hz : z = Z - √3 / 4 * s := by rw [hZ, hu]; ring
  rw [← hZ, hzu]
  have g1 := @cut_geometry s hs (s / 2 - -1 * x) Z
  have g2 := @cut_geometry s hs (s / 2 - 1 * x) Z
  have g1' := @cut_geometry' s hs (s / 2 - -1 * x) Z
  have g2' := @cut_geometry' s hs (s / 2 - 1 * x) Z
  simp only at g1 g2 g1' g2'
  obtain ⟨cut, hcut⟩ : ∃ c, c = 1.1 * s / (√3 / 2) := ⟨_, rfl⟩
  rw [← hcut] at g1 g2 g1' g2' ⊢
  have hslope : z < √3 / 4 * s - √3 * |x| ↔ Z < √3 * (s / 2 - -1 * x) ∧ Z < √3 * (s / 2 - 1 * x) := by
    rw [hz]
    rcases abs_cases x with ⟨h, h0⟩ | ⟨h, h0⟩ <;> rw [h] <;> constructor
    · intro hh; constructor <;> nlinarith
    · rintro ⟨h1, h2⟩; nlinarith
    · intro hh; constructor <;> nlinarith
    · rintro ⟨h1, h2⟩; nlinarith
  have hslope' : √3 / 4 * s - √3 * |x| < z ↔ √3 * (s / 2 - -1 * x) < Z ∨ √3 * (s / 2 - 1 * x) < Z := by
    rw [hz]
    rcases abs_cases x with ⟨h, h0⟩ | ⟨h, h0⟩ <;> rw [h] <;> constructor
    · intro hh; right; nlinarith
    · rintro (h1 | h1) <;> nlinarith
    · intro hh; left; nlinarith
    · rintro (h1 | h1) <;> nlinarith
  rw [hslope, hslope', hz]
  constructor
  · constructor
    · rintro ⟨⟨⟨hx, hy, hz1⟩, h1⟩, h2⟩
      rw [abs_lt] at hx hz1
      refine ⟨hy, by linarith, ?_, ?_⟩
      · by_contra hc
        obtain ⟨a, b, c, d⟩ := g1' (by linarith) (by linarith) (by linarith) (not_lt.1 hc)
        exact h1 ⟨⟨a, b⟩, by linarith, c, d⟩
      · by_contra hc
        obtain ⟨a, b, c, d⟩ := g2' (by linarith) (by linarith) (by linarith) (not_lt.1 hc)
        exact h2 ⟨⟨a, b⟩, by linarith, c, d⟩
    · rintro ⟨hy, hz1, h1, h2⟩
      have hZ0 : 0 < Z := by linarith
      have p1 : 0 < s / 2 - -1 * x := pos_of_mul_pos_right (hZ0.trans h1) k0.le
      have p2 : 0 < s / 2 - 1 * x := pos_of_mul_pos_right (hZ0.trans h2) k0.le
      refine ⟨⟨⟨abs_lt.2 ⟨by linarith, by linarith⟩, hy, abs_lt.2 ⟨by linarith, by nlinarith⟩⟩, ?_⟩, ?_⟩
      · rintro ⟨⟨h, -⟩, -⟩; linarith
      · rintro ⟨⟨h, -⟩, -⟩; linarith
  · constructor
    · rintro ((h | h) | h)
      · simp only [not_and_or, not_le] at h
        rcases h with h | h | h
        · rcases lt_abs.1 h with h | h
          · by_cases hZ0 : Z < 0
            · exact .inr (.inl (by linarith))
            · exact .inr (.inr (.inr (by nlinarith)))
          · by_cases hZ0 : Z < 0
            · exact .inr (.inl (by linarith))
            · exact .inr (.inr (.inl (by nlinarith)))
        · exact .inl h
        · rcases lt_abs.1 h with h | h
          · by_cases hx : 0 ≤ x
            · exact .inr (.inr (.inr (by nlinarith)))
            · exact .inr (.inr (.inl (by nlinarith)))
          · exact .inr (.inl (by linarith))
      · exact .inr (.inr (.inl (by linarith [h.1.1])))
      · exact .inr (.inr (.inr (by linarith [h.1.1])))
    · intro h
      by_cases hb : |x| ≤ s / 2 ∧ |y| ≤ w / 2 ∧ |Z - s / 2| ≤ s / 2
      · obtain ⟨hx, hy, hz1⟩ := hb
        rw [abs_le] at hx hz1
        rcases h with h | h | h | h
        · linarith
        · linarith
        · obtain ⟨a, b, c, d⟩ := g1 (by linarith) (by linarith) (by linarith) h
          exact .inl (.inr ⟨⟨a, b⟩, by linarith, c, d⟩)
        · obtain ⟨a, b, c, d⟩ := g2 (by linarith) (by linarith) (by linarith) h
          exact .inr ⟨⟨a, b⟩, by linarith, c, d⟩
      · exact .inl (.inl hb)

end PyRayT
