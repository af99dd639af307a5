import Verif.Props.Gauss

/-!
# Property C120: magnification, combinations of systems and telescopes

Consequences of C118: how large images are, in which directions light leaves a system, and when two systems in a row are a telescope.
-/

namespace PyRayT

open Classical Matrix Spec

theorem lastMedium_pos {l : List Station} (hl : ∀ st ∈ l, ∀ n, st.optic = .into n → 0 < n) {n : ℝ} (hn : 0 < n) : 0 < lastMedium n l := by
  induction l generalizing n with
  | nil => exact hn
  | cons st l ih =>
    refine ih (fun st' h' => hl st' (List.mem_cons_of_mem _ h')) ?_
    have := hl st List.mem_cons_self
    unfold Station.medium
    cases h : st.optic with
    | mirror => exact hn
    | into n' => exact this n' h

/-- two linear functions with nearly the same coefficients -/
theorem linear_near {a b A B y v ε : ℝ} (ha : |a - A| ≤ ε) (hb : |b - B| ≤ ε) : |(a * y + b * v) - (A * y + B * v)| ≤ ε * (|y| + |v|) := by
  have h1 : |(a - A) * y| ≤ ε * |y| := by rw [abs_mul]; exact mul_le_mul_of_nonneg_right ha (abs_nonneg _)
  have h2 : |(b - B) * v| ≤ ε * |v| := by rw [abs_mul]; exact mul_le_mul_of_nonneg_right hb (abs_nonneg _)
  have h3 := abs_add_le ((a - A) * y) ((b - B) * v)
  rw [show (a * y + b * v) - (A * y + B * v) = (a - A) * y + (b - B) * v by ring]
  linarith

/-- **C120, directions.** In a centred system, (index × slope) behind the system is the linear function of height and (index × slope) before it that Gaussian optics
gives, to any accuracy relative to these. -/
theorem C120_slope {l : List Station} (hl : ∀ st ∈ l, ∀ n, st.optic = .into n → 0 < n) {σ n x0 ε : ℝ} (hσ : σ ^ 2 = 1) (hn : 0 < n) (hε : 0 < ε) :
    ∃ δ > 0, ∀ (argsort : List EReal → List ℕ) (fuel : ℕ) (s : Scene) (objs : List ℕ) (depth : ℕ) (sources : List (ℕ → List Col)) (m : ℕ) (limit : ℤ) (k : ℕ)
      (f : Tracer), IsArgsort argsort → Bench argsort fuel s objs depth sources m →
      Tracer.Traces k (Tracer.new sources (objs.map (s.component argsort depth)) m limit) f →
      ∀ r ∈ f.frame, ∀ (q : Vec4) (r' : Row), r.index = n → 0 < σ * r.tilt 0 → r.start 0 = x0 → |r.start 1| < δ → |r.start 2| < δ → |r.tilt 1| < δ → |r.tilt 2| < δ →
      Passes f.frame s objs depth l r.begin r q r' →
      ∀ i : Fin 3, i ≠ 0 → |lastMedium n l * r'.tilt i - (gauss σ n x0 l 1 0 * r.start i + gauss σ n x0 l 1 1 * (n * r.tilt i))| ≤ ε * (|r.start i| + |n * r.tilt i|) := by
  obtain ⟨δ, h0, h⟩ := C118_gauss hl (x0 := x0) hσ hn hε
  refine ⟨δ, h0, ?_⟩
  intro argsort fuel s objs depth sources m limit k f ha b ht r hr q r' hi hsense hx y1 y2 t1 t2 hp
  obtain ⟨-, hm, -, M, -, hM, k1, k2⟩ := h argsort fuel s objs depth sources m limit k f ha b ht r hr q r' hi hsense hx y1 y2 t1 t2 hp
  rw [hm] at k1 k2
  have row : ∀ {a b c d : ℝ}, ![a, b] = M *ᵥ ![c, d] → b = M 1 0 * c + M 1 1 * d := fun e => by
    simpa [Matrix.mulVec, dotProduct, Fin.sum_univ_two] using congrFun e 1
  intro i h0
  fin_cases i
  · exact absurd rfl h0
  · show |lastMedium n l * r'.tilt 1 - _| ≤ _
    rw [row k1]
    exact linear_near (hM 1 0).le (hM 1 1).le
  · show |lastMedium n l * r'.tilt 2 - _| ≤ _
    rw [row k2]
    exact linear_near (hM 1 0).le (hM 1 1).le

/-- the coefficients at the image plane depend continuously on everything -/
theorem plane_near {A B C D v σ m : ℝ} (hσ : σ ^ 2 = 1) (hm : 0 < m) (hD : D ≠ 0) (hdet : A * D - B * C = 1) {ε : ℝ} (hε : 0 < ε) :
    ∃ η > 0, η ≤ 1 / 2 ∧ ∀ a b c d v' w τ : ℝ, |a - A| < η → |b - B| < η → |c - C| < η → |d - D| < η → |v' - v| < η → |w - σ| ≤ η → v' + τ * w = v - σ * m * (B / D) →
      |a + τ / m * c - 1 / D| ≤ ε ∧ |b + τ / m * d - 0| ≤ ε := by
  have hσ1 : |σ| = 1 := by rw [← Real.sqrt_sq_eq_abs, hσ, Real.sqrt_one]
  set s := -(B / D) with hs
  have hA : A + s * C = 1 / D := by rw [hs]; field_simp; linear_combination hdet
  have hB : B + s * D = 0 := by rw [hs]; field_simp; ring
  -- the path to the plane, divided by the index
  set K := 2 / m + 2 * |s| with hK
  have hK0 : 0 < K := by positivity
  set Q := 1 + (|s| + K) + K * (|C| + |D|) with hQ
  have hQ0 : 0 < Q := by positivity
  refine ⟨min (1 / 2) (ε / Q), lt_min (by norm_num) (div_pos hε hQ0), min_le_left _ _, ?_⟩
  set η := min (1 / 2) (ε / Q) with hη
  have hη0 : 0 < η := lt_min (by norm_num) (div_pos hε hQ0)
  have hη1 : η ≤ 1 / 2 := min_le_left _ _
  have hη2 : Q * η ≤ ε := by
    have := mul_le_mul_of_nonneg_left (min_le_right (1 / 2) (ε / Q)) hQ0.le
    rwa [mul_div_cancel₀ _ hQ0.ne'] at this
  intro a b c d v' w τ ha hb hc hd hv hw hτ
  have hw1 : 1 / 2 ≤ |w| := by
    have := abs_sub_abs_le_abs_sub σ w
    rw [abs_sub_comm σ w, hσ1] at this
    linarith
  have hw0 : w ≠ 0 := by intro h; rw [h, abs_zero] at hw1; norm_num at hw1
  have e1 : w * (τ / m - s) = (v - v') / m + s * (σ - w) := by
    have : τ * w = v - v' + σ * m * s := by rw [hs]; linear_combination hτ
    field_simp
    linear_combination this
  have e2 : |w * (τ / m - s)| ≤ η / m + |s| * η := by
    rw [e1]
    refine (abs_add_le _ _).trans (add_le_add ?_ ?_)
    · rw [abs_div, abs_of_pos hm, abs_sub_comm]; exact div_le_div_of_nonneg_right hv.le hm.le
    · rw [abs_mul, abs_sub_comm σ]; exact mul_le_mul_of_nonneg_left hw (abs_nonneg _)
  have e3 : |τ / m - s| ≤ K * η := by
    rw [abs_mul] at e2
    have := mul_le_mul_of_nonneg_right hw1 (abs_nonneg (τ / m - s))
    rw [hK, show (2 / m + 2 * |s|) * η = 2 * (η / m + |s| * η) by ring]
    linarith
  have e4 : |τ / m| ≤ |s| + K := by
    have h1 := abs_add_le (τ / m - s) s
    rw [sub_add_cancel] at h1
    have h2 : K * η ≤ K * 1 := mul_le_mul_of_nonneg_left (by linarith) hK0.le
    linarith
  have key : ∀ {x y X Y : ℝ}, |x - X| < η → |y - Y| < η → |Y| ≤ |C| + |D| → |x + τ / m * y - (X + s * Y)| ≤ ε := by
    intro x y X Y h1 h2 h3
    have f1 : |τ / m * (y - Y)| ≤ (|s| + K) * η := by rw [abs_mul]; exact mul_le_mul e4 h2.le (abs_nonneg _) (by positivity)
    have f2 : |(τ / m - s) * Y| ≤ K * η * (|C| + |D|) := by rw [abs_mul]; exact mul_le_mul e3 h3 (abs_nonneg _) (by positivity)
    rw [show x + τ / m * y - (X + s * Y) = (x - X) + τ / m * (y - Y) + (τ / m - s) * Y by ring]
    have f3 := abs_add_le ((x - X) + τ / m * (y - Y)) ((τ / m - s) * Y)
    have f4 := abs_add_le (x - X) (τ / m * (y - Y))
    refine le_trans ?_ hη2
    rw [hQ, show (1 + (|s| + K) + K * (|C| + |D|)) * η = η + (|s| + K) * η + K * η * (|C| + |D|) by ring]
    linarith
  refine ⟨?_, ?_⟩
  · rw [← hA]; exact key ha hc (by linarith [abs_nonneg D])
  · rw [← hB]; exact key hb hd (by linarith [abs_nonneg C])

/-- **C120, magnification.** In a centred system let the plane at `x0` have an image by Gaussian optics. All light from a point of that plane near the axis that goes through the system crosses the image
plane (forwards or backwards) at the height of the point divided by the lower right entry of the matrix, to any accuracy relative to height and slope at the start: the image is sharp, flat, and
scaled by one number. -/
theorem C120_magnification {l : List Station} (hl : ∀ st ∈ l, ∀ n, st.optic = .into n → 0 < n) {σ n x0 ε : ℝ} (hσ : σ ^ 2 = 1) (hn : 0 < n) (hε : 0 < ε)
    (himg : gauss σ n x0 l 1 1 ≠ 0) :
    ∃ δ > 0, ∀ (argsort : List EReal → List ℕ) (fuel : ℕ) (s : Scene) (objs : List ℕ) (depth : ℕ) (sources : List (ℕ → List Col)) (m : ℕ) (limit : ℤ) (k : ℕ)
      (f : Tracer), IsArgsort argsort → Bench argsort fuel s objs depth sources m →
      Tracer.Traces k (Tracer.new sources (objs.map (s.component argsort depth)) m limit) f →
      ∀ r ∈ f.frame, ∀ (q : Vec4) (r' : Row), r.index = n → 0 < σ * r.tilt 0 → r.start 0 = x0 → |r.start 1| < δ → |r.start 2| < δ → |r.tilt 1| < δ → |r.tilt 2| < δ →
      Passes f.frame s objs depth l r.begin r q r' →
      ∃ τ, q 0 + τ * r'.tilt 0 = lastVertex x0 l - lastSense σ l * lastMedium n l * (gauss σ n x0 l 0 1 / gauss σ n x0 l 1 1) ∧
        |(q 1 + τ * r'.tilt 1) - r.start 1 / gauss σ n x0 l 1 1| ≤ ε * (|r.start 1| + |n * r.tilt 1|) ∧
        |(q 2 + τ * r'.tilt 2) - r.start 2 / gauss σ n x0 l 1 1| ≤ ε * (|r.start 2| + |n * r.tilt 2|) := by
  have hdet := C118_det σ n x0 l
  rw [Matrix.det_fin_two] at hdet
  obtain ⟨η, hη, hη2, near⟩ := plane_near (v := lastVertex x0 l) (lastSense_sq l hσ) (lastMedium_pos hl hn) himg hdet hε
  obtain ⟨δ, h0, h⟩ := PathThrough.gauss (l := l) hl (x := x0) hσ hn hη
  refine ⟨δ, h0, ?_⟩
  rintro argsort fuel s objs depth sources m limit k f ha b ht r hr q r' rfl hsense rfl y1 y2 t1 t2 hp
  obtain ⟨hr', hpath⟩ := hp.through ha b ht hr ⟨0, fun i => by rw [zero_mul, add_zero]; fin_cases i <;> rfl⟩
  obtain ⟨hm, hs, M, -, hM, ⟨k1, k2⟩, v0, v1, v2⟩ := h r'.index r.begin r.dir q r'.dir (by simpa [Row.begin, point] using h0) y1 y2 t1 t2 rfl (b.unit ha ht hr) hsense hpath
  have hw0 := axial_near (lastSense_sq l hσ) hη hη2 rfl (b.unit ha ht hr') hs v1 v2
  have hne : r'.dir 0 ≠ 0 := fun h => by rw [h, mul_zero] at hs; exact lt_irrefl _ hs
  obtain ⟨τ, hτ⟩ : ∃ τ, q 0 + τ * r'.dir 0 = lastVertex (r.start 0) l - lastSense σ l * lastMedium r.index l * (gauss σ r.index (r.start 0) l 0 1 / gauss σ r.index (r.start 0) l 1 1) :=
    ⟨(lastVertex (r.start 0) l - lastSense σ l * lastMedium r.index l * (gauss σ r.index (r.start 0) l 0 1 / gauss σ r.index (r.start 0) l 1 1) - q 0) / r'.dir 0, by
      rw [div_mul_cancel₀ _ hne]; ring⟩
  obtain ⟨g1, g2⟩ := near (M 0 0) (M 0 1) (M 1 0) (M 1 1) (q 0) (r'.dir 0) τ (hM 0 0) (hM 0 1) (hM 1 0) (hM 1 1) v0 hw0 hτ
  have hmpos := lastMedium_pos hl hn
  have height : ∀ {a b c d : ℝ}, ![a, r'.index * b] = M *ᵥ ![c, d] →
      |(a + τ * b) - c / gauss σ r.index (r.start 0) l 1 1| ≤ ε * (|c| + |d|) := by
    intro a b c d e
    have e0 : a = M 0 0 * c + M 0 1 * d := by simpa [Matrix.mulVec, dotProduct, Fin.sum_univ_two] using congrFun e 0
    have e1 : r'.index * b = M 1 0 * c + M 1 1 * d := by simpa [Matrix.mulVec, dotProduct, Fin.sum_univ_two] using congrFun e 1
    rw [hm] at e1
    have e2 : τ * b = τ / lastMedium r.index l * (M 1 0 * c + M 1 1 * d) := by rw [← e1]; field_simp
    have := linear_near (y := c) (v := d) g1 g2
    convert this using 2
    rw [e0, e2]; ring
  exact ⟨τ, hτ, height k1, height k2⟩

theorem lastVertex_append (x : ℝ) (l l' : List Station) : lastVertex x (l ++ l') = lastVertex (lastVertex x l) l' := by
  induction l generalizing x with
  | nil => rfl
  | cons st l ih => exact ih _

/-- **C120, combinations.** The matrix of two systems in a row is the product of their matrices. -/
theorem C120_combine (σ n x : ℝ) (l l' : List Station) :
    gauss σ n x (l ++ l') = gauss (lastSense σ l) (lastMedium n l) (lastVertex x l) l' * gauss σ n x l := by
  induction l generalizing σ n x with
  | nil => simp [gauss, lastSense, lastMedium, lastVertex]
  | cons st l ih => simp only [List.cons_append, gauss, ih, lastSense, lastMedium, lastVertex, Matrix.mul_assoc]

/-- where the light starts does not matter for the left column -/
theorem gauss_from (σ n x y : ℝ) (l : List Station) (i : Fin 2) :
    gauss σ n y l i 0 = gauss σ n x l i 0 ∧ (l ≠ [] → gauss σ n y l i 1 = gauss σ n x l i 1 + gauss σ n x l i 0 * (σ * (x - y) / n)) := by
  cases l with
  | nil => exact ⟨rfl, fun h => absurd rfl h⟩
  | cons st l =>
    refine ⟨by simp [Spec.gauss, Matrix.mul_apply, Fin.sum_univ_two], fun _ => ?_⟩
    simp [Spec.gauss, Matrix.mul_apply, Fin.sum_univ_two]
    ring

/-- **C120, telescopes.** Let two systems with power follow each other. They form a telescope (parallel light leaves them parallel) if and only if light from the focal point of the first would leave the second
parallel; and then the angles of parallel bundles are multiplied by minus the ratio of the powers (times the ratio of the indices). -/
theorem C120_telescope {σ n x : ℝ} {l l' : List Station} (hσ : σ ^ 2 = 1) (hl : ∀ st ∈ l, ∀ n, st.optic = .into n → 0 < n) (hn : 0 < n) (h1 : gauss σ n x l 1 0 ≠ 0)
    (h2 : gauss (lastSense σ l) (lastMedium n l) (lastVertex x l) l' 1 0 ≠ 0) :
    (gauss σ n x (l ++ l') 1 0 = 0 ↔
      gauss (lastSense σ l) (lastMedium n l) (lastVertex x l - lastSense σ l * lastMedium n l * (gauss σ n x l 0 0 / gauss σ n x l 1 0)) l' 1 1 = 0) ∧
    (gauss σ n x (l ++ l') 1 0 = 0 → gauss σ n x (l ++ l') 1 1 = -(gauss (lastSense σ l) (lastMedium n l) (lastVertex x l) l' 1 0 / gauss σ n x l 1 0)) := by
  have hne : l' ≠ [] := by rintro rfl; simp [gauss] at h2
  have hm := lastMedium_pos hl hn
  have hs := lastSense_sq l hσ
  have hdet := C118_det σ n x l
  rw [Matrix.det_fin_two] at hdet
  rw [((gauss_from _ _ (lastVertex x l) _ l' 1).2 hne), C120_combine]
  simp only [Matrix.mul_apply, Fin.sum_univ_two]
  set A := gauss σ n x l 0 0
  set B := gauss σ n x l 0 1
  set C := gauss σ n x l 1 0
  set D := gauss σ n x l 1 1
  set C' := gauss (lastSense σ l) (lastMedium n l) (lastVertex x l) l' 1 0
  set D' := gauss (lastSense σ l) (lastMedium n l) (lastVertex x l) l' 1 1
  set σ' := lastSense σ l
  set m := lastMedium n l
  have e : D' + C' * (σ' * (lastVertex x l - (lastVertex x l - σ' * m * (A / C))) / m) = (C' * A + D' * C) / C := by
    field_simp
    linear_combination (m * C' * A) * hs
  rw [e]
  refine ⟨⟨fun h => by rw [h, zero_div], fun h => ?_⟩, fun h => ?_⟩
  · rcases div_eq_zero_iff.1 h with h | h
    · exact h
    · exact absurd h h1
  · field_simp
    linear_combination D * h - C' * hdet

/-- **C120, telescopes on the bench.** Light that goes through two systems that form a telescope: a bundle of parallel rays close to the axis leaves it parallel, with the angles multiplied as in `C120_telescope`, to any accuracy. -/
theorem C120_afocal {l l' : List Station} (hl : ∀ st ∈ l ++ l', ∀ n, st.optic = .into n → 0 < n) {σ n x0 ε : ℝ} (hσ : σ ^ 2 = 1) (hn : 0 < n) (hε : 0 < ε)
    (h1 : gauss σ n x0 l 1 0 ≠ 0) (h2 : gauss (lastSense σ l) (lastMedium n l) (lastVertex x0 l) l' 1 0 ≠ 0)
    (hfoc : gauss (lastSense σ l) (lastMedium n l) (lastVertex x0 l - lastSense σ l * lastMedium n l * (gauss σ n x0 l 0 0 / gauss σ n x0 l 1 0)) l' 1 1 = 0) :
    ∃ δ > 0, ∀ (argsort : List EReal → List ℕ) (fuel : ℕ) (s : Scene) (objs : List ℕ) (depth : ℕ) (sources : List (ℕ → List Col)) (m : ℕ) (limit : ℤ) (k : ℕ)
      (f : Tracer), IsArgsort argsort → Bench argsort fuel s objs depth sources m →
      Tracer.Traces k (Tracer.new sources (objs.map (s.component argsort depth)) m limit) f →
      ∀ r ∈ f.frame, ∀ (q : Vec4) (r' : Row), r.index = n → 0 < σ * r.tilt 0 → r.start 0 = x0 → |r.start 1| < δ → |r.start 2| < δ → |r.tilt 1| < δ → |r.tilt 2| < δ →
      Passes f.frame s objs depth (l ++ l') r.begin r q r' →
      ∀ i : Fin 3, i ≠ 0 → |lastMedium n (l ++ l') * r'.tilt i - -(gauss (lastSense σ l) (lastMedium n l) (lastVertex x0 l) l' 1 0 / gauss σ n x0 l 1 0) * (n * r.tilt i)|
        ≤ ε * (|r.start i| + |n * r.tilt i|) := by
  obtain ⟨t1, t2⟩ := C120_telescope hσ (fun st hst => hl st (List.mem_append_left _ hst)) hn h1 h2
  have h0 := t1.2 hfoc
  obtain ⟨δ, hδ, h⟩ := C120_slope hl (x0 := x0) hσ hn hε
  refine ⟨δ, hδ, ?_⟩
  intro argsort fuel s objs depth sources m limit k f ha b ht r hr q r' hi hsense hx y1 y2 u1 u2 hp i hi0
  have := h argsort fuel s objs depth sources m limit k f ha b ht r hr q r' hi hsense hx y1 y2 u1 u2 hp i hi0
  rwa [h0, t2 h0, zero_mul, zero_add] at this

/-! ## Examples -/

/-- Two concave mirrors of radius 10 that face each other at the distance 10 are a telescope: light is turned over, angles are kept. -/
example (x : ℝ) : gauss 1 1 x [⟨10, -1 / 10, .mirror⟩] 1 0 ≠ 0 ∧ gauss (-1) 1 10 [⟨0, 1 / 10, .mirror⟩] 1 0 ≠ 0 ∧
    gauss (-1) 1 (10 - -1 * 1 * (gauss 1 1 x [⟨10, -1 / 10, .mirror⟩] 0 0 / gauss 1 1 x [⟨10, -1 / 10, .mirror⟩] 1 0)) [⟨0, 1 / 10, .mirror⟩] 1 1 = 0 ∧
    gauss 1 1 x ([⟨10, -1 / 10, .mirror⟩] ++ [⟨0, 1 / 10, .mirror⟩]) 1 0 = 0 ∧ gauss 1 1 x ([⟨10, -1 / 10, .mirror⟩] ++ [⟨0, 1 / 10, .mirror⟩]) 1 1 = -1 := by
  refine ⟨?_, ?_, ?_, ?_, ?_⟩ <;> simp [gauss, Station.power, Station.sense, Station.medium, Matrix.mul_apply, Fin.sum_univ_two] <;> norm_num

/-- the magnification of a concave mirror of radius 10 for a point at the distance 12: 5/(5 - 12) -/
example : 1 / gauss 1 1 (-2) [⟨10, -1 / 10, .mirror⟩] 1 1 = -5 / 7 := by
  simp [gauss, Station.power, Matrix.mul_apply, Fin.sum_univ_two]; norm_num

/-- Rays that satisfy all hypotheses of `C120_magnification` and `C120_slope`, for every δ: those of `mirror_room`. -/
example {argsort : List EReal → List ℕ} (ha : IsArgsort argsort) {ε : ℝ} (hε : 0 < ε) : ∃ (s : Scene) (objs : List ℕ) (sources : List (ℕ → List Col)) (k : ℕ) (f : Tracer),
    Bench argsort 3 s objs 1 sources 1 ∧ Tracer.Traces k (Tracer.new sources (objs.map (s.component argsort 1)) 1 5) f ∧
    ∃ r ∈ f.frame, ∃ (q : Vec4) (r' : Row) (τ : ℝ), r.start = ![-2, 0, 0] ∧ r.tilt 1 ≠ 0 ∧ Passes f.frame s objs 1 [⟨10, -1 / 10, .mirror⟩] r.begin r q r' ∧
      |q 1 + τ * r'.tilt 1| ≤ ε * |r.tilt 1| ∧ |r'.tilt 1 - gauss 1 1 (-2) [⟨10, -1 / 10, .mirror⟩] 1 1 * r.tilt 1| ≤ ε * |r.tilt 1| := by
  have hl : ∀ st ∈ ([⟨10, -1 / 10, .mirror⟩] : List Station), ∀ n, st.optic = .into n → 0 < n := by
    intro st hst n hn
    rw [List.mem_singleton] at hst
    subst hst
    cases hn
  obtain ⟨himg, -, s, hroom⟩ := mirror_room ha
  obtain ⟨δ1, d1, H1⟩ := C120_magnification hl (σ := 1) (n := 1) (x0 := -2) (by norm_num) one_pos hε himg
  obtain ⟨δ2, d2, H2⟩ := C120_slope hl (σ := 1) (n := 1) (x0 := -2) (by norm_num) one_pos hε
  obtain ⟨objs, sources, k, f, b, ht, r, hr, q, r', hi, hsense, hstart, u1, u2, hne, hp⟩ := hroom (min δ1 δ2) (lt_min d1 d2)
  have s0 : r.start 0 = -2 := by rw [hstart]; rfl
  have s1 : r.start 1 = 0 := by rw [hstart]; rfl
  have s2 : r.start 2 = 0 := by rw [hstart]; rfl
  obtain ⟨τ, -, m1, -⟩ := H1 argsort 3 s objs 1 sources 1 5 k f ha b ht r hr q r' hi hsense s0 (by rw [s1]; simpa using d1) (by rw [s2]; simpa using d1)
    (u1.trans_le (min_le_left _ _)) (u2.trans_le (min_le_left _ _)) hp
  have m2 := H2 argsort 3 s objs 1 sources 1 5 k f ha b ht r hr q r' hi hsense s0 (by rw [s1]; simpa using d2) (by rw [s2]; simpa using d2)
    (u1.trans_le (min_le_right _ _)) (u2.trans_le (min_le_right _ _)) hp 1 (by decide)
  rw [s1] at m1 m2
  refine ⟨s, objs, sources, k, f, b, ht, r, hr, q, r', τ, hstart, hne, hp, by simpa using m1, ?_⟩
  simpa [lastMedium, Station.medium] using m2

end PyRayT
