import Verif.Props.Folded

/-!
# Property C121, continued: images and telescopes on any axis, folded by flat mirrors

The magnification of C120 in the coordinates of C121.
-/

namespace PyRayT

open Classical Matrix Spec

set_option maxHeartbeats 1000000 in
/-- **C121, magnification.** In a folded system on any axis let the plane across the axis at `x0` have an image by Gaussian optics of the system without the folds. All light from a point of that plane near the
axis that goes through the system crosses the image plane (seen in the folding mirrors; forwards or backwards) at the height of the point divided by the lower right entry of the matrix, to any accuracy relative
to height and slope at the start. -/
theorem C121_magnification {us : List Station} (hl : ∀ st ∈ us, ∀ n, st.optic = .into n → 0 < n) {σ n x0 ε : ℝ} (hσ : σ ^ 2 = 1) (hn : 0 < n) (hε : 0 < ε)
    (himg : gauss σ n x0 us 1 1 ≠ 0) :
    ∃ δ > 0, ∀ (argsort : List EReal → List ℕ) (fuel : ℕ) (s : Scene) (objs : List ℕ) (depth : ℕ) (sources : List (ℕ → List Col)) (N : ℕ) (limit : ℤ) (k : ℕ)
      (f : Tracer), IsArgsort argsort → Bench argsort fuel s objs depth sources N →
      Tracer.Traces k (Tracer.new sources (objs.map (s.component argsort depth)) N limit) f →
      ∀ (l : List Element) (m : Mat4), unfolded l = us → Isometry m →
      ∀ r ∈ f.frame, ∀ (q : Vec4) (r' : Row), r.index = n → 0 < σ * (m *ᵥ r.dir) 0 → (m *ᵥ r.begin) 0 = x0 → |(m *ᵥ r.begin) 1| < δ → |(m *ᵥ r.begin) 2| < δ →
      |(m *ᵥ r.dir) 1| < δ → |(m *ᵥ r.dir) 2| < δ → PassesIn f.frame s objs depth m l r.begin r q r' →
      ∃ (τ : ℝ) (p : Vec4), p = lastFrame m l *ᵥ (q + τ • r'.dir) ∧
        p 0 = lastVertex x0 us - lastSense σ us * lastMedium n us * (gauss σ n x0 us 0 1 / gauss σ n x0 us 1 1) ∧
        |p 1 - (m *ᵥ r.begin) 1 / gauss σ n x0 us 1 1| ≤ ε * (|(m *ᵥ r.begin) 1| + |n * (m *ᵥ r.dir) 1|) ∧
        |p 2 - (m *ᵥ r.begin) 2 / gauss σ n x0 us 1 1| ≤ ε * (|(m *ᵥ r.begin) 2| + |n * (m *ᵥ r.dir) 2|) := by
  have hdet := C118_det σ n x0 us
  rw [Matrix.det_fin_two] at hdet
  obtain ⟨η, hη, hη2, near⟩ := plane_near (v := lastVertex x0 us) (lastSense_sq us hσ) (lastMedium_pos hl hn) himg hdet hε
  obtain ⟨δ, h0, h⟩ := PathThrough.gauss (l := us) hl (x := x0) hσ hn hη
  refine ⟨δ, h0, ?_⟩
  rintro argsort fuel s objs depth sources N limit k f ha b ht l m rfl hm r hr q r' rfl hsense hx y1 y2 t1 t2 hp
  obtain ⟨hr', hm', ν, q0, hq0, hpath⟩ := hp.through ha b ht (o := m *ᵥ r.begin) hr hm ⟨0, by rw [zero_smul, add_zero]⟩ ⟨0, by rw [zero_smul, add_zero]⟩
  obtain ⟨hm0, hs, M, -, hM, ⟨k1, k2⟩, v0, v1, v2⟩ := h r'.index (m *ᵥ r.begin) (m *ᵥ r.dir) q0 (lastFrame m l *ᵥ r'.dir) (by rw [hx]; simpa using h0) y1 y2 t1 t2
    (by rw [hm.three]; rfl) (by rw [hm.dot rfl rfl]; exact b.unit ha ht hr) hsense hpath
  have hw0 := axial_near (lastSense_sq _ hσ) hη hη2 (by rw [hm'.three]; rfl) (by rw [hm'.dot rfl rfl]; exact b.unit ha ht hr') hs v1 v2
  generalize hw : lastFrame m l *ᵥ r'.dir = w at *
  have hne : w 0 ≠ 0 := fun h => by rw [h, mul_zero] at hs; exact lt_irrefl _ hs
  have hmpos := lastMedium_pos hl hn
  set P := lastVertex x0 (unfolded l) - lastSense σ (unfolded l) * lastMedium r.index (unfolded l) * (gauss σ r.index x0 (unfolded l) 0 1 / gauss σ r.index x0 (unfolded l) 1 1) with hP
  obtain ⟨τ, hτ⟩ : ∃ τ, q0 0 + τ * w 0 = P := ⟨(P - q0 0) / w 0, by rw [div_mul_cancel₀ _ hne]; ring⟩
  obtain ⟨g1, g2⟩ := near (M 0 0) (M 0 1) (M 1 0) (M 1 1) (q0 0) (w 0) τ (hM 0 0) (hM 0 1) (hM 1 0) (hM 1 1) v0 hw0 hτ
  have height : ∀ {a b c d : ℝ}, ![a, r'.index * b] = M *ᵥ ![c, d] →
      |(a + τ * b) - c / gauss σ r.index x0 (unfolded l) 1 1| ≤ ε * (|c| + |d|) := by
    intro a b c d e
    have e0 : a = M 0 0 * c + M 0 1 * d := by simpa [Matrix.mulVec, dotProduct, Fin.sum_univ_two] using congrFun e 0
    have e1 : r'.index * b = M 1 0 * c + M 1 1 * d := by simpa [Matrix.mulVec, dotProduct, Fin.sum_univ_two] using congrFun e 1
    rw [hm0] at e1
    have e2 : τ * b = τ / lastMedium r.index (unfolded l) * (M 1 0 * c + M 1 1 * d) := by rw [← e1]; field_simp
    have := linear_near (y := c) (v := d) g1 g2
    convert this using 2
    rw [e0, e2]; ring
  have at' : lastFrame m l *ᵥ (q + (τ - ν) • r'.dir) = q0 + τ • w := by
    rw [mulVec_add, mulVec_smul, hq0, hw]
    module
  refine ⟨τ - ν, q0 + τ • w, at'.symm, ?_, ?_, ?_⟩ <;> simp only [Pi.add_apply, Pi.smul_apply, smul_eq_mul]
  · exact hτ
  · exact height k1
  · exact height k2

/-- **C121, slopes.** Behind a folded system (index × slope), seen in the folding mirrors, depends on height and slope at the start as Gaussian optics of the system without the folds says, to any accuracy
relative to them. -/
theorem C121_slope {us : List Station} (hl : ∀ st ∈ us, ∀ n, st.optic = .into n → 0 < n) {σ n x0 ε : ℝ} (hσ : σ ^ 2 = 1) (hn : 0 < n) (hε : 0 < ε) :
    ∃ δ > 0, ∀ (argsort : List EReal → List ℕ) (fuel : ℕ) (s : Scene) (objs : List ℕ) (depth : ℕ) (sources : List (ℕ → List Col)) (N : ℕ) (limit : ℤ) (k : ℕ)
      (f : Tracer), IsArgsort argsort → Bench argsort fuel s objs depth sources N →
      Tracer.Traces k (Tracer.new sources (objs.map (s.component argsort depth)) N limit) f →
      ∀ (l : List Element) (m : Mat4), unfolded l = us → Isometry m →
      ∀ r ∈ f.frame, ∀ (q : Vec4) (r' : Row), r.index = n → 0 < σ * (m *ᵥ r.dir) 0 → (m *ᵥ r.begin) 0 = x0 → |(m *ᵥ r.begin) 1| < δ → |(m *ᵥ r.begin) 2| < δ →
      |(m *ᵥ r.dir) 1| < δ → |(m *ᵥ r.dir) 2| < δ → PassesIn f.frame s objs depth m l r.begin r q r' →
      ∀ i : Fin 4, i = 1 ∨ i = 2 → |lastMedium n us * (lastFrame m l *ᵥ r'.dir) i - (gauss σ n x0 us 1 0 * (m *ᵥ r.begin) i + gauss σ n x0 us 1 1 * (n * (m *ᵥ r.dir) i))|
        ≤ ε * (|(m *ᵥ r.begin) i| + |n * (m *ᵥ r.dir) i|) := by
  obtain ⟨δ, h0, h⟩ := C121_gauss hl (x0 := x0) hσ hn hε
  refine ⟨δ, h0, ?_⟩
  intro argsort fuel s objs depth sources N limit k f ha b ht l m hu hm r hr q r' hi hsense hx y1 y2 t1 t2 hp
  obtain ⟨-, hi', -, -, μ, q0, -, -, M, -, hM, k1, k2⟩ := h argsort fuel s objs depth sources N limit k f ha b ht l m hu hm r hr q r' hi hsense hx y1 y2 t1 t2 hp
  rw [hi'] at k1 k2
  have row : ∀ {a b c d : ℝ}, ![a, b] = M *ᵥ ![c, d] → b = M 1 0 * c + M 1 1 * d := fun e => by
    simpa [Matrix.mulVec, dotProduct, Fin.sum_univ_two] using congrFun e 1
  rintro i (rfl | rfl)
  · rw [row k1]
    exact linear_near (hM 1 0).le (hM 1 1).le
  · rw [row k2]
    exact linear_near (hM 1 0).le (hM 1 1).le

/-- **C121, telescopes.** Two systems with power, where the second has its first focal point at the second focal point of the first, folded in any way between and inside them: the angles of the light to the axis are
multiplied by minus the ratio of the powers, whatever the height, to any accuracy. -/
theorem C121_afocal {us us' : List Station} (hl : ∀ st ∈ us ++ us', ∀ n, st.optic = .into n → 0 < n) {σ n x0 ε : ℝ} (hσ : σ ^ 2 = 1) (hn : 0 < n) (hε : 0 < ε)
    (h1 : gauss σ n x0 us 1 0 ≠ 0) (h2 : gauss (lastSense σ us) (lastMedium n us) (lastVertex x0 us) us' 1 0 ≠ 0)
    (hfoc : gauss (lastSense σ us) (lastMedium n us) (lastVertex x0 us - lastSense σ us * lastMedium n us * (gauss σ n x0 us 0 0 / gauss σ n x0 us 1 0)) us' 1 1 = 0) :
    ∃ δ > 0, ∀ (argsort : List EReal → List ℕ) (fuel : ℕ) (s : Scene) (objs : List ℕ) (depth : ℕ) (sources : List (ℕ → List Col)) (N : ℕ) (limit : ℤ) (k : ℕ)
      (f : Tracer), IsArgsort argsort → Bench argsort fuel s objs depth sources N →
      Tracer.Traces k (Tracer.new sources (objs.map (s.component argsort depth)) N limit) f →
      ∀ (l : List Element) (m : Mat4), unfolded l = us ++ us' → Isometry m →
      ∀ r ∈ f.frame, ∀ (q : Vec4) (r' : Row), r.index = n → 0 < σ * (m *ᵥ r.dir) 0 → (m *ᵥ r.begin) 0 = x0 → |(m *ᵥ r.begin) 1| < δ → |(m *ᵥ r.begin) 2| < δ →
      |(m *ᵥ r.dir) 1| < δ → |(m *ᵥ r.dir) 2| < δ → PassesIn f.frame s objs depth m l r.begin r q r' →
      ∀ i : Fin 4, i = 1 ∨ i = 2 → |lastMedium n (us ++ us') * (lastFrame m l *ᵥ r'.dir) i -
          -(gauss (lastSense σ us) (lastMedium n us) (lastVertex x0 us) us' 1 0 / gauss σ n x0 us 1 0) * (n * (m *ᵥ r.dir) i)|
        ≤ ε * (|(m *ᵥ r.begin) i| + |n * (m *ᵥ r.dir) i|) := by
  obtain ⟨t1, t2⟩ := C120_telescope hσ (fun st hst => hl st (List.mem_append_left _ hst)) hn h1 h2
  have h0 := t1.2 hfoc
  obtain ⟨δ, hδ, h⟩ := C121_slope hl (x0 := x0) hσ hn hε
  refine ⟨δ, hδ, ?_⟩
  intro argsort fuel s objs depth sources N limit k f ha b ht l m hu hm r hr q r' hi hsense hx y1 y2 s1 s2 hp i h12
  have := h argsort fuel s objs depth sources N limit k f ha b ht l m hu hm r hr q r' hi hsense hx y1 y2 s1 s2 hp i h12
  rwa [h0, t2 h0, zero_mul, zero_add] at this

/-- products of two near vectors -/
theorem cross_near {a1 b1 a2 b2 A1 B1 A2 B2 K η S1 S2 : ℝ} (hη1 : η ≤ 1) (hη0 : 0 ≤ η) (hK : 0 ≤ K) (h1 : 0 ≤ S1) (h2 : 0 ≤ S2)
    (ha1 : |a1 - A1| ≤ η * S1) (hb1 : |b1 - B1| ≤ η * S1) (ha2 : |a2 - A2| ≤ η * S2) (hb2 : |b2 - B2| ≤ η * S2)
    (hA1 : |A1| ≤ K * S1) (hB1 : |B1| ≤ K * S1) (hA2 : |A2| ≤ K * S2) (hB2 : |B2| ≤ K * S2) :
    |(a1 * b2 - b1 * a2) - (A1 * B2 - B1 * A2)| ≤ η * (4 * K + 2) * (S1 * S2) := by
  have near : ∀ {x X : ℝ}, |x - X| ≤ η * S2 → |X| ≤ K * S2 → |x| ≤ (K + 1) * S2 := fun {x X} hx hX => by
    have : |x| ≤ |x - X| + |X| := by simpa using abs_add_le (x - X) X
    nlinarith [mul_le_mul_of_nonneg_right hη1 h2]
  have key : ∀ {x X y Y : ℝ}, |x - X| ≤ η * S1 → |X| ≤ K * S1 → |y - Y| ≤ η * S2 → |Y| ≤ K * S2 → |x * y - X * Y| ≤ η * (2 * K + 1) * (S1 * S2) := by
    intro x X y Y hx hX hy hY
    have e : x * y - X * Y = (x - X) * y + X * (y - Y) := by ring
    rw [e]
    refine (abs_add_le _ _).trans ?_
    rw [abs_mul, abs_mul]
    have t1 := mul_le_mul hx (near hy hY) (abs_nonneg _) (mul_nonneg hη0 h1)
    have t2 := mul_le_mul hX hy (abs_nonneg _) (mul_nonneg hK h1)
    calc _ ≤ η * S1 * ((K + 1) * S2) + K * S1 * (η * S2) := add_le_add t1 t2
      _ = _ := by ring
  have k1 := key ha1 hA1 hb2 hB2
  have k2 := key hb1 hB1 ha2 hA2
  have e : (a1 * b2 - b1 * a2) - (A1 * B2 - B1 * A2) = (a1 * b2 - A1 * B2) - (b1 * a2 - B1 * A2) := by ring
  rw [e]
  refine (abs_sub _ _).trans ?_
  calc _ ≤ η * (2 * K + 1) * (S1 * S2) + η * (2 * K + 1) * (S1 * S2) := add_le_add k1 k2
    _ = _ := by ring

/-- A row `r` of some trace of some bench starts in the plane at `x0` across the axis given by `m`, closer than δ to the axis and with a slope below δ, in a medium of index `n`; its light goes through a system that is `us`
without its folds, is refracted or reflected last at `q`, and goes on in row `r'`; `m'` gives the axis behind the system, seen in the folding mirrors. -/
def Spec.TracedThrough (us : List Station) (σ n x0 δ : ℝ) (m : Mat4) (r : Row) (q : Vec4) (m' : Mat4) (r' : Row) : Prop :=
  ∃ (argsort : List EReal → List ℕ) (fuel : ℕ) (s : Scene) (objs : List ℕ) (depth : ℕ) (sources : List (ℕ → List Col)) (N : ℕ) (limit : ℤ) (k : ℕ) (f : Tracer) (l : List Element),
    IsArgsort argsort ∧ Bench argsort fuel s objs depth sources N ∧ Tracer.Traces k (Tracer.new sources (objs.map (s.component argsort depth)) N limit) f ∧
    unfolded l = us ∧ Isometry m ∧ m' = lastFrame m l ∧ r ∈ f.frame ∧ PassesIn f.frame s objs depth m l r.begin r q r' ∧
    r.index = n ∧ 0 < σ * (m *ᵥ r.dir) 0 ∧ (m *ᵥ r.begin) 0 = x0 ∧ |(m *ᵥ r.begin) 1| < δ ∧ |(m *ᵥ r.begin) 2| < δ ∧ |(m *ᵥ r.dir) 1| < δ ∧ |(m *ᵥ r.dir) 2| < δ

/-- **C121, Lagrange's invariant.** For two rays through the same system (each on its own bench and in its own trace, along its own axis and folded in its own way), height of the one × index × slope of the other minus
the same with the rays exchanged is the same behind the system as before it, to any accuracy relative to heights and slopes. (Heights behind the system are taken at points closer than ε to the vertex of the last
surface.) -/
theorem C121_lagrange {us : List Station} (hl : ∀ st ∈ us, ∀ n, st.optic = .into n → 0 < n) {σ n x0 ε : ℝ} (hσ : σ ^ 2 = 1) (hn : 0 < n) (hε : 0 < ε) :
    ∃ δ > 0, ∀ (m1 m2 m1' m2' : Mat4) (q1 q2 : Vec4) (r1 r2 r1' r2' : Row), TracedThrough us σ n x0 δ m1 r1 q1 m1' r1' → TracedThrough us σ n x0 δ m2 r2 q2 m2' r2' →
      ∃ (μ1 μ2 : ℝ) (p1 p2 : Vec4), p1 = m1' *ᵥ (q1 + μ1 • r1'.dir) ∧ p2 = m2' *ᵥ (q2 + μ2 • r2'.dir) ∧
        |p1 0 - lastVertex x0 us| < ε ∧ |p2 0 - lastVertex x0 us| < ε ∧
        ∀ i : Fin 4, i = 1 ∨ i = 2 → ∀ j : Fin 4, j = 1 ∨ j = 2 →
          |(p1 i * (r2'.index * (m2' *ᵥ r2'.dir) j) - r1'.index * (m1' *ᵥ r1'.dir) i * p2 j) -
              ((m1 *ᵥ r1.begin) i * (n * (m2 *ᵥ r2.dir) j) - n * (m1 *ᵥ r1.dir) i * (m2 *ᵥ r2.begin) j)|
            ≤ ε * ((|(m1 *ᵥ r1.begin) i| + |n * (m1 *ᵥ r1.dir) i|) * (|(m2 *ᵥ r2.begin) j| + |n * (m2 *ᵥ r2.dir) j|)) := by
  have hdet := C118_det σ n x0 us
  rw [Matrix.det_fin_two] at hdet
  set G := gauss σ n x0 us with hG
  set K := |G 0 0| + |G 0 1| + |G 1 0| + |G 1 1| with hK
  have hK0 : 0 ≤ K := by positivity
  have hQ : 0 < 4 * K + 2 := by positivity
  set η := min (min 1 ε) (ε / (4 * K + 2)) with hη
  have hη0 : 0 < η := lt_min (lt_min one_pos hε) (div_pos hε hQ)
  have hη1 : η ≤ 1 := (min_le_left _ _).trans (min_le_left _ _)
  have hηε : η ≤ ε := (min_le_left _ _).trans (min_le_right _ _)
  have hηQ : η * (4 * K + 2) ≤ ε := (le_div_iff₀ hQ).1 (min_le_right _ _)
  obtain ⟨δ, h0, h⟩ := C121_gauss hl (x0 := x0) hσ hn hη0
  refine ⟨δ, h0, ?_⟩
  intro m1 m2 m1' m2' q1 q2 r1 r2 r1' r2' hp1 hp2
  have one : ∀ (m m' : Mat4) (q : Vec4) (r r' : Row), TracedThrough us σ n x0 δ m r q m' r' →
      ∃ (μ : ℝ) (p : Vec4), p = m' *ᵥ (q + μ • r'.dir) ∧ |p 0 - lastVertex x0 us| < ε ∧ ∀ i : Fin 4, i = 1 ∨ i = 2 →
        |p i - (G 0 0 * (m *ᵥ r.begin) i + G 0 1 * (n * (m *ᵥ r.dir) i))| ≤ η * (|(m *ᵥ r.begin) i| + |n * (m *ᵥ r.dir) i|) ∧
        |r'.index * (m' *ᵥ r'.dir) i - (G 1 0 * (m *ᵥ r.begin) i + G 1 1 * (n * (m *ᵥ r.dir) i))| ≤ η * (|(m *ᵥ r.begin) i| + |n * (m *ᵥ r.dir) i|) := by
    rintro m m' q r r' ⟨argsort, fuel, s, objs, depth, sources, N, limit, k, f, l, ha, b, ht, hu, hm, rfl, hr, hp, hi, hsense, hx, y1, y2, t1, t2⟩
    obtain ⟨-, -, -, -, μ, q0, hq0, hv, M, -, hM, k1, k2⟩ := h argsort fuel s objs depth sources N limit k f ha b ht l m hu hm r hr q r' hi hsense hx y1 y2 t1 t2 hp
    have rows : ∀ {a b c d : ℝ}, ![a, b] = M *ᵥ ![c, d] → a = M 0 0 * c + M 0 1 * d ∧ b = M 1 0 * c + M 1 1 * d := fun e =>
      ⟨by simpa [Matrix.mulVec, dotProduct, Fin.sum_univ_two] using congrFun e 0, by simpa [Matrix.mulVec, dotProduct, Fin.sum_univ_two] using congrFun e 1⟩
    refine ⟨μ, q0, hq0, hv.trans_le hηε, ?_⟩
    rintro i (rfl | rfl)
    · obtain ⟨e0, e1⟩ := rows k1
      rw [e0, e1]
      exact ⟨linear_near (hM 0 0).le (hM 0 1).le, linear_near (hM 1 0).le (hM 1 1).le⟩
    · obtain ⟨e0, e1⟩ := rows k2
      rw [e0, e1]
      exact ⟨linear_near (hM 0 0).le (hM 0 1).le, linear_near (hM 1 0).le (hM 1 1).le⟩
  obtain ⟨μ1, p1, e1, v1, z1⟩ := one m1 m1' q1 r1 r1' hp1
  obtain ⟨μ2, p2, e2, v2, z2⟩ := one m2 m2' q2 r2 r2' hp2
  refine ⟨μ1, μ2, p1, p2, e1, e2, v1, v2, fun i hi j hj => ?_⟩
  obtain ⟨a1, b1⟩ := z1 i hi
  obtain ⟨a2, b2⟩ := z2 j hj
  have big : ∀ (t : Fin 2) (c d : ℝ), |G t 0 * c + G t 1 * d| ≤ K * (|c| + |d|) := by
    intro t c d
    have g0 : |G t 0| ≤ K := by
      fin_cases t <;> simp only [hK] <;> linarith! [abs_nonneg (G 0 0), abs_nonneg (G 0 1), abs_nonneg (G 1 0), abs_nonneg (G 1 1)]
    have g1 : |G t 1| ≤ K := by
      fin_cases t <;> simp only [hK] <;> linarith! [abs_nonneg (G 0 0), abs_nonneg (G 0 1), abs_nonneg (G 1 0), abs_nonneg (G 1 1)]
    refine (abs_add_le _ _).trans ?_
    rw [abs_mul, abs_mul, mul_add]
    exact add_le_add (mul_le_mul_of_nonneg_right g0 (abs_nonneg _)) (mul_le_mul_of_nonneg_right g1 (abs_nonneg _))
  have S1 : 0 ≤ |(m1 *ᵥ r1.begin) i| + |n * (m1 *ᵥ r1.dir) i| := by positivity
  have S2 : 0 ≤ |(m2 *ᵥ r2.begin) j| + |n * (m2 *ᵥ r2.dir) j| := by positivity
  have := cross_near hη1 hη0.le hK0 S1 S2 a1 b1 a2 b2 (big 0 _ _) (big 1 _ _) (big 0 _ _) (big 1 _ _)
  refine le_trans (le_of_eq ?_) (this.trans (mul_le_mul_of_nonneg_right hηQ (mul_nonneg S1 S2)))
  congr 2
  linear_combination -((m1 *ᵥ r1.begin) i * (n * (m2 *ᵥ r2.dir) j) - n * (m1 *ᵥ r1.dir) i * (m2 *ᵥ r2.begin) j) * hdet

/-! ## Examples -/

/-- The systems of `C121_afocal` may be folded between their parts: two concave mirrors of radius 10 whose axis a mirror at 45° turns upwards satisfy its hypotheses on the surfaces. -/
example (x : ℝ) : unfolded [.surface ⟨10, -1 / 10, .mirror⟩, .fold (vector √(1 / 2) 0 √(1 / 2)) 3, .surface ⟨0, 1 / 10, .mirror⟩] =
      [⟨10, -1 / 10, .mirror⟩] ++ [⟨0, 1 / 10, .mirror⟩] ∧
    gauss 1 1 x [⟨10, -1 / 10, .mirror⟩] 1 0 ≠ 0 ∧ gauss (-1) 1 10 [⟨0, 1 / 10, .mirror⟩] 1 0 ≠ 0 ∧
    gauss (-1) 1 (10 - -1 * 1 * (gauss 1 1 x [⟨10, -1 / 10, .mirror⟩] 0 0 / gauss 1 1 x [⟨10, -1 / 10, .mirror⟩] 1 0)) [⟨0, 1 / 10, .mirror⟩] 1 1 = 0 := by
  refine ⟨rfl, ?_, ?_, ?_⟩ <;> simp [gauss, Station.power, Matrix.mul_apply, Fin.sum_univ_two] <;> norm_num

/-- All hypotheses of `C121_magnification` and `C121_slope` on the z axis: light from the point -2 in a mirror of radius 10. Behind the mirror it has -7/5 times the slope, and it crosses the image
plane at the height 0, to any accuracy relative to the slope. -/
example {argsort : List EReal → List ℕ} (ha : IsArgsort argsort) {ε : ℝ} (hε : 0 < ε) :
    ∃ (s : Scene) (objs : List ℕ) (sources : List (ℕ → List Col)) (k : ℕ) (f : Tracer), Bench argsort 3 s objs 1 sources 1 ∧
      Tracer.Traces k (Tracer.new sources (objs.map (s.component argsort 1)) 1 5) f ∧
      ∃ r ∈ f.frame, ∃ (q : Vec4) (r' : Row) (h : ℝ), 0 < h ∧ (turn *ᵥ r.dir) 1 = h ∧ |(turn *ᵥ r'.dir) 1 - -7 / 5 * h| ≤ ε * h ∧
        ∃ (τ : ℝ) (p : Vec4), p = turn *ᵥ (q + τ • r'.dir) ∧ |p 1| ≤ ε * h := by
  have hl : ∀ st ∈ ([⟨10, -1 / 10, .mirror⟩] : List Station), ∀ n, st.optic = .into n → 0 < n := by
    intro st hst n hn
    rw [List.mem_singleton] at hst
    subst hst
    cases hn
  obtain ⟨himg, hval, -⟩ := mirror_room ha
  obtain ⟨δ1, d1, H1⟩ := C121_magnification hl (σ := 1) (n := 1) (x0 := -2) (by norm_num) one_pos hε himg
  obtain ⟨δ2, d2, H2⟩ := C121_slope hl (σ := 1) (n := 1) (x0 := -2) (by norm_num) one_pos hε
  obtain ⟨s, hroom⟩ := upright_room ha
  obtain ⟨objs, sources, k, f, b, ht, e, h, epos, r, hr, q, r', hi, hdir, hbeg, hne, hpos, hlt, hp⟩ := hroom (min δ1 δ2) (lt_min d1 d2)
  have iso := isometry_of_rigid turn_rigid
  have b0 : (turn *ᵥ r.begin) 0 = -2 := by rw [hbeg]; rfl
  have b1 : (turn *ᵥ r.begin) 1 = 0 := by rw [hbeg]; rfl
  have b2 : (turn *ᵥ r.begin) 2 = 0 := by rw [hbeg]; rfl
  have e0 : (turn *ᵥ r.dir) 0 = e := by rw [hdir]; rfl
  have e1 : (turn *ᵥ r.dir) 1 = h := by rw [hdir]; rfl
  have e2 : (turn *ᵥ r.dir) 2 = 0 := by rw [hdir]; rfl
  obtain ⟨τ, p, hpe, -, hp1, -⟩ := H1 argsort 3 s objs 1 sources 1 5 k f ha b ht [.surface ⟨10, -1 / 10, .mirror⟩] turn rfl iso r hr q r' hi
    (by rw [e0]; simpa using epos) b0 (by rw [b1, abs_zero]; exact d1) (by rw [b2, abs_zero]; exact d1)
    (by rw [e1, abs_of_pos hpos]; exact hlt.trans_le (min_le_left _ _)) (by rw [e2, abs_zero]; exact d1) hp
  have hsl := H2 argsort 3 s objs 1 sources 1 5 k f ha b ht [.surface ⟨10, -1 / 10, .mirror⟩] turn rfl iso r hr q r' hi
    (by rw [e0]; simpa using epos) b0 (by rw [b1, abs_zero]; exact d2) (by rw [b2, abs_zero]; exact d2)
    (by rw [e1, abs_of_pos hpos]; exact hlt.trans_le (min_le_right _ _)) (by rw [e2, abs_zero]; exact d2) hp 1 (.inl rfl)
  have hg : gauss 1 1 (-2) [⟨10, -1 / 10, .mirror⟩] 1 1 = -7 / 5 := by
    simp [gauss, Station.power, Matrix.mul_apply, Fin.sum_univ_two]; norm_num
  rw [b1, e1, hg] at hsl
  rw [b1, e1] at hp1
  refine ⟨s, objs, sources, k, f, b, ht, r, hr, q, r', h, hpos, e1, ?_, τ, p, hpe, ?_⟩
  · simpa [lastMedium, Station.medium, lastFrame, abs_of_pos hpos] using hsl
  · simpa [abs_of_pos hpos] using hp1

/-- Rays that satisfy the hypothesis of `C121_lagrange`, for every δ: those of `upright_room`. -/
example {argsort : List EReal → List ℕ} (ha : IsArgsort argsort) {δ : ℝ} (hδ : 0 < δ) :
    ∃ (r : Row) (q : Vec4) (r' : Row), 0 < (turn *ᵥ r.dir) 1 ∧ TracedThrough [⟨10, -1 / 10, .mirror⟩] 1 1 (-2) δ turn r q turn r' := by
  obtain ⟨s, hroom⟩ := upright_room ha
  obtain ⟨objs, sources, k, f, b, ht, e, h, epos, r, hr, q, r', hi, hdir, hbeg, hne, hpos, hlt, hp⟩ := hroom δ hδ
  have e1 : (turn *ᵥ r.dir) 1 = h := by rw [hdir]; rfl
  refine ⟨r, q, r', by rw [e1]; exact hpos, argsort, 3, s, objs, 1, sources, 1, 5, k, f, [.surface ⟨10, -1 / 10, .mirror⟩], ha, b, ht, rfl, isometry_of_rigid turn_rigid, rfl, hr, hp, hi, ?_, ?_, ?_, ?_, ?_, ?_⟩
  · rw [hdir]; simpa [vector] using epos
  · rw [hbeg]; rfl
  · rw [hbeg, show point (-2) 0 0 1 = 0 from rfl, abs_zero]; exact hδ
  · rw [hbeg, show point (-2) 0 0 2 = 0 from rfl, abs_zero]; exact hδ
  · rw [e1, abs_of_pos hpos]; exact hlt
  · rw [hdir, show vector e h 0 2 = 0 from rfl, abs_zero]; exact hδ

end PyRayT
