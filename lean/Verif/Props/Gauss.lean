import Verif.Props.Aplanatic
import Verif.Props.LightGuide
import Verif.Props.Chromatic
import Verif.Props.Skew
import Verif.Proofs.Rounding

/-!
# Property C118: Gaussian optics

A system of any number of spherical and flat surfaces and mirrors on a common axis (here the x axis) acts on rays close to the axis like a product of
2 × 2 matrices.
-/

namespace PyRayT

open Classical Matrix Spec Lens

/-! ### specification -/

/-- what a surface does: reflect, or let the light into a medium of the given index -/
inductive Spec.Optic where
  | mirror
  | into (index : ℝ)

/-- A surface of a centred system: where it crosses the axis, its curvature there (the reciprocal of the radius; positive if the centre is at greater x), and
what it does. -/
structure Spec.Station where
  vertex : ℝ
  curvature : ℝ
  optic : Optic

/-- Light that travels in the sense `σ` of the axis (1 or -1) in the medium `n` and meets the surface: the power of the surface, and sense and medium behind it. -/
def Spec.Station.power (st : Station) (σ n : ℝ) : ℝ :=
  match st.optic with
  | .mirror => -(2 * n * σ * st.curvature)
  | .into n' => σ * (n' - n) * st.curvature

def Spec.Station.sense (st : Station) (σ : ℝ) : ℝ :=
  match st.optic with
  | .mirror => -σ
  | .into _ => σ

def Spec.Station.medium (st : Station) (n : ℝ) : ℝ :=
  match st.optic with
  | .mirror => n
  | .into n' => n'

/-- The matrix of Gaussian optics for (height, index × slope): translations between the surfaces and a refraction or reflection at each. -/
noncomputable def Spec.gauss (σ n x : ℝ) : List Station → Matrix (Fin 2) (Fin 2) ℝ
  | [] => 1
  | st :: l => gauss (st.sense σ) (st.medium n) st.vertex l * (!![1, 0; -st.power σ n, 1] * !![1, σ * (st.vertex - x) / n; 0, 1])

/-- sense and medium at the end -/
def Spec.lastSense (σ : ℝ) : List Station → ℝ
  | [] => σ
  | st :: l => lastSense (st.sense σ) l

def Spec.lastMedium (n : ℝ) : List Station → ℝ
  | [] => n
  | st :: l => lastMedium (st.medium n) l

/-- where the last surface crosses the axis (the start if there is none) -/
def Spec.lastVertex (x : ℝ) : List Station → ℝ
  | [] => x
  | st :: l => lastVertex st.vertex l

/-- A row ends on the surface: on the half around the vertex of a sphere with its centre on the axis, or on a flat surface across the axis; the surface
is a mirror, or the far side of the glass surface has the given index. -/
def Spec.Meets (s : Scene) (objs : List ℕ) (depth : ℕ) (st : Station) (r : Row) : Prop :=
  ∃ x, EndsOn s objs depth x r ∧
    ((∃ ρ, EndsOnSphere s objs depth (point (st.vertex + 1 / st.curvature) 0 0) ρ x r ∧ ρ ^ 2 * st.curvature ^ 2 = 1 ∧
        0 < (r.stop 0 - (st.vertex + 1 / st.curvature)) * (st.vertex - (st.vertex + 1 / st.curvature))) ∨
      (st.curvature = 0 ∧ r.stop 0 = st.vertex ∧ ∃ e : ℝ, e ^ 2 = 1 ∧ surfaceNormal s.heap x r.finish = vector e 0 0)) ∧
    match st.optic with
    | .mirror => s.material x = .mirror
    | .into n => ∃ g, s.material x = .glass g ∧ (if 0 < dot4 r.dir (surfaceNormal s.heap x r.finish) then 1 else g.indexAt r.wavelength) = n

/-- A ray that is at `p` in row `r` meets the surfaces of the list one after the other, was last refracted or reflected at `q`, and goes on in row `r'`. -/
def Spec.Passes (frame : List Row) (s : Scene) (objs : List ℕ) (depth : ℕ) : List Station → Vec4 → Row → Vec4 → Row → Prop
  | [], p, r, q, r' => q = p ∧ r' = r
  | st :: l, _, r, q, r' => Meets s objs depth st r ∧ ∃ r1 ∈ frame, Follows r r1 ∧ Passes frame s objs depth l r.finish r1 q r'

/-! ### geometry of one surface -/

/-- small enough for finitely many conditions -/
theorem small_enough (l : List (ℝ × ℝ)) (h : ∀ c ∈ l, 0 < c.2) : ∃ δ > 0, δ ≤ 1 / 2 ∧ ∀ c ∈ l, c.1 * δ < c.2 := by
  induction l with
  | nil => exact ⟨1 / 2, by norm_num, le_rfl, by simp⟩
  | cons c l ih =>
    obtain ⟨δ, h0, h1, h2⟩ := ih fun c hc => h c (List.mem_cons_of_mem _ hc)
    have hc := h c List.mem_cons_self
    refine ⟨min δ (c.2 / (|c.1| + 1)), lt_min h0 (by positivity), (min_le_left _ _).trans h1, fun c' hc' => ?_⟩
    have hm : 0 < min δ (c.2 / (|c.1| + 1)) := lt_min h0 (by positivity)
    rcases List.mem_cons.1 hc' with rfl | hc'
    · have a : min δ (c'.2 / (|c'.1| + 1)) * (|c'.1| + 1) ≤ c'.2 := (le_div_iff₀ (by positivity)).1 (min_le_right _ _)
      have b : c'.1 ≤ |c'.1| := le_abs_self _
      nlinarith
    · have a := h2 c' hc'
      rcases le_or_gt 0 c'.1 with hs | hs
      · exact (mul_le_mul_of_nonneg_left (min_le_left _ _) hs).trans_lt a
      · have := h c' (List.mem_cons_of_mem _ hc')
        nlinarith

/-- a number of (0, 1] from its square -/
theorem near_one {a m : ℝ} (h0 : 0 < a) (h : a ^ 2 = 1 - m) (hm : 0 ≤ m) : a ≤ 1 ∧ 1 - m ≤ a := by
  have h1 : a ≤ 1 := by nlinarith
  exact ⟨h1, by nlinarith⟩

/-- A point of a surface near its vertex, and the unit normal there. -/
structure Cap (v κ e : ℝ) (q N : Vec4) : Prop where
  sign : e ^ 2 = 1
  n1 : N 1 = -(e * κ * q 1)
  n2 : N 2 = -(e * κ * q 2)
  n3 : N 3 = 0
  front : 0 < e * N 0
  unit : dot4 N N = 1
  deep : |q 0 - v| ≤ |κ| * (q 1 ^ 2 + q 2 ^ 2)
  near : |q 0 - v| ≤ |κ|⁻¹

theorem Cap.transfer {σ v κ x : ℝ} (hσ : σ ^ 2 = 1) {ε : ℝ} (hε : 0 < ε) : ∃ δ > 0, ∀ (e τ : ℝ) (p u q N : Vec4), |p 0 - x| < δ → |p 1| < δ → |p 2| < δ →
    |u 1| < δ → |u 2| < δ → u 0 ^ 2 + u 1 ^ 2 + u 2 ^ 2 = 1 → 0 < σ * u 0 → q 0 = p 0 + τ * u 0 → q 1 = p 1 + τ * u 1 → q 2 = p 2 + τ * u 2 → Cap v κ e q N →
    |τ - σ * (v - x)| < ε ∧ |q 0 - v| < ε ∧ |q 1| < ε ∧ |q 2| < ε := by
  set T := 2 * (|κ|⁻¹ + |v - x| + 1) with hT
  have T0 : 0 ≤ T := by positivity
  set C := 1 + T + |κ| * (1 + T) ^ 2 with hC
  obtain ⟨δ, h0, h1, h2⟩ := small_enough [(C, ε)] (by simpa using hε)
  have hCε : C * δ < ε := by simpa using h2
  refine ⟨δ, h0, ?_⟩
  intro e τ p u q N hp0 hp1 hp2 hu1 hu2 hu hσu e0 e1 e2 cap
  have s1 : u 1 ^ 2 ≤ δ ^ 2 := sq_le_sq' (by linarith [(abs_lt.1 hu1).1]) (abs_lt.1 hu1).2.le
  have s2 : u 2 ^ 2 ≤ δ ^ 2 := sq_le_sq' (by linarith [(abs_lt.1 hu2).1]) (abs_lt.1 hu2).2.le
  have dd : 2 * δ ^ 2 ≤ δ := by nlinarith
  have a2 : (σ * u 0) ^ 2 = 1 - (u 1 ^ 2 + u 2 ^ 2) := by rw [mul_pow, hσ]; linarith
  obtain ⟨a1, a3⟩ := near_one hσu a2 (by positivity)
  have ad : 1 - σ * u 0 ≤ δ := by linarith
  have ah : 1 / 2 ≤ σ * u 0 := by linarith
  have τe : τ * (σ * u 0) = σ * (q 0 - p 0) := by rw [e0]; ring
  have absσ : |σ| = 1 := by rw [← Real.sqrt_sq_eq_abs, hσ, Real.sqrt_one]
  have τb : |τ| ≤ T := by
    have a : |τ| * (σ * u 0) = |q 0 - p 0| := by
      rw [← abs_of_pos hσu, ← abs_mul, τe, abs_mul, absσ, one_mul]
    have b : |q 0 - p 0| ≤ |q 0 - v| + |v - x| + |p 0 - x| := by
      have := abs_sub_le (q 0) v (p 0)
      have := abs_sub_le v x (p 0)
      rw [abs_sub_comm x] at this
      linarith
    have := cap.near
    have := mul_le_mul_of_nonneg_left ah (abs_nonneg τ)
    linarith
  have qb : ∀ {pi ui qi : ℝ}, |pi| < δ → |ui| < δ → qi = pi + τ * ui → |qi| ≤ (1 + T) * δ := by
    intro pi ui qi hp hu hq
    rw [hq]
    refine (abs_add_le _ _).trans ?_
    rw [abs_mul]
    have := mul_le_mul τb hu.le (abs_nonneg _) T0
    linarith
  have b1 := qb hp1 hu1 e1
  have b2 := qb hp2 hu2 e2
  have small : (1 + T) * δ < ε := by
    have : (1 + T) * δ ≤ C * δ := mul_le_mul_of_nonneg_right (by rw [hC]; linarith [show 0 ≤ |κ| * (1 + T) ^ 2 by positivity]) h0.le
    linarith
  have c1 : q 1 ^ 2 ≤ ((1 + T) * δ) ^ 2 := sq_le_sq' (by linarith [(abs_le.1 b1).1]) (abs_le.1 b1).2
  have c2 : q 2 ^ 2 ≤ ((1 + T) * δ) ^ 2 := sq_le_sq' (by linarith [(abs_le.1 b2).1]) (abs_le.1 b2).2
  have q0 : |q 0 - v| ≤ |κ| * (1 + T) ^ 2 * δ := by
    refine cap.deep.trans ?_
    have : q 1 ^ 2 + q 2 ^ 2 ≤ (1 + T) ^ 2 * δ := by
      have : (1 + T) ^ 2 * (2 * δ ^ 2) ≤ (1 + T) ^ 2 * δ := mul_le_mul_of_nonneg_left dd (by positivity)
      nlinarith
    rw [mul_assoc]
    exact mul_le_mul_of_nonneg_left this (abs_nonneg _)
  refine ⟨?_, ?_, b1.trans_lt small, b2.trans_lt small⟩
  · have e : τ - σ * (v - x) = τ * (1 - σ * u 0) + σ * (q 0 - v) - σ * (p 0 - x) := by linear_combination τe
    rw [e]
    have a := abs_sub (τ * (1 - σ * u 0) + σ * (q 0 - v)) (σ * (p 0 - x))
    have b := abs_add_le (τ * (1 - σ * u 0)) (σ * (q 0 - v))
    rw [abs_mul, abs_mul σ, absσ, one_mul, abs_of_nonneg (by linarith : 0 ≤ 1 - σ * u 0)] at b
    rw [abs_mul σ, absσ, one_mul] at a
    have := mul_le_mul τb ad (by linarith) T0
    rw [hC] at hCε
    linarith
  · rw [hC] at hCε
    linarith [show 0 ≤ T * δ by positivity]

/-- near the axis light meets the surface at nearly right angles -/
theorem Cap.cosine {σ v κ e δ : ℝ} (hσ : σ ^ 2 = 1) (h0 : 0 < δ) (h1 : δ ≤ 1 / 2) {u q N : Vec4} (hu1 : |u 1| < δ) (hu2 : |u 2| < δ) (hu3 : u 3 = 0)
    (hq1 : |q 1| < δ) (hq2 : |q 2| < δ) (hu : dot4 u u = 1) (hσu : 0 < σ * u 0) (cap : Cap v κ e q N) :
    1 - (1 + κ ^ 2 + |κ|) * δ ≤ σ * e * dot4 u N ∧ σ * e * dot4 u N ≤ 1 ∧ 1 - δ ≤ σ * u 0 ∧ σ * u 0 ≤ 1 ∧ 1 - κ ^ 2 * δ ≤ e * N 0 ∧ e * N 0 ≤ 1 ∧
    |N 1| ≤ |κ| * δ ∧ |N 2| ≤ |κ| * δ := by
  have hu' : u 0 ^ 2 + u 1 ^ 2 + u 2 ^ 2 = 1 := by simp only [dot4, hu3] at hu; linarith
  have hN' : N 0 ^ 2 + N 1 ^ 2 + N 2 ^ 2 = 1 := by have := cap.unit; simp only [dot4, cap.n3] at this; linarith
  have abse : |e| = 1 := by rw [← Real.sqrt_sq_eq_abs, cap.sign, Real.sqrt_one]
  have absσ : |σ| = 1 := by rw [← Real.sqrt_sq_eq_abs, hσ, Real.sqrt_one]
  have dd : 2 * δ ^ 2 ≤ δ := by nlinarith
  have sq : ∀ {y : ℝ}, |y| < δ → y ^ 2 ≤ δ ^ 2 := fun h => sq_le_sq' (by linarith [(abs_lt.1 h).1]) (abs_lt.1 h).2.le
  have s1 := sq hu1
  have s2 := sq hu2
  have t1 := sq hq1
  have t2 := sq hq2
  have N1 : |N 1| = |κ| * |q 1| := by rw [cap.n1, abs_neg, abs_mul, abs_mul, abse, one_mul]
  have N2 : |N 2| = |κ| * |q 2| := by rw [cap.n2, abs_neg, abs_mul, abs_mul, abse, one_mul]
  have N1' : |N 1| ≤ |κ| * δ := by rw [N1]; exact mul_le_mul_of_nonneg_left hq1.le (abs_nonneg _)
  have N2' : |N 2| ≤ |κ| * δ := by rw [N2]; exact mul_le_mul_of_nonneg_left hq2.le (abs_nonneg _)
  have M : N 1 ^ 2 + N 2 ^ 2 ≤ κ ^ 2 * δ := by
    have e1 : N 1 ^ 2 = κ ^ 2 * q 1 ^ 2 := by rw [cap.n1]; linear_combination (κ * q 1) ^ 2 * cap.sign
    have e2 : N 2 ^ 2 = κ ^ 2 * q 2 ^ 2 := by rw [cap.n2]; linear_combination (κ * q 2) ^ 2 * cap.sign
    rw [e1, e2]
    have := mul_le_mul_of_nonneg_left (show q 1 ^ 2 + q 2 ^ 2 ≤ δ by linarith) (sq_nonneg κ)
    linarith
  have a2 : (σ * u 0) ^ 2 = 1 - (u 1 ^ 2 + u 2 ^ 2) := by rw [mul_pow, hσ]; linarith
  obtain ⟨a1, a3⟩ := near_one hσu a2 (by positivity)
  have ad : 1 - δ ≤ σ * u 0 := by linarith
  have b2 : (e * N 0) ^ 2 = 1 - (N 1 ^ 2 + N 2 ^ 2) := by rw [mul_pow, cap.sign]; linarith
  obtain ⟨b1, b3⟩ := near_one cap.front b2 (by positivity)
  have bd : 1 - κ ^ 2 * δ ≤ e * N 0 := by linarith
  have cross : |σ * e * (u 1 * N 1 + u 2 * N 2)| ≤ |κ| * δ := by
    rw [abs_mul, abs_mul, abse, absσ, one_mul, one_mul]
    refine (abs_add_le _ _).trans ?_
    rw [abs_mul, abs_mul]
    have i1 := mul_le_mul hu1.le N1' (abs_nonneg _) h0.le
    have i2 := mul_le_mul hu2.le N2' (abs_nonneg _) h0.le
    have := mul_le_mul_of_nonneg_left dd (abs_nonneg κ)
    linarith
  have eA : σ * e * dot4 u N = σ * u 0 * (e * N 0) + σ * e * (u 1 * N 1 + u 2 * N 2) := by simp only [dot4, hu3]; ring
  refine ⟨?_, ?_, ad, a1, bd, b1, N1', N2'⟩
  · rw [eA]
    have := (abs_le.1 cross).1
    nlinarith [mul_nonneg (show 0 ≤ 1 - σ * u 0 by linarith) (show 0 ≤ 1 - e * N 0 by linarith)]
  · have h := abs_dot4_le u N
    rw [norm4_eq_one.2 hu, norm4_eq_one.2 cap.unit, mul_one] at h
    refine (le_abs_self _).trans ?_
    rw [abs_mul, abs_mul, abse, absσ, one_mul, one_mul]
    exact h

set_option maxHeartbeats 1000000 in
theorem Cap.refracts {σ v κ n n' ε : ℝ} (hσ : σ ^ 2 = 1) (hn : 0 < n) (hn' : 0 < n') (hε : 0 < ε) : ∃ δ > 0, ∀ (e m lam : ℝ) (u q N w : Vec4) (g : IndexModel),
    |u 1| < δ → |u 2| < δ → u 3 = 0 → |q 1| < δ → |q 2| < δ → dot4 u u = 1 → w 3 = 0 → dot4 w w = 1 → 0 < σ * u 0 → Cap v κ e q N →
    Interacts (.glass g) lam N u n w m → (if 0 < dot4 u N then 1 else g.indexAt lam) = n' →
    m = n' ∧ 0 < σ * w 0 ∧ ∃ P, |P - σ * (n' - n) * κ| < ε ∧ n' * w 1 = n * u 1 - P * q 1 ∧ n' * w 2 = n * u 2 - P * q 2 := by
  set C := 1 + κ ^ 2 + |κ| with hC
  have C0 : 0 < C := by positivity
  set D := n' * ((n / n') ^ 2 * (2 * C)) + n * C with hD
  obtain ⟨δ, h0, h1, h2⟩ := small_enough [(C, 1 / 2), (2 * C * n ^ 2, n' ^ 2), ((n / n') ^ 2 * (2 * C), 1 / 4), (|κ| * D, ε), (2 * |κ|, 1 / 2)]
    (by simp; exact ⟨by positivity, hε⟩)
  simp only [List.mem_cons, List.not_mem_nil, or_false, forall_eq_or_imp, forall_eq] at h2
  obtain ⟨g1, g2, g3, g4, g5⟩ := h2
  refine ⟨δ, h0, ?_⟩
  intro e m lam u q N w g hu1 hu2 hu3 hq1 hq2 hu hw3 hw hσu cap hint hfar
  simp only [Interacts, hfar] at hint
  obtain ⟨A1, A2, a1, a2, b1, b2, N1, N2⟩ := cap.cosine hσ h0 h1 hu1 hu2 hu3 hq1 hq2 hu hσu
  have hσe : (σ * e) ^ 2 = 1 := by rw [mul_pow, hσ, cap.sign, one_mul]
  have abse : |e| = 1 := by rw [← Real.sqrt_sq_eq_abs, cap.sign, Real.sqrt_one]
  have absσ : |σ| = 1 := by rw [← Real.sqrt_sq_eq_abs, hσ, Real.sqrt_one]
  have absσe : |σ * e| = 1 := by rw [abs_mul, abse, absσ, one_mul]
  set A := dot4 u N with hA
  set W := dot4 w N with hW
  have Apos : 0 < σ * e * A := by linarith
  have A3 : 1 - A ^ 2 ≤ 2 * C * δ := by
    have : A ^ 2 = (σ * e * A) ^ 2 := by rw [mul_pow, hσe, one_mul]
    rw [this]
    have h := mul_nonneg (show 0 ≤ 1 - σ * e * A by linarith) (show 0 ≤ 1 - σ * e * A by linarith)
    linarith
  have A4 : 0 ≤ 1 - A ^ 2 := by
    have : A ^ 2 = (σ * e * A) ^ 2 := by rw [mul_pow, hσe, one_mul]
    rw [this]
    have h := mul_nonneg (show 0 ≤ 1 - σ * e * A by linarith) (show 0 ≤ 1 + σ * e * A by linarith)
    linarith
  have W4 : 0 ≤ 1 - W ^ 2 := by
    have h := abs_dot4_le w N
    rw [norm4_eq_one.2 hw, norm4_eq_one.2 cap.unit, mul_one, ← hW] at h
    have := (sq_le_one_iff_abs_le_one W).2 h
    linarith
  rcases hint with ⟨-, -, htan, hsin, hs1, hs2, hm⟩ | ⟨hle, -⟩
  swap
  · exfalso
    have h3 : (n * sinTo u N) ^ 2 < n' ^ 2 := by
      rw [mul_pow]
      show n ^ 2 * √(1 - A ^ 2) ^ 2 < n' ^ 2
      rw [Real.sq_sqrt A4]
      have h := mul_le_mul_of_nonneg_left A3 (sq_nonneg n)
      linarith
    have := abs_lt_of_sq_lt_sq h3 hn'.le
    linarith [le_abs_self (n * sinTo u N)]
  have Wpos : 0 < σ * e * W := by
    have hne : σ * e = 1 ∨ σ * e = -1 := by rcases mul_eq_zero.1 (show (σ * e - 1) * (σ * e + 1) = 0 by linear_combination hσe) with h | h <;> [left; right] <;> linarith
    rcases hne with h | h
    · rw [h, one_mul] at Apos ⊢
      exact hs1 Apos
    · rw [h] at Apos ⊢
      have := hs2 (by linarith)
      linarith
  have W2 : W ^ 2 = 1 - (n / n') ^ 2 * (1 - A ^ 2) := by
    have h := congrArg (· ^ 2) hsin
    simp only [mul_pow] at h
    have e1 : sinTo u N ^ 2 = 1 - A ^ 2 := Real.sq_sqrt A4
    have e2 : sinTo w N ^ 2 = 1 - W ^ 2 := Real.sq_sqrt W4
    rw [e1, e2] at h
    rw [div_pow]
    field_simp
    linarith
  obtain ⟨W1, W3⟩ := near_one Wpos (m := (n / n') ^ 2 * (1 - A ^ 2)) (by rw [mul_pow, hσe, one_mul, W2]) (by positivity)
  have W5 : 1 - (n / n') ^ 2 * (2 * C) * δ ≤ σ * e * W := by
    have := mul_le_mul_of_nonneg_left A3 (sq_nonneg (n / n'))
    linarith
  set K := n' * W - n * A with hK
  have Kb : |σ * e * K - (n' - n)| ≤ D * δ := by
    have e1 : σ * e * K - (n' - n) = n * (1 - σ * e * A) - n' * (1 - σ * e * W) := by rw [hK]; ring
    rw [e1, abs_le, hD]
    have k1 : 0 ≤ n * (1 - σ * e * A) := mul_nonneg hn.le (by linarith)
    have k2 : 0 ≤ n' * (1 - σ * e * W) := mul_nonneg hn'.le (by linarith)
    have k3 : n * (1 - σ * e * A) ≤ n * (C * δ) := mul_le_mul_of_nonneg_left (by linarith) hn.le
    have k4 : n' * (1 - σ * e * W) ≤ n' * ((n / n') ^ 2 * (2 * C) * δ) := mul_le_mul_of_nonneg_left (by linarith) hn'.le
    have k5 : 0 ≤ n * (C * δ) := by positivity
    have k6 : 0 ≤ n' * ((n / n') ^ 2 * (2 * C) * δ) := by positivity
    constructor <;> linarith
  have lin : ∀ i, n' * w i = n * u i + K * N i := by
    intro i
    rw [hK]
    linear_combination -htan i
  refine ⟨hm, ?_, K * e * κ, ?_, ?_, ?_⟩
  · -- the sense is kept
    have wl : ∀ i, |w i| ≤ 1 := by
      intro i
      rw [← sq_le_one_iff_abs_le_one, ← hw]
      simp only [dot4]
      have i0 := sq_nonneg (w 0)
      have i1 := sq_nonneg (w 1)
      have i2 := sq_nonneg (w 2)
      have i3 := sq_nonneg (w 3)
      fin_cases i <;> simp <;> linarith
    have e1 : σ * w 0 * (e * N 0) = σ * e * W - σ * e * (w 1 * N 1 + w 2 * N 2) := by
      rw [hW]; simp only [dot4, hw3]; ring
    have cross : |σ * e * (w 1 * N 1 + w 2 * N 2)| ≤ 2 * |κ| * δ := by
      rw [abs_mul, absσe, one_mul]
      refine (abs_add_le _ _).trans ?_
      rw [abs_mul, abs_mul]
      have i1 := mul_le_mul (wl 1) N1 (abs_nonneg _) one_pos.le
      have i2 := mul_le_mul (wl 2) N2 (abs_nonneg _) one_pos.le
      linarith
    have : 0 < σ * w 0 * (e * N 0) := by
      rw [e1]
      have := (abs_le.1 cross).2
      linarith
    exact pos_of_mul_pos_left this cap.front.le
  · have e1 : K * e * κ - σ * (n' - n) * κ = σ * κ * (σ * e * K - (n' - n)) := by linear_combination -(e * K * κ) * hσ
    rw [e1, abs_mul, abs_mul, absσ, one_mul]
    have := mul_le_mul_of_nonneg_left Kb (abs_nonneg κ)
    linarith
  · rw [lin 1, cap.n1]; ring
  · rw [lin 2, cap.n2]; ring

theorem Cap.reflects {σ v κ n ε : ℝ} (hσ : σ ^ 2 = 1) (hn : 0 < n) (hε : 0 < ε) : ∃ δ > 0, ∀ (e m lam : ℝ) (u q N w : Vec4),
    |u 1| < δ → |u 2| < δ → u 3 = 0 → |q 1| < δ → |q 2| < δ → dot4 u u = 1 → 0 < σ * u 0 → Cap v κ e q N → Interacts .mirror lam N u n w m →
    m = n ∧ 0 < -σ * w 0 ∧ ∃ P, |P - -(2 * n * σ * κ)| < ε ∧ n * w 1 = n * u 1 - P * q 1 ∧ n * w 2 = n * u 2 - P * q 2 := by
  set C := 1 + κ ^ 2 + |κ| with hC
  have C0 : 0 < C := by positivity
  obtain ⟨δ, h0, h1, h2⟩ := small_enough [(C, 1 / 8), (2 * n * |κ| * C, ε), (κ ^ 2, 1 / 8)] (by simp; exact hε)
  simp only [List.mem_cons, List.not_mem_nil, or_false, forall_eq_or_imp, forall_eq] at h2
  obtain ⟨g1, g2, g3⟩ := h2
  refine ⟨δ, h0, ?_⟩
  intro e m lam u q N w hu1 hu2 hu3 hq1 hq2 hu hσu cap hint
  obtain ⟨A1, A2, a1, a2, b1, b2, N1, N2⟩ := cap.cosine hσ h0 h1 hu1 hu2 hu3 hq1 hq2 hu hσu
  have absσ : |σ| = 1 := by rw [← Real.sqrt_sq_eq_abs, hσ, Real.sqrt_one]
  set A := dot4 u N with hA
  obtain ⟨hw, rfl⟩ := hint
  refine ⟨rfl, ?_, -(2 * m * A * e * κ), ?_, ?_, ?_⟩
  · have e1 : -σ * w 0 = 2 * (σ * e * A) * (e * N 0) - σ * u 0 := by rw [hw 0]; linear_combination -(2 * σ * A * N 0) * cap.sign
    rw [e1]
    have k1 : 7 / 8 ≤ σ * e * A := by linarith
    have k2 : 7 / 8 ≤ e * N 0 := by linarith
    nlinarith
  · have e1 : -(2 * m * A * e * κ) - -(2 * m * σ * κ) = 2 * m * κ * σ * (1 - σ * e * A) := by linear_combination (2 * m * κ * e * A) * hσ
    rw [e1, abs_mul, abs_mul, absσ, mul_one, abs_of_nonneg (by linarith : 0 ≤ 1 - σ * e * A), abs_mul, abs_of_pos (by positivity : 0 < 2 * m)]
    have : 2 * m * |κ| * (1 - σ * e * A) ≤ 2 * m * |κ| * (C * δ) := mul_le_mul_of_nonneg_left (by linarith) (by positivity)
    linarith
  · rw [hw 1, cap.n1]; ring
  · rw [hw 2, cap.n2]; ring

/-- the points of a sphere around its vertex -/
theorem Cap.of_sphere {v κ ρ μ : ℝ} {q N : Vec4} (hρ : ρ ^ 2 * κ ^ 2 = 1) (hμ : μ ^ 2 * ρ ^ 2 = 1) (hq3 : q 3 = 1)
    (hN : N = μ • (q - point (v + 1 / κ) 0 0)) (hd : dot4 (q - point (v + 1 / κ) 0 0) (q - point (v + 1 / κ) 0 0) = ρ ^ 2)
    (hfront : 0 < (q 0 - (v + 1 / κ)) * (v - (v + 1 / κ))) (hunit : dot4 N N = 1) : Cap v κ (-μ / κ) q N := by
  have hκ : κ ≠ 0 := by rintro rfl; simp at hρ
  have hμκ : μ ^ 2 = κ ^ 2 := by
    have : ρ ^ 2 ≠ 0 := by intro h; rw [h] at hρ; simp at hρ
    apply mul_right_cancel₀ this
    linarith
  have n0 : N 0 = μ * (q 0 - (v + 1 / κ)) := by rw [hN]; rfl
  have n1 : N 1 = μ * q 1 := by rw [hN]; show μ * (q 1 - 0) = _; rw [sub_zero]
  have n2 : N 2 = μ * q 2 := by rw [hN]; show μ * (q 2 - 0) = _; rw [sub_zero]
  have n3 : N 3 = 0 := by rw [hN]; show μ * (q 3 - 1) = _; rw [hq3, sub_self, mul_zero]
  have hsp : (q 0 - (v + 1 / κ)) ^ 2 + q 1 ^ 2 + q 2 ^ 2 = ρ ^ 2 := by
    rw [← hd]; simp [dot4, point, hq3, Matrix.cons_val]; ring
  set X := q 0 - v with hX
  have hXκ : κ * (q 0 - (v + 1 / κ)) = κ * X - 1 := by rw [hX]; field_simp; ring
  have pos : 0 < 1 - κ * X := by
    have : 0 < κ ^ 2 * ((q 0 - (v + 1 / κ)) * (v - (v + 1 / κ))) := mul_pos (by positivity) hfront
    have e : κ ^ 2 * ((q 0 - (v + 1 / κ)) * (v - (v + 1 / κ))) = 1 - κ * X := by rw [hX]; field_simp; ring
    rwa [e] at this
  have key : κ * X * (2 - κ * X) = κ ^ 2 * (q 1 ^ 2 + q 2 ^ 2) := by
    have : (κ * (q 0 - (v + 1 / κ))) ^ 2 + κ ^ 2 * (q 1 ^ 2 + q 2 ^ 2) = 1 := by linear_combination κ ^ 2 * hsp + hρ
    rw [hXκ] at this
    linarith
  have nn : 0 ≤ κ * X := by
    have : 0 ≤ κ * X * (2 - κ * X) := by rw [key]; positivity
    exact nonneg_of_mul_nonneg_left this (by linarith)
  have ab : |κ| * |X| = κ * X := by rw [← abs_mul, abs_of_nonneg nn]
  refine ⟨by rw [div_pow, neg_sq, hμκ, div_self (by positivity)], by rw [n1]; field_simp, by rw [n2]; field_simp, n3, ?_, hunit, ?_, ?_⟩
  · have : -μ / κ * N 0 = 1 - κ * X := by
      rw [n0]
      have : -μ / κ * (μ * (q 0 - (v + 1 / κ))) = -(μ ^ 2 / κ ^ 2) * (κ * (q 0 - (v + 1 / κ))) := by field_simp
      rw [this, hμκ, div_self (by positivity), hXκ]; ring
    rw [this]
    exact pos
  · have hκ' : 0 < |κ| := abs_pos.2 hκ
    refine le_of_mul_le_mul_left ?_ hκ'
    rw [ab, ← mul_assoc, abs_mul_abs_self, ← pow_two, ← key]
    nlinarith
  · have hκ' : 0 < |κ| := abs_pos.2 hκ
    rw [← one_div, le_div_iff₀ hκ', mul_comm, ab]
    linarith

theorem Cap.of_flat {v e : ℝ} {q N : Vec4} (he : e ^ 2 = 1) (hq : q 0 = v) (hN : N = vector e 0 0) : Cap v 0 e q N := by
  subst hN
  refine ⟨he, by simp [vector], by simp [vector, Matrix.cons_val], by simp [vector, Matrix.cons_val], ?_, ?_, by simp [hq], by simp [hq]⟩
  · have : e * vector e 0 0 0 = 1 := by simp [vector]; linarith
    rw [this]; exact one_pos
  · simp [dot4, vector, Matrix.cons_val]; linarith

/-- what happens at a surface -/
def AtStation (st : Station) (u : Vec4) (n : ℝ) (q w : Vec4) (m : ℝ) : Prop :=
  ∃ (e lam : ℝ) (N : Vec4), Cap st.vertex st.curvature e q N ∧
    match st.optic with
    | .mirror => Interacts .mirror lam N u n w m
    | .into n' => ∃ g, Interacts (.glass g) lam N u n w m ∧ (if 0 < dot4 u N then 1 else g.indexAt lam) = n'

def Passable (st : Station) : Prop := ∀ n, st.optic = .into n → 0 < n

theorem AtStation.bends {st : Station} (hst : Passable st) {σ n ε : ℝ} (hσ : σ ^ 2 = 1) (hn : 0 < n) (hε : 0 < ε) : ∃ δ > 0, ∀ (m : ℝ) (u q w : Vec4),
    |u 1| < δ → |u 2| < δ → u 3 = 0 → |q 1| < δ → |q 2| < δ → dot4 u u = 1 → w 3 = 0 → dot4 w w = 1 → 0 < σ * u 0 → AtStation st u n q w m →
    m = st.medium n ∧ 0 < st.sense σ * w 0 ∧ ∃ P, |P - st.power σ n| < ε ∧ m * w 1 = n * u 1 - P * q 1 ∧ m * w 2 = n * u 2 - P * q 2 := by
  obtain ⟨v, κ, o⟩ := st
  cases o with
  | mirror =>
    obtain ⟨δ, h0, h⟩ := Cap.reflects (v := v) (κ := κ) hσ hn hε
    refine ⟨δ, h0, ?_⟩
    rintro m u q w a1 a2 a3 a4 a5 a6 a7 a8 a9 ⟨e, lam, N, cap, hint⟩
    obtain ⟨rfl, h2, h3⟩ := h e m lam u q N w a1 a2 a3 a4 a5 a6 a9 cap hint
    exact ⟨rfl, h2, h3⟩
  | into n' =>
    obtain ⟨δ, h0, h⟩ := Cap.refracts (v := v) (κ := κ) hσ hn (hst n' rfl) hε
    refine ⟨δ, h0, ?_⟩
    rintro m u q w a1 a2 a3 a4 a5 a6 a7 a8 a9 ⟨e, lam, N, cap, g, hint, hfar⟩
    obtain ⟨rfl, h2, h3⟩ := h e m lam u q N w g a1 a2 a3 a4 a5 a6 a7 a8 a9 cap hint hfar
    exact ⟨rfl, h2, h3⟩

theorem Passable.medium {st : Station} (hst : Passable st) {n : ℝ} (hn : 0 < n) : 0 < st.medium n := by
  obtain ⟨v, κ, o⟩ := st
  cases o with
  | mirror => exact hn
  | into n' => exact hst n' rfl

theorem sense_sq (st : Station) {σ : ℝ} (hσ : σ ^ 2 = 1) : st.sense σ ^ 2 = 1 := by
  obtain ⟨v, κ, o⟩ := st
  cases o with
  | mirror => simpa [Station.sense] using hσ
  | into n' => exact hσ

/-- from a place before a surface to the next medium -/
theorem AtStation.step {st : Station} (hst : Passable st) {σ n x ε : ℝ} (hσ : σ ^ 2 = 1) (hn : 0 < n) (hε : 0 < ε) : ∃ δ > 0, ∀ (m τ : ℝ) (p u q w : Vec4),
    |p 0 - x| < δ → |p 1| < δ → |p 2| < δ → |u 1| < δ → |u 2| < δ → u 3 = 0 → dot4 u u = 1 → w 3 = 0 → dot4 w w = 1 → 0 < σ * u 0 →
    q 0 = p 0 + τ * u 0 → q 1 = p 1 + τ * u 1 → q 2 = p 2 + τ * u 2 → AtStation st u n q w m →
    m = st.medium n ∧ 0 < st.sense σ * w 0 ∧ |q 0 - st.vertex| < ε ∧ |q 1| < ε ∧ |q 2| < ε ∧ |w 1| < ε ∧ |w 2| < ε ∧
    ∃ P T, |P - st.power σ n| < ε ∧ |T - σ * (st.vertex - x) / n| < ε ∧ (q 1 = p 1 + T * (n * u 1) ∧ m * w 1 = n * u 1 - P * q 1) ∧
      (q 2 = p 2 + T * (n * u 2) ∧ m * w 2 = n * u 2 - P * q 2) := by
  have hm := hst.medium hn
  obtain ⟨δ1, h1, bend⟩ := AtStation.bends hst hσ hn (lt_min hε one_pos)
  obtain ⟨ε2, h2, -, small⟩ := small_enough [(n + |st.power σ n| + 1, st.medium n * ε), (1, n * ε), (1, ε), (1, δ1)]
    (by simp only [List.mem_cons, List.not_mem_nil, or_false, forall_eq_or_imp, forall_eq]; exact ⟨by positivity, by positivity, hε, h1⟩)
  simp only [List.mem_cons, List.not_mem_nil, or_false, forall_eq_or_imp, forall_eq, one_mul] at small
  obtain ⟨s1, s2, s3, s4⟩ := small
  obtain ⟨δ2, h3, go⟩ := Cap.transfer (v := st.vertex) (κ := st.curvature) (x := x) hσ h2
  refine ⟨min δ2 ε2, lt_min h3 h2, ?_⟩
  intro m τ p u q w p0 p1 p2 u1 u2 u3 uu w3 ww su e0 e1 e2 hat
  obtain ⟨e, lam, N, cap, -⟩ := id hat
  have uu' : u 0 ^ 2 + u 1 ^ 2 + u 2 ^ 2 = 1 := by simp only [dot4, u3] at uu; linarith
  obtain ⟨t0, q0, q1, q2⟩ := go e τ p u q N (p0.trans_le (min_le_left _ _)) (p1.trans_le (min_le_left _ _)) (p2.trans_le (min_le_left _ _))
    (u1.trans_le (min_le_left _ _)) (u2.trans_le (min_le_left _ _)) uu' su e0 e1 e2 cap
  have u1' := u1.trans_le (min_le_right _ _)
  have u2' := u2.trans_le (min_le_right _ _)
  obtain ⟨rfl, sw, P, hP, w1, w2⟩ := bend m u q w (u1'.trans s4) (u2'.trans s4) u3 (q1.trans s4) (q2.trans s4) uu w3 ww su hat
  have Pb : |P| ≤ |st.power σ n| + 1 := by
    have a := abs_sub_abs_le_abs_sub P (st.power σ n)
    have := hP.trans_le (min_le_right _ _)
    linarith
  have wb : ∀ {a b c : ℝ}, |a| < ε2 → |b| < ε2 → st.medium n * c = n * a - P * b → |c| < ε := by
    intro a b c ha hb hc
    refine lt_of_mul_lt_mul_left ?_ hm.le
    rw [← abs_of_pos hm, ← abs_mul, hc, abs_of_pos hm]
    have i1 := abs_sub (n * a) (P * b)
    rw [abs_mul, abs_mul, abs_of_pos hn] at i1
    have i2 := mul_le_mul_of_nonneg_left ha.le hn.le
    have i3 := mul_le_mul Pb hb.le (abs_nonneg _) (by positivity)
    linarith
  refine ⟨rfl, sw, q0.trans s3, q1.trans s3, q2.trans s3, wb u1' q1 w1, wb u2' q2 w2, P, τ / n, hP.trans_le (min_le_left _ _), ?_, ⟨?_, w1⟩, ?_, w2⟩
  · rw [← sub_div, abs_div, abs_of_pos hn, div_lt_iff₀ hn]
    linarith
  · rw [e1]; field_simp
  · rw [e2]; field_simp

/-- the product of matrices is continuous -/
theorem product_near (a b P T : ℝ) {ε : ℝ} (hε : 0 < ε) : ∃ η > 0, ∀ a' b' P' T' : ℝ, |a' - a| < η → |b' - b| < η → |P' - P| < η → |T' - T| < η →
    |(a' - P' * b') - (a - P * b)| < ε ∧ |(a' * T' + b' * (1 - P' * T')) - (a * T + b * (1 - P * T))| < ε := by
  have hc : Continuous fun z : ℝ × ℝ × ℝ × ℝ => (z.1 - z.2.2.1 * z.2.1, z.1 * z.2.2.2 + z.2.1 * (1 - z.2.2.1 * z.2.2.2)) := by fun_prop
  obtain ⟨η, h0, h⟩ := Metric.continuousAt_iff.1 (hc.continuousAt (x := (a, b, P, T))) ε hε
  refine ⟨η, h0, fun a' b' P' T' h1 h2 h3 h4 => ?_⟩
  have := h (x := (a', b', P', T')) (by simp only [Prod.dist_eq, Real.dist_eq]; exact max_lt h1 (max_lt h2 (max_lt h3 h4)))
  simp only [Prod.dist_eq, Real.dist_eq] at this
  exact max_lt_iff.1 this

theorem gauss_step (A : Matrix (Fin 2) (Fin 2) ℝ) (P T : ℝ) (i : Fin 2) : (A * (!![1, 0; -P, 1] * !![1, T; 0, 1])) i 0 = A i 0 - P * A i 1 ∧
    (A * (!![1, 0; -P, 1] * !![1, T; 0, 1])) i 1 = A i 0 * T + A i 1 * (1 - P * T) := by
  rw [Matrix.mul_apply, Matrix.mul_apply]
  simp only [Fin.sum_univ_two, Matrix.mul_apply]
  simp
  constructor
  · ring
  · left; ring

/-- a ray through the surfaces of a list -/
def PathThrough : List Station → Vec4 → Vec4 → ℝ → Vec4 → Vec4 → ℝ → Prop
  | [], p, u, n, q, w, m => q = p ∧ w = u ∧ m = n
  | st :: l, p, u, n, q, w, m => ∃ (τ m1 : ℝ) (q1 w1 : Vec4), (q1 0 = p 0 + τ * u 0 ∧ q1 1 = p 1 + τ * u 1 ∧ q1 2 = p 2 + τ * u 2) ∧ w1 3 = 0 ∧ dot4 w1 w1 = 1 ∧
      AtStation st u n q1 w1 m1 ∧ PathThrough l q1 w1 m1 q w m

theorem PathThrough.gauss {l : List Station} : (∀ st ∈ l, Passable st) → ∀ {σ n x ε : ℝ}, σ ^ 2 = 1 → 0 < n → 0 < ε → ∃ δ > 0,
    ∀ (m : ℝ) (p u q w : Vec4), |p 0 - x| < δ → |p 1| < δ → |p 2| < δ → |u 1| < δ → |u 2| < δ → u 3 = 0 → dot4 u u = 1 → 0 < σ * u 0 →
    PathThrough l p u n q w m → m = lastMedium n l ∧ 0 < lastSense σ l * w 0 ∧ ∃ M : Matrix (Fin 2) (Fin 2) ℝ, M.det = 1 ∧
      (∀ i j, |M i j - gauss σ n x l i j| < ε) ∧ (![q 1, m * w 1] = M *ᵥ ![p 1, n * u 1] ∧ ![q 2, m * w 2] = M *ᵥ ![p 2, n * u 2]) ∧
      |q 0 - lastVertex x l| < ε ∧ |w 1| < ε ∧ |w 2| < ε := by
  induction l with
  | nil =>
    intro _ σ n x ε hσ hn hε
    refine ⟨ε, hε, ?_⟩
    rintro m p u q w p0 - - u1 u2 - - su ⟨rfl, rfl, rfl⟩
    exact ⟨rfl, su, 1, by simp, by simpa [Spec.gauss] using hε, by simp, p0, u1, u2⟩
  | cons st l ih =>
    intro hl σ n x ε hσ hn hε
    have hst := hl st List.mem_cons_self
    set G := Spec.gauss (st.sense σ) (st.medium n) st.vertex l with hG
    obtain ⟨η0, z0, near0⟩ := product_near (G 0 0) (G 0 1) (st.power σ n) (σ * (st.vertex - x) / n) hε
    obtain ⟨η1, z1, near1⟩ := product_near (G 1 0) (G 1 1) (st.power σ n) (σ * (st.vertex - x) / n) hε
    obtain ⟨δ', h0', rest⟩ := ih (fun st' h => hl st' (List.mem_cons_of_mem _ h)) (x := st.vertex) (sense_sq st hσ) (hst.medium hn) (lt_min hε (lt_min z0 z1))
    obtain ⟨δ, h0, first⟩ := AtStation.step hst (x := x) hσ hn (lt_min h0' (lt_min z0 z1))
    refine ⟨δ, h0, ?_⟩
    rintro m p u q w p0 p1 p2 u1 u2 u3 uu su ⟨τ, m1, q1, w1, ⟨e0, e1, e2⟩, w13, ww, hat, hrest⟩
    obtain ⟨rfl, sw, b0, b1, b2, c1, c2, P, T, hP, hT, ⟨f1, g1⟩, f2, g2⟩ := first m1 τ p u q1 w1 p0 p1 p2 u1 u2 u3 uu w13 ww su e0 e1 e2 hat
    obtain ⟨hm, sl, M, hdet, hM, ⟨k1, k2⟩, v0, v1, v2⟩ := rest m q1 w1 q w (b0.trans_le (min_le_left _ _)) (b1.trans_le (min_le_left _ _)) (b2.trans_le (min_le_left _ _))
      (c1.trans_le (min_le_left _ _)) (c2.trans_le (min_le_left _ _)) w13 ww sw hrest
    have hP0 := hP.trans_le ((min_le_right _ _).trans (min_le_left _ _))
    have hP1 := hP.trans_le ((min_le_right _ _).trans (min_le_right _ _))
    have hT0 := hT.trans_le ((min_le_right _ _).trans (min_le_left _ _))
    have hT1 := hT.trans_le ((min_le_right _ _).trans (min_le_right _ _))
    obtain ⟨n00, n01⟩ := near0 (M 0 0) (M 0 1) P T ((hM 0 0).trans_le ((min_le_right _ _).trans (min_le_left _ _))) ((hM 0 1).trans_le ((min_le_right _ _).trans (min_le_left _ _))) hP0 hT0
    obtain ⟨n10, n11⟩ := near1 (M 1 0) (M 1 1) P T ((hM 1 0).trans_le ((min_le_right _ _).trans (min_le_right _ _))) ((hM 1 1).trans_le ((min_le_right _ _).trans (min_le_right _ _))) hP1 hT1
    refine ⟨hm, sl, M * (!![1, 0; -P, 1] * !![1, T; 0, 1]), by rw [Matrix.det_mul, Matrix.det_mul, hdet]; simp [Matrix.det_fin_two], ?_, ⟨?_, ?_⟩, v0.trans_le (min_le_left _ _), v1.trans_le (min_le_left _ _), v2.trans_le (min_le_left _ _)⟩
    · intro i j
      show |(M * (!![1, 0; -P, 1] * !![1, T; 0, 1])) i j - (G * (!![1, 0; -st.power σ n, 1] * !![1, σ * (st.vertex - x) / n; 0, 1])) i j| < ε
      fin_cases i <;> fin_cases j
      · rw [← (gauss_step M P T 0).1, ← (gauss_step G _ _ 0).1] at n00
        exact n00
      · rw [← (gauss_step M P T 0).2, ← (gauss_step G _ _ 0).2] at n01
        exact n01
      · rw [← (gauss_step M P T 1).1, ← (gauss_step G _ _ 1).1] at n10
        exact n10
      · rw [← (gauss_step M P T 1).2, ← (gauss_step G _ _ 1).2] at n11
        exact n11
    · rw [k1, ← Matrix.mulVec_mulVec, ← Matrix.mulVec_mulVec, g1, f1]
      congr 1
      ext i
      fin_cases i <;> simp [Matrix.mulVec, dotProduct, Fin.sum_univ_two]; ring
    · rw [k2, ← Matrix.mulVec_mulVec, ← Matrix.mulVec_mulVec, g2, f2]
      congr 1
      ext i
      fin_cases i <;> simp [Matrix.mulVec, dotProduct, Fin.sum_univ_two]; ring

/-! ### traces -/

section
variable {argsort : List EReal → List ℕ} {fuel : ℕ} {s : Scene} {objs : List ℕ} {depth : ℕ} {sources : List (ℕ → List Col)} {m : ℕ} {limit : ℤ} {k : ℕ} {f : Tracer}

theorem dir_three (r : Row) : r.dir 3 = 0 := rfl

/-- a row of a trace that meets the surface, and the next row of the ray -/
theorem Spec.Meets.at (ha : IsArgsort argsort) (b : Bench argsort fuel s objs depth sources m)
    (ht : Tracer.Traces k (Tracer.new sources (objs.map (s.component argsort depth)) m limit) f) {r r1 : Row} (hr : r ∈ f.frame) (hr1 : r1 ∈ f.frame)
    (hf : Follows r r1) {st : Station} (h : Meets s objs depth st r) : AtStation st r.dir r.index r.finish r1.dir r1.index := by
  obtain ⟨x, ⟨a, haa, id, hx, hs⟩, hgeo, hopt⟩ := h
  obtain ⟨hN, -, hI⟩ := b.optics ha ht hr hr1 hf haa hx hs
  obtain ⟨e, cap⟩ : ∃ e, Cap st.vertex st.curvature e r.finish (surfaceNormal s.heap x r.finish) := by
    rcases hgeo with ⟨ρ, hsp, hρ, hfront⟩ | ⟨h0, hq, e, he, hn⟩
    · obtain ⟨hd, -⟩ := finish_on_sphere ha b ht hr hsp
      obtain ⟨μ, hμ, hnorm⟩ := sphere_scale ha b ht hr hsp hN
      exact ⟨_, Cap.of_sphere hρ hμ rfl hnorm hd hfront hN⟩
    · rw [h0]
      exact ⟨e, Cap.of_flat he hq hn⟩
  refine ⟨e, r.wavelength, _, cap, ?_⟩
  obtain ⟨v, κ, o⟩ := st
  cases o with
  | mirror =>
    have hm : s.material x = .mirror := hopt
    rw [hm] at hI
    exact hI
  | into n' =>
    obtain ⟨g, hg, hfar⟩ := hopt
    rw [hg] at hI
    exact ⟨g, hI, hfar⟩

theorem Spec.Passes.through (ha : IsArgsort argsort) (b : Bench argsort fuel s objs depth sources m)
    (ht : Tracer.Traces k (Tracer.new sources (objs.map (s.component argsort depth)) m limit) f) : ∀ {l : List Station} {r : Row} {p q : Vec4} {r' : Row}, r ∈ f.frame →
    (∃ μ : ℝ, ∀ i : Fin 3, r.start i = p i.castSucc + μ * r.tilt i) → Passes f.frame s objs depth l p r q r' →
    r' ∈ f.frame ∧ PathThrough l p r.dir r.index q r'.dir r'.index := by
  intro l
  induction l with
  | nil =>
    rintro r p q r' hr - ⟨rfl, rfl⟩
    exact ⟨hr, rfl, rfl, rfl⟩
  | cons st l ih =>
    rintro r p q r' hr ⟨μ, hμ⟩ ⟨hmeet, r1, hr1, hfol, hrest⟩
    obtain ⟨d, μ', hfin, hst⟩ := follows_start b ha ht hr hr1 hfol
    obtain ⟨hr', hpath⟩ := ih hr1 ⟨μ', fun i => by rw [hst i, hfin i]⟩ hrest
    refine ⟨hr', μ + d, r1.index, r.finish, r1.dir, ⟨?_, ?_, ?_⟩, rfl, b.unit ha ht hr1, hmeet.at ha b ht hr hr1 hfol, hpath⟩
    · have h1 := hfin 0
      have h2 := hμ 0
      have e : r.dir 0 = r.tilt 0 := rfl
      rw [e]
      change r.finish 0 = _ at h1
      change r.start 0 = p 0 + _ at h2
      linear_combination h1 + h2
    · have h1 := hfin 1
      have h2 := hμ 1
      have e : r.dir 1 = r.tilt 1 := rfl
      rw [e]
      change r.finish 1 = _ at h1
      change r.start 1 = p 1 + _ at h2
      linear_combination h1 + h2
    · have h1 := hfin 2
      have h2 := hμ 2
      have e : r.dir 2 = r.tilt 2 := rfl
      rw [e]
      change r.finish 2 = _ at h1
      change r.start 2 = p 2 + _ at h2
      linear_combination h1 + h2

end

/-- **C118.** Take any list of spherical and flat surfaces on the x axis, each a mirror or the entrance into a medium of a given index, and let light come
in the sense `σ` from the place `x0` in the medium `n`. For every ε there is a δ such that, on every bench and in every trace: a ray that starts
closer than δ to the axis with a slope below δ and meets these surfaces in this order is nowhere totally reflected, and the heights and
(index × slope) behind the system depend on those before it by a matrix of determinant 1 (the same for both transverse directions)
whose entries are closer than ε to those of the product of matrices of Gaussian optics. -/
theorem C118_gauss {l : List Station} (hl : ∀ st ∈ l, ∀ n, st.optic = .into n → 0 < n) {σ n x0 ε : ℝ} (hσ : σ ^ 2 = 1) (hn : 0 < n) (hε : 0 < ε) :
    ∃ δ > 0, ∀ (argsort : List EReal → List ℕ) (fuel : ℕ) (s : Scene) (objs : List ℕ) (depth : ℕ) (sources : List (ℕ → List Col)) (m : ℕ) (limit : ℤ) (k : ℕ)
      (f : Tracer), IsArgsort argsort → Bench argsort fuel s objs depth sources m →
      Tracer.Traces k (Tracer.new sources (objs.map (s.component argsort depth)) m limit) f →
      ∀ r ∈ f.frame, ∀ (q : Vec4) (r' : Row), r.index = n → 0 < σ * r.tilt 0 → r.start 0 = x0 → |r.start 1| < δ → |r.start 2| < δ → |r.tilt 1| < δ → |r.tilt 2| < δ →
      Passes f.frame s objs depth l r.begin r q r' →
      r' ∈ f.frame ∧ r'.index = lastMedium n l ∧ 0 < lastSense σ l * r'.tilt 0 ∧
      ∃ M : Matrix (Fin 2) (Fin 2) ℝ, M.det = 1 ∧ (∀ i j, |M i j - gauss σ n x0 l i j| < ε) ∧
        ![q 1, r'.index * r'.tilt 1] = M *ᵥ ![r.start 1, n * r.tilt 1] ∧ ![q 2, r'.index * r'.tilt 2] = M *ᵥ ![r.start 2, n * r.tilt 2] := by
  obtain ⟨δ, h0, h⟩ := PathThrough.gauss (l := l) hl (x := x0) hσ hn hε
  refine ⟨δ, h0, ?_⟩
  rintro argsort fuel s objs depth sources m limit k f ha b ht r hr q r' rfl hsense rfl y1 y2 t1 t2 hp
  obtain ⟨hr', hpath⟩ := hp.through ha b ht hr ⟨0, fun i => by rw [zero_mul, add_zero]; fin_cases i <;> rfl⟩
  obtain ⟨e1, e2, M, e3, e4, e5, -⟩ := h r'.index r.begin r.dir q r'.dir (by simpa [Row.begin, point] using h0) y1 y2 t1 t2 rfl (b.unit ha ht hr) hsense hpath
  exact ⟨hr', e1, e2, M, e3, e4, e5⟩

/-- division is continuous: where a pencil of rays crosses the axis -/
theorem crossing_near (v σ m A C : ℝ) (hC : C ≠ 0) {ε : ℝ} (hε : 0 < ε) : ∃ η > 0, ∀ v' w A' C' : ℝ, |v' - v| < η → |w - σ| < η → |A' - A| < η → |C' - C| < η →
    C' ≠ 0 ∧ |(v' + -(m * A' / C') * w) - (v + -(m * A / C) * σ)| < ε := by
  have hc : ContinuousAt (fun z : ℝ × ℝ × ℝ × ℝ => z.1 + -(m * z.2.2.1 / z.2.2.2) * z.2.1) (v, σ, A, C) := by
    refine continuousAt_fst.add (ContinuousAt.mul (ContinuousAt.neg (ContinuousAt.div ?_ ?_ hC)) ?_) <;> fun_prop
  obtain ⟨η, h0, h⟩ := Metric.continuousAt_iff.1 hc ε hε
  refine ⟨min η |C|, lt_min h0 (abs_pos.2 hC), fun v' w A' C' h1 h2 h3 h4 => ⟨?_, ?_⟩⟩
  · rintro rfl
    have := h4.trans_le (min_le_right _ _)
    rw [zero_sub, abs_neg] at this
    exact lt_irrefl _ this
  · have := h (x := (v', w, A', C')) (by
      simp only [Prod.dist_eq, Real.dist_eq]
      exact max_lt (h1.trans_le (min_le_left _ _)) (max_lt (h2.trans_le (min_le_left _ _)) (max_lt (h3.trans_le (min_le_left _ _)) (h4.trans_le (min_le_left _ _)))))
    simpa only [Real.dist_eq] using this

theorem lastSense_sq (l : List Station) {σ : ℝ} (hσ : σ ^ 2 = 1) : lastSense σ l ^ 2 = 1 := by
  induction l generalizing σ with
  | nil => exact hσ
  | cons st l ih => exact ih (sense_sq st hσ)

/-- a unit vector close to the axis -/
theorem axial_near {σ δ : ℝ} (hσ : σ ^ 2 = 1) (h0 : 0 < δ) (h1 : δ ≤ 1 / 2) {w : Vec4} (hw3 : w 3 = 0) (hw : dot4 w w = 1) (hs : 0 < σ * w 0) (w1 : |w 1| < δ) (w2 : |w 2| < δ) :
    |w 0 - σ| ≤ δ := by
  have s1 : w 1 ^ 2 ≤ δ ^ 2 := sq_le_sq' (by linarith [(abs_lt.1 w1).1]) (abs_lt.1 w1).2.le
  have s2 : w 2 ^ 2 ≤ δ ^ 2 := sq_le_sq' (by linarith [(abs_lt.1 w2).1]) (abs_lt.1 w2).2.le
  have dd : 2 * δ ^ 2 ≤ δ := by nlinarith
  have hw' : w 0 ^ 2 + w 1 ^ 2 + w 2 ^ 2 = 1 := by simp only [dot4, hw3] at hw; linarith
  obtain ⟨a1, a2⟩ := near_one hs (m := w 1 ^ 2 + w 2 ^ 2) (by rw [mul_pow, hσ]; linarith) (by positivity)
  have absσ : |σ| = 1 := by rw [← Real.sqrt_sq_eq_abs, hσ, Real.sqrt_one]
  have e : |w 0 - σ| = |σ * w 0 - 1| := by
    rw [← one_mul |w 0 - σ|, ← absσ, ← abs_mul, absσ]
    congr 1
    linear_combination -hσ
  rw [e, abs_le]
  constructor <;> linarith

/-- **C118, images.** In a centred system let the place `x0` of the axis have an image by Gaussian optics (the lower right entry of the matrix is not zero). All
light that starts in that point, close enough to the axis in direction, and goes through the system crosses the axis behind the last surface (or has
virtually crossed it before) at one and the same point, the Gaussian image, to any accuracy. -/
theorem C118_image {l : List Station} (hl : ∀ st ∈ l, ∀ n, st.optic = .into n → 0 < n) {σ n x0 ε : ℝ} (hσ : σ ^ 2 = 1) (hn : 0 < n) (hε : 0 < ε)
    (himg : gauss σ n x0 l 1 1 ≠ 0) :
    ∃ δ > 0, ∀ (argsort : List EReal → List ℕ) (fuel : ℕ) (s : Scene) (objs : List ℕ) (depth : ℕ) (sources : List (ℕ → List Col)) (m : ℕ) (limit : ℤ) (k : ℕ)
      (f : Tracer), IsArgsort argsort → Bench argsort fuel s objs depth sources m →
      Tracer.Traces k (Tracer.new sources (objs.map (s.component argsort depth)) m limit) f →
      ∀ r ∈ f.frame, ∀ (q : Vec4) (r' : Row), r.index = n → 0 < σ * r.tilt 0 → r.start = ![x0, 0, 0] → |r.tilt 1| < δ → |r.tilt 2| < δ →
      Passes f.frame s objs depth l r.begin r q r' →
      ∃ τ X, |X - (lastVertex x0 l - lastSense σ l * lastMedium n l * (gauss σ n x0 l 0 1 / gauss σ n x0 l 1 1))| < ε ∧
        q 0 + τ * r'.tilt 0 = X ∧ q 1 + τ * r'.tilt 1 = 0 ∧ q 2 + τ * r'.tilt 2 = 0 := by
  obtain ⟨η, hη, near⟩ := crossing_near (lastVertex x0 l) (lastSense σ l) (lastMedium n l) (gauss σ n x0 l 0 1) (gauss σ n x0 l 1 1) himg hε
  obtain ⟨δ, h0, h⟩ := PathThrough.gauss (l := l) hl (x := x0) hσ hn (lt_min (half_pos hη) (by norm_num : (0 : ℝ) < 1 / 2))
  refine ⟨δ, h0, ?_⟩
  rintro argsort fuel s objs depth sources m limit k f ha b ht r hr q r' rfl hsense hstart t1 t2 hp
  obtain ⟨hr', hpath⟩ := hp.through ha b ht hr ⟨0, fun i => by rw [zero_mul, add_zero]; fin_cases i <;> rfl⟩
  have s0 : r.begin 0 = x0 := by simp [Row.begin, point, hstart]
  have s1 : r.begin 1 = 0 := by simp [Row.begin, point, hstart]
  have s2 : r.begin 2 = 0 := by simp [Row.begin, point, hstart]
  obtain ⟨hm, hs, M, hdet, hM, ⟨k1, k2⟩, v0, v1, v2⟩ := h r'.index r.begin r.dir q r'.dir (by rw [s0]; simpa using h0) (by rw [s1]; simpa using h0) (by rw [s2]; simpa using h0)
    t1 t2 rfl (b.unit ha ht hr) hsense hpath
  have lt : min (η / 2) (1 / 2) < η := (min_le_left _ _).trans_lt (by linarith)
  have hw0 := axial_near (lastSense_sq l hσ) (lt_min (half_pos hη) (by norm_num)) (min_le_right _ _) rfl (b.unit ha ht hr') hs v1 v2
  obtain ⟨hC, hX⟩ := near (q 0) (r'.dir 0) (M 0 1) (M 1 1) (v0.trans lt) (hw0.trans_lt lt) ((hM 0 1).trans lt) ((hM 1 1).trans lt)
  have cross : ∀ {a b c d : ℝ}, ![a, r'.index * b] = M *ᵥ ![c, r.index * d] → c = 0 → a + -(r'.index * M 0 1 / M 1 1) * b = 0 := by
    intro a b c d e hc
    have e0 : a = M 0 0 * c + M 0 1 * (r.index * d) := by simpa [Matrix.mulVec, dotProduct, Fin.sum_univ_two] using congrFun e 0
    have e1 : r'.index * b = M 1 0 * c + M 1 1 * (r.index * d) := by simpa [Matrix.mulVec, dotProduct, Fin.sum_univ_two] using congrFun e 1
    rw [hc] at e0 e1
    field_simp
    linear_combination M 1 1 * e0 - M 0 1 * e1
  refine ⟨-(r'.index * M 0 1 / M 1 1), _, ?_, rfl, cross k1 s1, cross k2 s2⟩
  rw [← hm] at hX ⊢
  convert hX using 2
  show q 0 + _ * r'.tilt 0 - _ = q 0 + _ * r'.tilt 0 - _
  ring

/-- **C118, focal points.** In a centred system that is not afocal (the lower left entry of the matrix is not zero) all light that comes in parallel to
the axis, close enough to it, crosses the axis behind the system at the Gaussian focal point, to any accuracy. -/
theorem C118_focus {l : List Station} (hl : ∀ st ∈ l, ∀ n, st.optic = .into n → 0 < n) {σ n x0 ε : ℝ} (hσ : σ ^ 2 = 1) (hn : 0 < n) (hε : 0 < ε)
    (hpow : gauss σ n x0 l 1 0 ≠ 0) :
    ∃ δ > 0, ∀ (argsort : List EReal → List ℕ) (fuel : ℕ) (s : Scene) (objs : List ℕ) (depth : ℕ) (sources : List (ℕ → List Col)) (m : ℕ) (limit : ℤ) (k : ℕ)
      (f : Tracer), IsArgsort argsort → Bench argsort fuel s objs depth sources m →
      Tracer.Traces k (Tracer.new sources (objs.map (s.component argsort depth)) m limit) f →
      ∀ r ∈ f.frame, ∀ (q : Vec4) (r' : Row), r.index = n → r.tilt = ![σ, 0, 0] → r.start 0 = x0 → |r.start 1| < δ → |r.start 2| < δ →
      Passes f.frame s objs depth l r.begin r q r' →
      ∃ τ X, |X - (lastVertex x0 l - lastSense σ l * lastMedium n l * (gauss σ n x0 l 0 0 / gauss σ n x0 l 1 0))| < ε ∧
        q 0 + τ * r'.tilt 0 = X ∧ q 1 + τ * r'.tilt 1 = 0 ∧ q 2 + τ * r'.tilt 2 = 0 := by
  obtain ⟨η, hη, near⟩ := crossing_near (lastVertex x0 l) (lastSense σ l) (lastMedium n l) (gauss σ n x0 l 0 0) (gauss σ n x0 l 1 0) hpow hε
  obtain ⟨δ, h0, h⟩ := PathThrough.gauss (l := l) hl (x := x0) hσ hn (lt_min (half_pos hη) (by norm_num : (0 : ℝ) < 1 / 2))
  refine ⟨δ, h0, ?_⟩
  rintro argsort fuel s objs depth sources m limit k f ha b ht r hr q r' rfl htilt rfl y1 y2 hp
  obtain ⟨hr', hpath⟩ := hp.through ha b ht hr ⟨0, fun i => by rw [zero_mul, add_zero]; fin_cases i <;> rfl⟩
  have t0 : r.dir 0 = σ := by simp [Row.dir, vector, htilt]
  have t1 : r.dir 1 = 0 := by simp [Row.dir, vector, htilt]
  have t2 : r.dir 2 = 0 := by simp [Row.dir, vector, htilt]
  obtain ⟨hm, hs, M, hdet, hM, ⟨k1, k2⟩, v0, v1, v2⟩ := h r'.index r.begin r.dir q r'.dir (by simpa [Row.begin, point] using h0) y1 y2 (by rw [t1]; simpa using h0)
    (by rw [t2]; simpa using h0) rfl (b.unit ha ht hr) (by rw [t0, ← pow_two, hσ]; exact one_pos) hpath
  have lt : min (η / 2) (1 / 2) < η := (min_le_left _ _).trans_lt (by linarith)
  have hw0 := axial_near (lastSense_sq l hσ) (lt_min (half_pos hη) (by norm_num)) (min_le_right _ _) rfl (b.unit ha ht hr') hs v1 v2
  obtain ⟨hC, hX⟩ := near (q 0) (r'.dir 0) (M 0 0) (M 1 0) (v0.trans lt) (hw0.trans_lt lt) ((hM 0 0).trans lt) ((hM 1 0).trans lt)
  have cross : ∀ {a b c d : ℝ}, ![a, r'.index * b] = M *ᵥ ![c, r.index * d] → d = 0 → a + -(r'.index * M 0 0 / M 1 0) * b = 0 := by
    intro a b c d e hd
    have e0 : a = M 0 0 * c + M 0 1 * (r.index * d) := by simpa [Matrix.mulVec, dotProduct, Fin.sum_univ_two] using congrFun e 0
    have e1 : r'.index * b = M 1 0 * c + M 1 1 * (r.index * d) := by simpa [Matrix.mulVec, dotProduct, Fin.sum_univ_two] using congrFun e 1
    rw [hd] at e0 e1
    field_simp
    linear_combination M 1 0 * e0 - M 0 0 * e1
  refine ⟨-(r'.index * M 0 0 / M 1 0), _, ?_, rfl, cross k1 t1, cross k2 t2⟩
  rw [← hm] at hX ⊢
  convert hX using 2
  show q 0 + _ * r'.tilt 0 - _ = q 0 + _ * r'.tilt 0 - _
  ring

/-- the matrix of Gaussian optics has determinant 1 -/
theorem C118_det (σ n x : ℝ) (l : List Station) : (gauss σ n x l).det = 1 := by
  induction l generalizing σ n x with
  | nil => simp [gauss]
  | cons st l ih => simp [gauss, Matrix.det_mul, ih, Matrix.det_fin_two]; ring

/-- **C118, lenses.** `lensmakers_equation` is the focal length of the lens by Gaussian optics: the lower left entry of its matrix is -1/f. -/
theorem C118_lens {R1 R2 n t f x : ℝ} (hf : lensmakersEquation R1 R2 n t = some f) :
    gauss 1 1 x [⟨-t / 2, 1 / R1, .into n⟩, ⟨t / 2, 1 / R2, .into 1⟩] 1 0 = -(1 / f) := by
  obtain ⟨h1, h2, hn, hp, rfl⟩ := lensmakers_some hf
  simp [gauss, Station.sense, Station.medium, Station.power, Matrix.mul_apply, Fin.sum_univ_two]
  field_simp
  ring

/-- a concave mirror of radius R has the focal length R/2 -/
example (R x v : ℝ) : gauss 1 1 x [⟨v, -1 / R, .mirror⟩] 1 0 = -(1 / (R / 2)) := by
  simp [gauss, Station.power, Matrix.mul_apply, Fin.sum_univ_two]
  ring

theorem turn_move_centre (c : ℝ) : (turn * moveMatrix 0 0 c) *ᵥ point 0 0 0 = point c 0 0 := by
  rw [← Matrix.mulVec_mulVec]
  funext i
  fin_cases i <;> simp [turn, moveMatrix, point, Matrix.mulVec, dotProduct, Fin.sum_univ_four, Matrix.cons_val]

/-- **C118, `thick_lens`.** Parallel light close to the axis that goes through a lens made by `thick_lens` meets its two spherical surfaces one after the
other as a centred system of two surfaces. -/
theorem C118_thick_lens {argsort : List EReal → List ℕ} {fuel : ℕ} (hst : IsStableArgsort argsort) {s0 : Scene} (h0 : Ready argsort fuel s0) (hfu : 3 ≤ fuel)
    {R1 R2 t f lam : ℝ} {ap : Aperture}
    (fits : LensFits (some R1) (some R2) t ap) (ht : 1e-6 < t) (hf1 : 0 < R1 → t < 2 * R1) (hf2 : R2 < 0 → t < -2 * R2) (g : IndexModel)
    (hn : 0 < g.indexAt lam) (hf : lensmakersEquation R1 R2 (g.indexAt lam) t = some f)
    (hback : g.indexAt lam * R1 ≠ (g.indexAt lam - 1) * t) :
    ∃ s a, thickLens argsort fuel (some R1) (some R2) t ap (.glass g) s0 = (.ok a, s) ∧
      ∃ δ > 0, ∀ (objs : List ℕ) (depth : ℕ) (sources : List (ℕ → List Col)) (N : ℕ) (limit : ℤ) (k : ℕ) (t' : Tracer),
        Bench argsort fuel s objs depth sources N → a ∈ objs → 3 ≤ depth →
        Tracer.Traces k (Tracer.new sources (objs.map (s.component argsort depth)) N limit) t' →
        ∀ r0 ∈ t'.frame, ∀ r1 ∈ t'.frame, ∀ r2 ∈ t'.frame, Follows r0 r1 → Follows r1 r2 →
          r0.wavelength = lam → r0.index = 1 → r0.tilt = ![1, 0, 0] →
          0 < r0.start 1 ^ 2 + r0.start 2 ^ 2 → r0.start 1 ^ 2 + r0.start 2 ^ 2 < δ →
          r0.start 0 < -t / 2 + sag (some R1) (r0.start 1 ^ 2 + r0.start 2 ^ 2) →
          (∃ e ∈ surfaceIds depth s.heap a, r0.surface = (e.1 : ℤ)) → (∃ e ∈ surfaceIds depth s.heap a, r1.surface = (e.1 : ℤ)) →
          Passes t'.frame s objs depth [⟨-t / 2, 1 / R1, .into (g.indexAt lam)⟩, ⟨t / 2, 1 / R2, .into 1⟩] r0.begin r0 r1.finish r2 := by
  obtain ⟨s, T, hrun, c⟩ := thickLens_makes h0 hfu (some R1) (some R2) t fits.opening (.glass g)
  refine ⟨s, T.root, hrun, ?_⟩
  obtain ⟨ρ, hρ0, hρ2, hρ⟩ := aperture_disc fits.opening
  obtain ⟨δ, hδ, hgood⟩ := eventually_good (R2 := R2) one_pos hf hn ht hρ0 hf1 hf2 hback
  have n1 : R1 ≠ 0 := by
    have := fits.wide1 R1 rfl; rintro rfl; norm_num at this; linarith [rim_pos fits.opening]
  have n2 : R2 ≠ 0 := by
    have := fits.wide2 R2 rfl; rintro rfl; norm_num at this; linarith [rim_pos fits.opening]
  refine ⟨δ, hδ, ?_⟩
  intro objs depth sources N limit k t' b haa hdep htr r0 hr0 r1 hr1 r2 hr2 f01 f12 hlam hair htilt q0 qδ hx0 ⟨e0, he0, hs0⟩ ⟨e1, he1, hs1⟩
  obtain ⟨gd, -, -, -⟩ := hgood _ q0 qδ
  have hr : Reaches argsort fuel Heap.empty s.heap := b.history.reaches
  have hinv := reaches_inv argsort empty_inv hr
  have ok := b.ok hst.1 limit
  have hcomp : s.component argsort depth T.root ∈ objs.map (s.component argsort depth) := List.mem_map.2 ⟨_, haa, rfl⟩
  have hx0' : r0.start 0 < x1 R1 t (r0.start 1 ^ 2 + r0.start 2 ^ 2) := by
    rw [Lens.sag_eq n1] at hx0; unfold x1; linarith
  obtain ⟨hi1, hray1⟩ := lens_entered hst h0 hfu hrun c rfl hn n1 n2 fits hρ hρ2 b haa hdep htr hr0 hr1 f01 hlam hair htilt gd hx0' he0 hs0
  set n := g.indexAt lam with hndef
  set y := r0.start 1 with hy
  set z := r0.start 2 with hz
  set q := y ^ 2 + z ^ 2 with hq
  refine ⟨?_, r1, hr1, f01, ?_, r2, hr2, f12, rfl, rfl⟩
  · -- the front
    obtain ⟨d0, d0pos, near0, at0⟩ := row_arrives ok htr hr0
    have rep0 := nearest_reports hst.1 hr b.exist b.distinct near0 haa (id := e0.1) (y := e0.2) he0 hs0
    have hray0 : rowRay r0 = Spec.axisRay 1 (r0.start 0) y z := by
      unfold rowRay Spec.axisRay
      rw [htilt]; rfl
    rw [hray0] at rep0 near0 at0
    obtain ⟨hfm, hfl⟩ := lens_front hst h0 hfu hrun c gd hn.ne' n1 n2 fits hρ hρ2 hdep hx0'
    have hd0 : d0 ≤ x1 R1 t q - r0.start 0 := by
      have := near0.2.1 _ hcomp _ hfm (by rw [← EReal.coe_zero, EReal.coe_lt_coe_iff]; linarith)
      exact EReal.coe_le_coe_iff.1 this
    obtain ⟨hd0', x, hxs, hxid, hxm, hxl⟩ := hfl d0 hd0 _ rep0
    have fin0 : r0.finish = point (x1 R1 t q) y z := by rw [← at0, axisRay_at, mul_one, hd0']
    have hcos := Lens.cosAt_sq gd.q1.le n1
    have hNv1 : surfaceNormal s.heap x r0.finish = vector (-cosAt R1 q) (y / R1) (z / R1) := by
      rw [fin0, sphere_leaf_normal (κ := 1 / R1) (hinv.synced x hxs).2.1 hxl (by
        split
        · rename_i h; rw [abs_of_pos h]; field_simp
        · rename_i h; rw [abs_of_nonpos (not_lt.1 h)]; field_simp) n1 (by
        change q + _ = _
        unfold x1
        have : q = R1 ^ 2 * (1 - cosAt R1 q ^ 2) := by rw [hcos]; field_simp; ring
        linear_combination this)]
      funext i
      fin_cases i
      · simp [vector, x1]; field_simp; ring
      · simp [vector]; ring
      · simp [vector]; ring
      · simp [vector]
    have hdot0 : dot4 r0.dir (vector (-cosAt R1 q) (y / R1) (z / R1)) = -cosAt R1 q := by
      unfold Row.dir; rw [htilt]; simp [dot4, vector]
    have hcpos := Lens.cosAt_pos n1 gd.q1
    have hsurf : r0.surface = (((s.heap.obj x).oid : ℕ) : ℤ) := hxid
    have hst0 : r0.stop 0 = x1 R1 t q := congrFun fin0 0
    refine ⟨x, ⟨_, haa, _, hxm, hsurf⟩, .inl ⟨R1, ⟨_, haa, _, hxm, hsurf, hxl.1, ?_, ?_⟩, by simp only []; field_simp, ?_⟩, g, hxl.2.2.2 _ rfl, ?_⟩
    · rw [hxl.2.1]; exact isometry_turn_move _ _ _
    · rw [hxl.2.1, lensLeaf1, turn_move_centre]
      congr 1
      simp only [one_div_one_div]; ring
    · simp only [one_div_one_div]
      rw [hst0]
      have : (x1 R1 t q - (-t / 2 + R1)) * (-t / 2 - (-t / 2 + R1)) = R1 ^ 2 * cosAt R1 q := by unfold x1; ring
      rw [this]
      positivity
    · rw [hNv1, hdot0, if_neg (by linarith), hlam]
  · -- the back
    obtain ⟨d1, d1pos, near1, at1⟩ := row_arrives ok htr hr1
    have rep1 := nearest_reports hst.1 hr b.exist b.distinct near1 haa (id := e1.1) (y := e1.2) he1 hs1
    have hdir : r1.dir = vector (a1 R1 n q) (b1 R1 n q * y) (b1 R1 n q * z) := congrArg Ray.d hray1
    have t10 : r1.tilt 0 = a1 R1 n q := congrFun hdir 0
    have t11 : r1.tilt 1 = b1 R1 n q * y := congrFun hdir 1
    have t12 : r1.tilt 2 = b1 R1 n q * z := congrFun hdir 2
    rw [hray1] at rep1 near1 at1
    obtain ⟨hbl, hbh⟩ := lens_inner hst.1 c gd hn.ne' n1 n2 fits hρ hρ2 hdep
    have hd1 : d1 + 1e-6 ≤ path R1 R2 t n q := by
      by_contra hc
      obtain ⟨w, hw, w0, w1⟩ := hbh (d1 + 1e-6 - path R1 R2 t n q) (by linarith)
      have := near1.2.1 _ hcomp _ hw (by exact_mod_cast w0)
      have := EReal.coe_le_coe_iff.1 this
      linarith
    obtain ⟨hd1', x', hxs', hxid', hxm', hxl'⟩ := hbl d1 d1pos _ rep1 hd1
    have fin1 : r1.finish = point (x2 R1 R2 t n q) (Lens.c2 R1 R2 t n q * y) (Lens.c2 R1 R2 t n q * z) := by
      rw [← at1, Lens.inner_at, hd1']; rfl
    have hNv2 : surfaceNormal s.heap x' r1.finish = vector (Lens.κ R1 R2 t n q) (-(Lens.c2 R1 R2 t n q * y / R2)) (-(Lens.c2 R1 R2 t n q * z / R2)) := by
      rw [fin1, sphere_leaf_normal (κ := -1 / R2) (hinv.synced x' hxs').2.1 hxl' (by
        split
        · rename_i h; rw [abs_of_neg h]; field_simp
        · rename_i h; rw [abs_of_nonneg (not_lt.1 h)]; field_simp) n2 (by
        rw [height_eq]
        exact gd.back_point hn.ne' n1 n2)]
      funext i
      fin_cases i
      · simp [vector, Lens.κ]; ring
      · simp [vector]; ring
      · simp [vector]; ring
      · simp [vector]
    have hdot1 : dot4 r1.dir (vector (Lens.κ R1 R2 t n q) (-(Lens.c2 R1 R2 t n q * y / R2)) (-(Lens.c2 R1 R2 t n q * z / R2))) = cosIn R1 R2 t n q := by
      simp only [dot4, Row.dir, t10, t11, t12]
      unfold cosIn
      simp only [vector, hq]
      simp
      ring
    have hsurf : r1.surface = (((s.heap.obj x').oid : ℕ) : ℤ) := hxid'
    have hst1 : r1.stop 0 = x2 R1 R2 t n q := congrFun fin1 0
    refine ⟨x', ⟨_, haa, _, hxm', hsurf⟩, .inl ⟨R2, ⟨_, haa, _, hxm', hsurf, hxl'.1, ?_, ?_⟩, by simp only []; field_simp, ?_⟩, g, hxl'.2.2.2 _ rfl, ?_⟩
    · rw [hxl'.2.1]; exact isometry_turn_move _ _ _
    · rw [hxl'.2.1, lensLeaf2, turn_move_centre]
      congr 1
      simp only [one_div_one_div]; ring
    · simp only [one_div_one_div]
      rw [hst1]
      have : (x2 R1 R2 t n q - (t / 2 + R2)) * (t / 2 - (t / 2 + R2)) = R2 ^ 2 * Lens.κ R1 R2 t n q := by unfold Lens.κ; field_simp; ring
      rw [this]
      have := gd.hκ
      positivity
    · rw [hNv2, hdot1, if_pos gd.hin]

/-- All hypotheses of C118, for every δ: a ray off the axis in a room with a biconvex lens of `thick_lens`. -/
example {argsort : List EReal → List ℕ} (hst : IsStableArgsort argsort) : ∃ l : List Station, l.length = 2 ∧ (∀ st ∈ l, ∀ n, st.optic = .into n → 0 < n) ∧
    ∃ s : Scene, ∀ δ > 0, ∃ (objs : List ℕ) (sources : List (ℕ → List Col)) (k : ℕ) (f : Tracer), Bench argsort 3 s objs 3 sources 1 ∧
      Tracer.Traces k (Tracer.new sources (objs.map (s.component argsort 3)) 1 5) f ∧
      ∃ r ∈ f.frame, ∃ (q : Vec4) (r' : Row), r.index = 1 ∧ 0 < 1 * r.tilt 0 ∧ |r.start 1| < δ ∧ |r.start 2| < δ ∧ |r.tilt 1| < δ ∧ |r.tilt 2| < δ ∧
        ¬ (r.start 1 = 0 ∧ r.start 2 = 0) ∧ Passes f.frame s objs 3 l r.begin r q r' := by
  obtain ⟨s0, h0, s, a, hrun, fits, h⟩ := lens_room hst (.basic (3 / 2))
  obtain ⟨⟨f, hf⟩, hδ⟩ := h 0.633 (by norm_num [IndexModel.indexAt])
  obtain ⟨s', a', hrun', δ1, h1, hpass⟩ := C118_thick_lens hst h0 le_rfl fits (by norm_num) (by norm_num) (by norm_num) (.basic (3 / 2)) (lam := 0.633)
    (by norm_num [IndexModel.indexAt]) hf (by norm_num [IndexModel.indexAt])
  rw [hrun] at hrun'
  simp only [Prod.mk.injEq, Except.ok.injEq] at hrun'
  obtain ⟨rfl, rfl⟩ := hrun'
  refine ⟨[⟨-1 / 2, 1 / 10, .into (IndexModel.indexAt (.basic (3 / 2)) 0.633)⟩, ⟨1 / 2, 1 / -10, .into 1⟩], rfl, ?_, s, fun δ hδ0 => ?_⟩
  rotate_left
  · obtain ⟨objs, sources, k, t', b, haa, ht, r0, hr0, r1, hr1, r2, hr2, f01, f12, hw, hi, htilt, q0, q1, hx, he0, he1⟩ := hδ (min δ1 (δ ^ 2)) (lt_min h1 (by positivity))
    have small : ∀ {u v : ℝ}, u ^ 2 + v ^ 2 < δ ^ 2 → |u| < δ := fun {u v} h => abs_lt_of_sq_lt_sq (by nlinarith [sq_nonneg v]) hδ0.le
    have q2 := q1.trans_le (min_le_right _ _)
    refine ⟨objs, sources, k, t', b, ht, r0, hr0, r1.finish, r2, hi, by rw [htilt]; norm_num, small q2, small (v := r0.start 1) (by linarith), by rw [htilt]; simpa using hδ0,
      by rw [htilt]; simpa using hδ0, ?_, hpass objs 3 sources 1 5 k t' b haa le_rfl ht r0 hr0 r1 hr1 r2 hr2 f01 f12 hw hi htilt q0 (q1.trans_le (min_le_left _ _)) hx he0 he1⟩
    rintro ⟨e1, e2⟩
    rw [e1, e2] at q0
    norm_num at q0
  · intro st hst n hn
    simp only [List.mem_cons, List.not_mem_nil, or_false] at hst
    rcases hst with rfl | rfl
    · cases hn; norm_num [IndexModel.indexAt]
    · cases hn; exact one_pos

/-- The focal point of a lens: the hypothesis of `C118_focus` on the matrix, and the entry that gives the back focal distance. -/
example {R1 R2 n t f x : ℝ} (hf : lensmakersEquation R1 R2 n t = some f) :
    gauss 1 1 x [⟨-t / 2, 1 / R1, .into n⟩, ⟨t / 2, 1 / R2, .into 1⟩] 1 0 ≠ 0 ∧
    gauss 1 1 x [⟨-t / 2, 1 / R1, .into n⟩, ⟨t / 2, 1 / R2, .into 1⟩] 0 0 = 1 - (n - 1) * t / (n * R1) := by
  constructor
  · rw [C118_lens hf]
    obtain ⟨h1, h2, hn, hp, rfl⟩ := lensmakers_some hf
    rw [one_div_one_div]
    exact neg_ne_zero.2 hp
  · obtain ⟨h1, h2, hn, hp, rfl⟩ := lensmakers_some hf
    simp [gauss, Station.sense, Station.medium, Station.power, Matrix.mul_apply, Fin.sum_univ_two]
    field_simp
    ring

/-- All hypotheses of `C118_image`, for every δ: a spherical mirror of radius 10 round about the origin, and a ray from the point -2 of the axis. By the mirror formula the
image is at 10 - 60/7. -/
theorem mirror_room {argsort : List EReal → List ℕ} (ha : IsArgsort argsort) : gauss 1 1 (-2) [⟨10, -1 / 10, .mirror⟩] 1 1 ≠ 0 ∧
    10 - -1 * 1 * (gauss 1 1 (-2) [⟨10, -1 / 10, .mirror⟩] 0 1 / gauss 1 1 (-2) [⟨10, -1 / 10, .mirror⟩] 1 1) = 10 - 60 / 7 ∧
    ∃ s : Scene, ∀ δ > 0, ∃ (objs : List ℕ) (sources : List (ℕ → List Col)) (k : ℕ) (f : Tracer), Bench argsort 3 s objs 1 sources 1 ∧
      Tracer.Traces k (Tracer.new sources (objs.map (s.component argsort 1)) 1 5) f ∧
      ∃ r ∈ f.frame, ∃ (q : Vec4) (r' : Row), r.index = 1 ∧ 0 < 1 * r.tilt 0 ∧ r.start = ![-2, 0, 0] ∧ |r.tilt 1| < δ ∧ |r.tilt 2| < δ ∧ r.tilt 1 ≠ 0 ∧
        Passes f.frame s objs 1 [⟨10, -1 / 10, .mirror⟩] r.begin r q r' := by
  refine ⟨?_, ?_, ?_⟩
  · simp [gauss, Station.power, Matrix.mul_apply, Fin.sum_univ_two]; norm_num
  · simp [gauss, Station.power, Matrix.mul_apply, Fin.sum_univ_two]; norm_num
  obtain ⟨s0, -, h0, hsz, hk0, hw0, hm0⟩ := room_made (argsort := argsort) (fuel := 3)
  obtain ⟨s, -, c⟩ := (Ctx.start h0).surface (.sphere 10) (some .mirror)
  obtain ⟨hdesc, -, haddr, -⟩ := c.parts _ List.mem_cons_self
  set B := s0.heap.size with hB
  simp only [Desc] at hdesc
  obtain ⟨hkB, hwB, -, hmB⟩ := hdesc
  have hmB := hmB _ rfl
  obtain ⟨-, hltB⟩ := haddr B (by simp [CTree.addrs])
  refine ⟨s, fun δ hδ => ?_⟩
  obtain ⟨h, hh⟩ : ∃ h, h = min δ 1 / 2 := ⟨_, rfl⟩
  have hm1 : 0 < min δ 1 := lt_min hδ one_pos
  have hpos : 0 < h := by rw [hh]; linarith
  have hlt : h < δ := by have := min_le_left δ 1; rw [hh]; linarith
  have hle : h ≤ 1 / 2 := by have := min_le_right δ 1; rw [hh]; linarith
  obtain ⟨e, he⟩ : ∃ e, e = √(1 - h ^ 2) := ⟨_, rfl⟩
  have e2 : e ^ 2 = 1 - h ^ 2 := by rw [he, Real.sq_sqrt (by nlinarith)]
  have epos : 0 < e := by rw [he]; exact Real.sqrt_pos.2 (by nlinarith)
  have e1 : e ≤ 1 := by nlinarith
  obtain ⟨D, hD⟩ : ∃ D, D = √(4 * e ^ 2 + 96) := ⟨_, rfl⟩
  have D2 : D ^ 2 = 4 * e ^ 2 + 96 := by rw [hD, Real.sq_sqrt (by positivity)]
  have D0 : 0 ≤ D := by rw [hD]; exact Real.sqrt_nonneg _
  have D1 : D ≤ 10 := by nlinarith
  have Dlow : 2 * e ≤ D := by nlinarith
  set ray : Ray := ⟨point (-2) 0 0, vector e h 0⟩ with hray
  set col : Col := ⟨ray, 0, 100, 0.633, 1, 0⟩ with hcol
  have b : Bench argsort 3 s [B, 0] 1 [fun _ => [col]] 1 := by
    refine room_bench hsz hk0 hm0 c (by simp [Made.depth]) (by simp [Made.leaves, Sized]) (m := .mirror) (by simp [Made.leaves]) ?_ one_pos ?_
    · exact ⟨rfl, rfl, rfl, by simp [hcol, hray, norm4, vector, e2]⟩
    · rintro g hg
      cases hg
  have hinv := reaches_inv argsort empty_inv b.history.reaches
  have hkp : (s.heap.obj 0).kind = .prim (.sphere 1000) := (c.old 0 hsz).1.trans hk0
  have hTp : (s.heap.obj 0).objT = 1 := by
    rw [(hinv.synced 0 (b.exist 0 (by simp))).2.1, (c.old 0 hsz).2.1, hw0, inv_one]
  have hTB : (s.heap.obj B).objT = 1 := by rw [(hinv.synced B hltB).2.1, hwB, inv_one]
  have hidB : surfaceIds 1 s.heap B = [((s.heap.obj B).oid, B)] := by simp only [surfaceIds, hkB]
  have hiso : Isometry (1 : Mat4) := ⟨by
    funext i
    fin_cases i <;> simp [Matrix.one_apply], fun v _ => by rw [one_mulVec]⟩
  obtain ⟨k, t', htr, -, -, -⟩ := C26_terminates (Tracer.new [fun _ => [col]] ([B, 0].map (s.component argsort 1)) 1 5) (by simp [Tracer.new]) (by simp [Tracer.new])
    (by simp [Tracer.new, hcol])
  have hall : (intersectObj argsort 1 s.heap B ray).1 = [((2 * e - D : ℝ) : EReal), ((2 * e + D : ℝ) : EReal)] := by
    have hmap : ray.map 1 = ray := by simp [Ray.map]
    simp only [intersectObj, hkB, leafIntersect, hTB, Prim.intersect, hmap]
    have hi : sphereIntersect 10 ray = (((2 * e + D : ℝ) : EReal), ((2 * e - D : ℝ) : EReal)) := by
      have ex : ray.d 0 = e ∧ ray.d 1 = h ∧ ray.d 2 = 0 ∧ ray.o 0 = -2 ∧ ray.o 1 = 0 ∧ ray.o 2 = 0 := ⟨rfl, rfl, rfl, rfl, rfl, rfl⟩
      obtain ⟨e1, e2', e3, e4, e5, e6⟩ := ex
      unfold sphereIntersect
      simp only [e1, e2', e3, e4, e5, e6]
      have hA : e * e + h * h + 0 * 0 = 1 := by linear_combination e2
      rw [hA, if_neg (by norm_num), polyRoots, show (2 * (e * -2 + h * 0 + 0 * 0) : ℝ) ^ 2 - 4 * 1 * (-2 * -2 + 0 * 0 + 0 * 0 - 10 ^ 2) = (2 * D) ^ 2 by
        linear_combination -4 * D2, if_pos (by positivity), max_eq_right (by positivity), Real.sqrt_sq (by positivity)]
      congr 2 <;> ring
    rw [hi]
    have hle : ((2 * e - D : ℝ) : EReal) ≤ ((2 * e + D : ℝ) : EReal) := EReal.coe_le_coe_iff.2 (by linarith)
    simp only [sort2, min_eq_right hle, max_eq_left hle]
  have hhit : ((2 * e + D : ℝ) : EReal) ∈ (intersectObj argsort 1 s.heap B ray).1 := by rw [hall]; simp
  refine ⟨[B, 0], _, k, t', b, htr, ?_⟩
  rcases C89_starts b ha htr (i := 0) (c := col) rfl with ⟨r, hr, g0, -, hray0, -, hi0⟩ | hmiss
  swap
  · exact absurd ⟨by exact_mod_cast (by linarith : (0 : ℝ) < 2 * e + D), EReal.coe_lt_top _⟩ (hmiss (s.component argsort 1 B) (by simp) _ hhit)
  have o : ∀ i : Fin 3, r.start i = ![-2, 0, 0] i := fun i => by
    have : r.start i = ray.o i.castSucc := by rw [show ray = rowRay r from hray0.symm]; fin_cases i <;> rfl
    rw [this]; fin_cases i <;> rfl
  have d : ∀ i : Fin 3, r.tilt i = ![e, h, 0] i := fun i => by
    have : r.tilt i = ray.d i.castSucc := by rw [show ray = rowRay r from hray0.symm]; fin_cases i <;> rfl
    rw [this]; fin_cases i <;> rfl
  have d0 : r.tilt 0 = e := d 0
  have d1 : r.tilt 1 = h := d 1
  have d2 : r.tilt 2 = 0 := d 2
  obtain ⟨⟨e', he', hs⟩, r', hr', hf⟩ := room_step b ha htr hkp hTp hr (by
      rw [hidB]; simp [hmB]) (by
      intro i
      rw [o i]
      fin_cases i <;> norm_num [abs_le]) ⟨2 * e + D, by linarith, by linarith, hray0 ▸ hhit⟩ (by rw [g0]; norm_num)
  rw [hidB, List.mem_singleton] at he'
  subst he'
  have hx : ((s.heap.obj B).oid, B) ∈ surfaceIds 1 s.heap B := by rw [hidB]; simp
  have hsphere : EndsOnSphere s [B, 0] 1 (point 0 0 0) 10 B r := ⟨B, by simp, _, hx, hs, hkB, hwB ▸ hiso, by rw [hwB, one_mulVec]⟩
  refine ⟨r, hr, r.finish, r', hi0, by rw [d0]; linarith, funext o, by rw [d1, abs_of_pos hpos]; exact hlt, by rw [d2]; simpa using hδ, by rw [d1]; exact hpos.ne', ?_, r', hr', hf, rfl, rfl⟩
  have hc : point (10 + 1 / (-1 / 10 : ℝ)) 0 0 = point 0 0 0 := by norm_num
  refine ⟨B, ⟨B, by simp, _, hx, hs⟩, .inl ⟨10, by rw [hc]; exact hsphere, by norm_num, ?_⟩, hmB⟩
  obtain ⟨w, w0, -, hat⟩ := row_arrives (b.ok ha 5) htr hr
  have hfin : r.finish = point (-2 + w * e) (w * h) 0 := by
    rw [← hat]
    funext i
    fin_cases i
    · show r.start 0 + w * r.tilt 0 = -2 + w * e
      rw [d0, show r.start 0 = -2 from o 0]
    · show r.start 1 + w * r.tilt 1 = w * h
      rw [d1, show r.start 1 = 0 from o 1, zero_add]
    · show r.start 2 + w * r.tilt 2 = 0
      rw [d2, show r.start 2 = 0 from o 2, mul_zero, zero_add]
    · show (1 : ℝ) + w * 0 = 1
      rw [mul_zero, add_zero]
  obtain ⟨hd, -⟩ := finish_on_sphere ha b htr hr hsphere
  rw [hfin] at hd
  have hd' : (-2 + w * e) ^ 2 + (w * h) ^ 2 = 100 := by
    simp [dot4, point] at hd
    linarith
  have root : (w - (2 * e + D)) * (w - (2 * e - D)) = 0 := by linear_combination hd' - w ^ 2 * e2 - D2
  have hw : w = 2 * e + D := by
    rcases mul_eq_zero.1 root with h | h
    · linarith
    · linarith
  have hs0 : r.stop 0 = -2 + w * e := congrFun hfin 0
  rw [hs0]
  have D9 : 9 ≤ D := by nlinarith
  have e8 : 4 / 5 ≤ e := by nlinarith
  have : 2 < w * e := by rw [hw]; nlinarith
  norm_num
  linarith

end PyRayT
