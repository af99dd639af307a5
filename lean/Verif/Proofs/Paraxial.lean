import Verif.Proofs.Bench
import Mathlib.Topology.Algebra.Order.Field
import Mathlib.Analysis.SpecialFunctions.Sqrt

/-! Helper lemmas for C88: a ray parallel to the axis through two spherical surfaces, as functions of the squared distance from the axis. -/

namespace PyRayT

open Classical Matrix Spec

/-! ### Snell's law solved for the direction -/

theorem snell_core {u w n : Vec4} {n1 far : ℝ} (hu : dot4 u u = 1) (hn : dot4 n n = 1) (hw : dot4 w w = 1) (hf : 0 < far)
    (ht : ∀ i, n1 * (u i - dot4 u n * n i) = far * (w i - dot4 w n * n i)) :
    dot4 w n ^ 2 = 1 - (n1 / far) ^ 2 * (1 - dot4 u n ^ 2) ∧ ∀ i, w i = n1 / far * (u i - dot4 u n * n i) + dot4 w n * n i := by
  have e : ∀ i, w i - dot4 w n * n i = n1 / far * (u i - dot4 u n * n i) := by
    intro i
    have := ht i
    field_simp
    linarith
  refine ⟨?_, fun i => by linarith [e i]⟩
  have e1 := unit_split hu hn
  have e2 := unit_split hw hn
  rw [e 0, e 1, e 2, e 3] at e2
  linear_combination e2 - (n1 / far) ^ 2 * e1

theorem interacts_enter {g : IndexModel} {lam n1 n2 : ℝ} {n u w : Vec4} (hu : dot4 u u = 1) (hn : dot4 n n = 1) (hw : dot4 w w = 1)
    (hg : 0 < g.indexAt lam) (hc : dot4 u n < 0) (hs : n1 * Spec.sinTo u n < g.indexAt lam) (hi : Interacts (.glass g) lam n u n1 w n2) :
    n2 = g.indexAt lam ∧ ∀ i, w i = n1 / g.indexAt lam * (u i - dot4 u n * n i) -
      √(1 - (n1 / g.indexAt lam) ^ 2 * (1 - dot4 u n ^ 2)) * n i := by
  simp only [Interacts, if_neg (not_lt.2 hc.le)] at hi
  rcases hi with ⟨-, -, ht, -, -, hm, hn2⟩ | ⟨hle, -⟩
  · obtain ⟨e1, e2⟩ := snell_core hu hn hw hg ht
    refine ⟨hn2, fun i => ?_⟩
    have hneg := hm hc.le
    rw [← e1, Real.sqrt_sq_eq_abs, abs_of_neg hneg, e2 i]
    ring
  · exact absurd hs (not_lt.2 hle)

theorem interacts_leave {g : IndexModel} {lam n1 n2 : ℝ} {n u w : Vec4} (hu : dot4 u u = 1) (hn : dot4 n n = 1) (hw : dot4 w w = 1)
    (hc : 0 < dot4 u n) (hs : n1 * Spec.sinTo u n < 1) (hi : Interacts (.glass g) lam n u n1 w n2) :
    n2 = 1 ∧ ∀ i, w i = n1 * (u i - dot4 u n * n i) + √(1 - n1 ^ 2 * (1 - dot4 u n ^ 2)) * n i := by
  simp only [Interacts, if_pos hc] at hi
  rcases hi with ⟨-, -, ht, -, hp, -, hn2⟩ | ⟨hle, -⟩
  · obtain ⟨e1, e2⟩ := snell_core hu hn hw one_pos ht
    rw [div_one] at e1 e2
    refine ⟨hn2, fun i => ?_⟩
    have hpos := hp hc
    rw [← e1, Real.sqrt_sq_eq_abs, abs_of_pos hpos, e2 i]
  · exact absurd hs (not_lt.2 hle)

/-! ### the ray as a function of q = y² + z² -/

namespace Lens

variable (R1 R2 t n q : ℝ)

/-- cosine of the angle between the axis and the normal of a sphere at squared distance `q` -/
noncomputable def cosAt (R q : ℝ) : ℝ := √(1 - q / R ^ 2)

/-- where the front is met -/
noncomputable def x1 : ℝ := -t / 2 + R1 - R1 * cosAt R1 q

/-- cosine of the angle of refraction at the front -/
noncomputable def m1 : ℝ := √(1 - q / (n * R1) ^ 2)

/-- direction in the glass: (a1, b1 y, b1 z) -/
noncomputable def a1 : ℝ := 1 / n - cosAt R1 q * (cosAt R1 q / n - m1 R1 n q)
noncomputable def b1 : ℝ := (cosAt R1 q / n - m1 R1 n q) / R1

/-- the square of the distance from the centre of the back, minus the radius squared, is s² + 2 β s + γ after the distance s -/
noncomputable def β : ℝ := a1 R1 n q * (x1 R1 t q - (t / 2 + R2)) + b1 R1 n q * q
noncomputable def γ : ℝ := (x1 R1 t q - (t / 2 + R2)) ^ 2 + q - R2 ^ 2

/-- path in the glass -/
noncomputable def path : ℝ := -β R1 R2 t n q - R2 * √((β R1 R2 t n q ^ 2 - γ R1 R2 t q) / R2 ^ 2)

/-- the back is met at (x2, c2 y, c2 z) -/
noncomputable def c2 : ℝ := 1 + path R1 R2 t n q * b1 R1 n q
noncomputable def x2 : ℝ := x1 R1 t q + path R1 R2 t n q * a1 R1 n q

/-- x component of the normal there -/
noncomputable def κ : ℝ := -(x2 R1 R2 t n q - (t / 2 + R2)) / R2

/-- cosine of the angle of incidence at the back -/
noncomputable def cosIn : ℝ := a1 R1 n q * κ R1 R2 t n q - b1 R1 n q * c2 R1 R2 t n q * q / R2

/-- cosine of the angle of refraction at the back -/
noncomputable def cosOut : ℝ := √(1 - n ^ 2 * (1 - cosIn R1 R2 t n q ^ 2))

/-- direction behind the lens: (a2, b2 y, b2 z) -/
noncomputable def a2 : ℝ := n * a1 R1 n q + (cosOut R1 R2 t n q - n * cosIn R1 R2 t n q) * κ R1 R2 t n q
noncomputable def b2 : ℝ := n * b1 R1 n q - (cosOut R1 R2 t n q - n * cosIn R1 R2 t n q) * c2 R1 R2 t n q / R2

/-- height over slope behind the lens -/
noncomputable def focal : ℝ := -a2 R1 R2 t n q / b2 R1 R2 t n q

/-- where the axis is crossed -/
noncomputable def cross : ℝ := x2 R1 R2 t n q + c2 R1 R2 t n q * focal R1 R2 t n q

section continuity

theorem cosAt_continuous (R : ℝ) : Continuous (cosAt R) := by unfold cosAt; fun_prop
theorem x1_continuous : Continuous (x1 R1 t) := by
  have := cosAt_continuous R1
  unfold x1; fun_prop
theorem m1_continuous : Continuous (m1 R1 n) := by unfold m1; fun_prop
theorem a1_continuous : Continuous (a1 R1 n) := by
  have := cosAt_continuous R1
  have := m1_continuous R1 n
  unfold a1; fun_prop
theorem b1_continuous : Continuous (b1 R1 n) := by
  have := cosAt_continuous R1
  have := m1_continuous R1 n
  unfold b1; fun_prop
theorem β_continuous : Continuous (β R1 R2 t n) := by
  have := a1_continuous R1 n
  have := b1_continuous R1 n
  have := x1_continuous R1 t
  unfold β; fun_prop
theorem γ_continuous : Continuous (γ R1 R2 t) := by
  have := x1_continuous R1 t
  unfold γ; fun_prop
theorem path_continuous : Continuous (path R1 R2 t n) := by
  have := β_continuous R1 R2 t n
  have := γ_continuous R1 R2 t
  unfold path; fun_prop
theorem c2_continuous : Continuous (c2 R1 R2 t n) := by
  have := path_continuous R1 R2 t n
  have := b1_continuous R1 n
  unfold c2; fun_prop
theorem x2_continuous : Continuous (x2 R1 R2 t n) := by
  have := path_continuous R1 R2 t n
  have := a1_continuous R1 n
  have := x1_continuous R1 t
  unfold x2; fun_prop
theorem κ_continuous : Continuous (κ R1 R2 t n) := by
  have := x2_continuous R1 R2 t n
  unfold κ; fun_prop
theorem cosIn_continuous : Continuous (cosIn R1 R2 t n) := by
  have := κ_continuous R1 R2 t n
  have := c2_continuous R1 R2 t n
  have := a1_continuous R1 n
  have := b1_continuous R1 n
  unfold cosIn; fun_prop
theorem cosOut_continuous : Continuous (cosOut R1 R2 t n) := by
  have := cosIn_continuous R1 R2 t n
  unfold cosOut; fun_prop
theorem a2_continuous : Continuous (a2 R1 R2 t n) := by
  have := a1_continuous R1 n
  have := cosIn_continuous R1 R2 t n
  have := cosOut_continuous R1 R2 t n
  have := κ_continuous R1 R2 t n
  unfold a2; fun_prop
theorem b2_continuous : Continuous (b2 R1 R2 t n) := by
  have := b1_continuous R1 n
  have := cosIn_continuous R1 R2 t n
  have := cosOut_continuous R1 R2 t n
  have := c2_continuous R1 R2 t n
  unfold b2; fun_prop

end continuity

section axis

variable {R1 R2 t n} (h1 : R1 ≠ 0) (h2 : R2 ≠ 0) (hn : n ≠ 0)

@[simp] theorem cosAt_zero (R : ℝ) : cosAt R 0 = 1 := by simp [cosAt]
@[simp] theorem x1_zero : x1 R1 t 0 = -t / 2 := by simp [x1]
@[simp] theorem m1_zero : m1 R1 n 0 = 1 := by simp [m1]
@[simp] theorem a1_zero : a1 R1 n 0 = 1 := by simp [a1]
@[simp] theorem b1_zero : b1 R1 n 0 = (1 / n - 1) / R1 := by simp [b1]
@[simp] theorem β_zero : β R1 R2 t n 0 = -(t + R2) := by simp [β]; ring
@[simp] theorem γ_zero : γ R1 R2 t 0 = t ^ 2 + 2 * t * R2 := by simp [γ]; ring
include h2 in
theorem disc_zero : (β R1 R2 t n 0 ^ 2 - γ R1 R2 t 0) / R2 ^ 2 = 1 := by
  rw [β_zero, γ_zero]; field_simp; ring
include h2 in
theorem path_zero : path R1 R2 t n 0 = t := by
  rw [path, disc_zero h2, Real.sqrt_one, β_zero]; ring
include h2 in
theorem c2_zero : c2 R1 R2 t n 0 = 1 + t * ((1 / n - 1) / R1) := by rw [c2, path_zero h2, b1_zero]
include h2 in
theorem x2_zero : x2 R1 R2 t n 0 = t / 2 := by rw [x2, path_zero h2, a1_zero, x1_zero]; ring
include h2 in
theorem κ_zero : κ R1 R2 t n 0 = 1 := by rw [κ, x2_zero h2]; field_simp; ring
include h2 in
theorem cosIn_zero : cosIn R1 R2 t n 0 = 1 := by rw [cosIn, κ_zero h2]; simp
include h2 in
theorem cosOut_zero : cosOut R1 R2 t n 0 = 1 := by rw [cosOut, cosIn_zero h2]; simp
include h2 in
theorem a2_zero : a2 R1 R2 t n 0 = 1 := by rw [a2, cosOut_zero h2, cosIn_zero h2, κ_zero h2, a1_zero]; ring
include h1 h2 hn in
theorem b2_zero : b2 R1 R2 t n 0 = -((n - 1) * (1 / R1 - 1 / R2 + (n - 1) * t / (n * R1 * R2))) := by
  rw [b2, cosOut_zero h2, cosIn_zero h2, c2_zero h2, b1_zero]; field_simp; ring

end axis

/-- the limits on the axis -/
theorem focal_tendsto {R1 R2 t n f : ℝ} (h : lensmakersEquation R1 R2 n t = some f) :
    b2 R1 R2 t n 0 ≠ 0 ∧ Filter.Tendsto (focal R1 R2 t n) (nhds 0) (nhds f) ∧
      Filter.Tendsto (cross R1 R2 t n) (nhds 0) (nhds (t / 2 + f * (1 - (n - 1) * t / (n * R1)))) := by
  unfold lensmakersEquation at h
  simp only at h
  split at h
  · exact absurd h (by simp)
  · rename_i hne
    push Not at hne
    obtain ⟨h1, h2, hn, hp⟩ := hne
    have hf : f = 1 / ((n - 1) * (1 / R1 - 1 / R2 + (n - 1) * t / (n * R1 * R2))) := by simpa using h.symm
    have eb : b2 R1 R2 t n 0 = -(1 / f) := by rw [b2_zero h1 h2 hn, hf, one_div_one_div]
    have hf0 : f ≠ 0 := by rw [hf]; exact one_div_ne_zero hp
    have hb : b2 R1 R2 t n 0 ≠ 0 := by rw [eb]; simpa using hf0
    have T1 : Filter.Tendsto (focal R1 R2 t n) (nhds 0) (nhds f) := by
      have : Filter.Tendsto (focal R1 R2 t n) (nhds 0) (nhds (-a2 R1 R2 t n 0 / b2 R1 R2 t n 0)) :=
        ((a2_continuous R1 R2 t n).continuousAt.neg).div (b2_continuous R1 R2 t n).continuousAt hb
      rwa [a2_zero h2, eb, neg_div_neg_eq, one_div_one_div] at this
    refine ⟨hb, T1, ?_⟩
    have := (x2_continuous R1 R2 t n).continuousAt.tendsto.add ((c2_continuous R1 R2 t n).continuousAt.tendsto.mul T1)
    rw [x2_zero h2, c2_zero h2] at this
    have e : t / 2 + (1 + t * ((1 / n - 1) / R1)) * f = t / 2 + f * (1 - (n - 1) * t / (n * R1)) := by
      field_simp; ring
    rw [e] at this
    exact this

end Lens

end PyRayT
