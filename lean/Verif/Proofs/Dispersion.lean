import Verif.Props.Prism
import Verif.Props.Show

/-!
# How an equilateral prism spreads colours

Geometry for property C111, and the index of a Sellmeier glass as a function of the wavelength.
-/

namespace PyRayT

open Classical Matrix Spec

/-! ### the index falls with the wavelength -/

/-- one term of the Sellmeier equation falls between its poles -/
theorem sellmeier_term_anti {b c w w' : ℝ} (hb : 0 ≤ b) (hc : 0 ≤ c) (h0 : 0 < w) (h : w ≤ w') (hp : 0 < (w ^ 2 - c) * (w' ^ 2 - c)) :
    b * w' ^ 2 / (w' ^ 2 - c) ≤ b * w ^ 2 / (w ^ 2 - c) := by
  have h1 : w ^ 2 - c ≠ 0 := left_ne_zero_of_mul hp.ne'
  have h2 : w' ^ 2 - c ≠ 0 := right_ne_zero_of_mul hp.ne'
  have e : b * w ^ 2 / (w ^ 2 - c) - b * w' ^ 2 / (w' ^ 2 - c) = b * (c * (w' ^ 2 - w ^ 2)) / ((w ^ 2 - c) * (w' ^ 2 - c)) := by
    field_simp; ring
  have : 0 ≤ b * (c * (w' ^ 2 - w ^ 2)) / ((w ^ 2 - c) * (w' ^ 2 - c)) := by
    apply div_nonneg _ hp.le
    exact mul_nonneg hb (mul_nonneg hc (by nlinarith))
  linarith

theorem sellmeier_term_strictAnti {b c w w' : ℝ} (hb : 0 < b) (hc : 0 < c) (h0 : 0 < w) (h : w < w') (hp : 0 < (w ^ 2 - c) * (w' ^ 2 - c)) :
    b * w' ^ 2 / (w' ^ 2 - c) < b * w ^ 2 / (w ^ 2 - c) := by
  have h1 : w ^ 2 - c ≠ 0 := left_ne_zero_of_mul hp.ne'
  have h2 : w' ^ 2 - c ≠ 0 := right_ne_zero_of_mul hp.ne'
  have e : b * w ^ 2 / (w ^ 2 - c) - b * w' ^ 2 / (w' ^ 2 - c) = b * (c * (w' ^ 2 - w ^ 2)) / ((w ^ 2 - c) * (w' ^ 2 - c)) := by
    field_simp; ring
  have : 0 < b * (c * (w' ^ 2 - w ^ 2)) / ((w ^ 2 - c) * (w' ^ 2 - c)) := by
    apply div_pos _ hp
    exact mul_pos hb (mul_pos hc (by nlinarith))
  linarith

/-! ### the way through the prism -/

/-- A ray that has come through both slanted faces, in coordinates in which it goes in by the face on the left: `p` is its component along the first face, upwards;
`X` the size of its component across the first face inside, times the index. -/
structure Pass (n a y z a' y' z' a'' y'' z'' p X : ℝ) : Prop where
  hp : p = a / 2 + √3 / 2 * z
  hX : 0 < X
  hX2 : X ^ 2 = n ^ 2 - (p ^ 2 + y ^ 2)
  wa : n * a' = p / 2 + √3 / 2 * X
  wz : n * z' = √3 / 2 * p - X / 2
  wm : 0 < √3 / 2 * a' + z' / 2
  vy : y'' = y
  vt : a'' / 2 - √3 / 2 * z'' = -p / 2 + √3 / 2 * X
  vm : 0 < √3 / 2 * a'' + z'' / 2
  unit : a'' ^ 2 + y'' ^ 2 + z'' ^ 2 = 1

theorem pass_of {n : ℝ} (hn : 1 < n) {a y z a' y' z' a'' y'' z'' : ℝ} (hw : a' ^ 2 + y' ^ 2 + z' ^ 2 = 1) (hv : a'' ^ 2 + y'' ^ 2 + z'' ^ 2 = 1)
    (c1 : a' * (-(√3 / 2)) + z' * (1 / 2) < 0) (c2 : 0 < a' * (√3 / 2) + z' * (1 / 2)) (c3 : 0 < a'' * (√3 / 2) + z'' * (1 / 2))
    (sa : a - (a * (-(√3 / 2)) + z * (1 / 2)) * (-(√3 / 2)) = n * (a' - (a' * (-(√3 / 2)) + z' * (1 / 2)) * (-(√3 / 2))))
    (sy : y = n * y')
    (sz : z - (a * (-(√3 / 2)) + z * (1 / 2)) * (1 / 2) = n * (z' - (a' * (-(√3 / 2)) + z' * (1 / 2)) * (1 / 2)))
    (ta : n * (a' - (a' * (√3 / 2) + z' * (1 / 2)) * (√3 / 2)) = a'' - (a'' * (√3 / 2) + z'' * (1 / 2)) * (√3 / 2))
    (ty : n * y' = y'')
    (tz : n * (z' - (a' * (√3 / 2) + z' * (1 / 2)) * (1 / 2)) = z'' - (a'' * (√3 / 2) + z'' * (1 / 2)) * (1 / 2)) :
    Pass n a y z a' y' z' a'' y'' z'' (a / 2 + √3 / 2 * z) (-(n * (a' * (-(√3 / 2)) + z' * (1 / 2)))) := by
  obtain ⟨k2, k0⟩ := sqrt_three
  have n0 : 0 < n := by linarith
  have hp : a / 2 + √3 / 2 * z = n * (a' / 2 + √3 / 2 * z') := by
    linear_combination (1 / 2) * sa + (√3 / 2) * sz
  refine ⟨rfl, ?_, ?_, ?_, ?_, by linarith, by rw [← ty, sy], ?_, by linarith, hv⟩
  · nlinarith
  · rw [hp, sy]
    linear_combination n ^ 2 * hw + (n ^ 2 * (a' ^ 2 / 4 + z' ^ 2 / 4)) * k2
  · rw [hp]
    linear_combination (-n * a' / 4) * k2
  · rw [hp]
    linear_combination (-n * z' / 4) * k2
  · rw [hp]
    linear_combination (-1 / 2) * ta + (√3 / 2) * tz + (-n * a' / 4) * k2

/-- two directions on the outer side of a face and of the same length: the one with the larger component along the face is turned further -/
theorem turned_more {B T B' T' ρ : ℝ} (hB : 0 ≤ B) (hB' : 0 < B') (h : B ^ 2 + T ^ 2 = ρ) (h' : B' ^ 2 + T' ^ 2 = ρ) (ht : T < T') : 0 < B * T' - T * B' := by
  rcases le_or_gt 0 T with h0 | h0
  · have : B' < B := by
      apply lt_of_pow_lt_pow_left₀ 2 hB
      nlinarith
    nlinarith
  · rcases le_or_gt 0 T' with h1 | h1
    · have := mul_nonneg hB h1
      nlinarith
    · have : B < B' := by
        apply lt_of_pow_lt_pow_left₀ 2 hB'.le
        nlinarith
      nlinarith

set_option maxHeartbeats 1000000 in
/-- the same ray in two colours -/
theorem pass_compare {n m a y z a' y' z' a'' y'' z'' b' v' c' b'' v'' c'' p X q Y : ℝ} (hn : 1 < n) (hnm : n < m) (hu : a ^ 2 + y ^ 2 + z ^ 2 = 1)
    (hin : a * (-(√3 / 2)) + z * (1 / 2) ≤ 0) (P : Pass n a y z a' y' z' a'' y'' z'' p X) (Q : Pass m a y z b' v' c' b'' v'' c'' q Y) :
    q = p ∧ X < Y ∧ 0 < z'' * b'' - a'' * c'' ∧ a * b'' + y * v'' + z * c'' < a * a'' + y * y'' + z * z'' := by
  obtain ⟨k2, k0⟩ := sqrt_three
  have hqp : q = p := by rw [Q.hp, P.hp]
  subst hqp
  obtain ⟨A, hA⟩ : ∃ A, A = √3 / 2 * a - z / 2 := ⟨_, rfl⟩
  have hA0 : 0 ≤ A := by linarith
  have hρ : q ^ 2 + A ^ 2 = 1 - y ^ 2 := by
    rw [hA, P.hp]; linear_combination hu + (a ^ 2 / 4 + z ^ 2 / 4) * k2
  have hXY : X < Y := by
    apply lt_of_pow_lt_pow_left₀ 2 Q.hX.le
    rw [P.hX2, Q.hX2]
    nlinarith
  have hAX : A < X := by
    apply lt_of_pow_lt_pow_left₀ 2 P.hX.le
    rw [P.hX2]
    nlinarith
  -- components across and along the second face
  obtain ⟨B, hB⟩ : ∃ B, B = √3 / 2 * a + z / 2 := ⟨_, rfl⟩
  obtain ⟨T, hT⟩ : ∃ T, T = a / 2 - √3 / 2 * z := ⟨_, rfl⟩
  obtain ⟨B1, hB1⟩ : ∃ B, B = √3 / 2 * a'' + z'' / 2 := ⟨_, rfl⟩
  obtain ⟨T1, hT1⟩ : ∃ T, T = a'' / 2 - √3 / 2 * z'' := ⟨_, rfl⟩
  obtain ⟨B2, hB2⟩ : ∃ B, B = √3 / 2 * b'' + c'' / 2 := ⟨_, rfl⟩
  obtain ⟨T2, hT2⟩ : ∃ T, T = b'' / 2 - √3 / 2 * c'' := ⟨_, rfl⟩
  have r0 : B ^ 2 + T ^ 2 = 1 - y ^ 2 := by rw [hB, hT]; linear_combination hu + (a ^ 2 / 4 + z ^ 2 / 4) * k2
  have r1 : B1 ^ 2 + T1 ^ 2 = 1 - y ^ 2 := by
    have h := P.unit
    rw [P.vy] at h
    rw [hB1, hT1]; linear_combination h + (a'' ^ 2 / 4 + z'' ^ 2 / 4) * k2
  have r2 : B2 ^ 2 + T2 ^ 2 = 1 - y ^ 2 := by
    have h := Q.unit
    rw [Q.vy] at h
    rw [hB2, hT2]; linear_combination h + (b'' ^ 2 / 4 + c'' ^ 2 / 4) * k2
  have eT : T = -q / 2 + √3 / 2 * A := by rw [hT, hA, P.hp]; linear_combination (-a / 4) * k2
  have eB : B = √3 / 2 * q + A / 2 := by rw [hB, hA, P.hp]; linear_combination (-z / 4) * k2
  have e1 : T1 = -q / 2 + √3 / 2 * X := hT1.trans P.vt
  have e2 : T2 = -q / 2 + √3 / 2 * Y := hT2.trans Q.vt
  have t01 : T < T1 := by rw [eT, e1]; nlinarith
  have t12 : T1 < T2 := by rw [e1, e2]; nlinarith
  have b1 : 0 < B1 := by rw [hB1]; exact P.vm
  have b2 : 0 < B2 := by rw [hB2]; exact Q.vm
  have hB0 : 0 ≤ B := by
    by_contra hc
    rw [not_le, eB] at hc
    have hw : 0 < √3 / 2 * q + X / 2 := by
      have h := mul_pos (by linarith : 0 < n) P.wm
      have e : n * (√3 / 2 * a' + z' / 2) = √3 / 2 * q + X / 2 := by
        linear_combination (√3 / 2) * P.wa + (1 / 2) * P.wz + (X / 4) * k2
      rwa [e] at h
    have hq : √3 * q < -A := by linarith
    have h3 : A ^ 2 < 3 * q ^ 2 := by
      have : A ^ 2 < (-(√3 * q)) ^ 2 := by
        apply pow_lt_pow_left₀ (by linarith) hA0 two_ne_zero
      have e : (-(√3 * q)) ^ 2 = 3 * q ^ 2 := by linear_combination q ^ 2 * k2
      rwa [e] at this
    have hT2q : -(2 * q) < T1 := by
      rw [e1]
      have : 0 < √3 * (√3 / 2 * q + X / 2) := by positivity
      nlinarith
    have hq0 : q < 0 := by
      by_contra h0
      have := mul_nonneg k0.le (not_lt.1 h0)
      linarith
    have : (-(2 * q)) ^ 2 < T1 ^ 2 := pow_lt_pow_left₀ hT2q (by linarith) two_ne_zero
    linarith [sq_nonneg B1]
  have c12 := turned_more b1.le b2 r1 r2 t12
  have c01 := turned_more hB0 b1 r0 r1 t01
  have c02 := turned_more hB0 b2 r0 r2 (t01.trans t12)
  refine ⟨rfl, hXY, ?_, ?_⟩
  · have e : B1 * T2 - T1 * B2 = z'' * b'' - a'' * c'' := by
      rw [hB1, hT1, hB2, hT2]; linear_combination (z'' * b'' - a'' * c'') / 4 * k2
    rwa [← e]
  · have h : B * B2 + T * T2 < B * B1 + T * T1 := by
      have e : (B1 + B2) * (B * B1 + T * T1 - (B * B2 + T * T2)) = (T2 - T1) * ((B * T1 - T * B1) + (B * T2 - T * B2)) := by
        linear_combination B * (r1 - r2)
      have : 0 < (B1 + B2) * (B * B1 + T * T1 - (B * B2 + T * T2)) := by
        rw [e]; exact mul_pos (by linarith) (by linarith)
      have := pos_of_mul_pos_right this (by linarith)
      linarith
    have f1 : B * B1 + T * T1 = a * a'' + z * z'' := by
      rw [hB, hT, hB1, hT1]; linear_combination (a * a'' + z * z'') / 4 * k2
    have f2 : B * B2 + T * T2 = a * b'' + z * c'' := by
      rw [hB, hT, hB2, hT2]; linear_combination (a * b'' + z * c'') / 4 * k2
    rw [f1, f2] at h
    rw [P.vy, Q.vy]
    linarith

/-- Beyond the prism the colour with the larger index stays below the other, if the ray comes from below the normal of the first face. `L`, `M` are the lengths inside the glass,
`s`, `t` those outside; (x, ζ) is where the ray goes in. -/
theorem pass_below {n m a y z a' y' z' a'' y'' z'' b' v' c' b'' v'' c'' p X q Y : ℝ} (hn : 1 < n) (hnm : n < m) (hu : a ^ 2 + y ^ 2 + z ^ 2 = 1)
    (hin : a * (-(√3 / 2)) + z * (1 / 2) ≤ 0) (P : Pass n a y z a' y' z' a'' y'' z'' p X) (Q : Pass m a y z b' v' c' b'' v'' c'' q Y)
    (hp : 0 ≤ p) {x ζ L M s t h : ℝ} (hL : 0 < L) (hM : 0 < M) (ht : 0 < t)
    (f1 : ζ + L * z' = h - √3 * (x + L * a')) (f2 : ζ + M * c' = h - √3 * (x + M * b')) (ha : 0 < a'')
    (he : x + L * a' + s * a'' = x + M * b' + t * b'') : ζ + M * c' + t * c'' < ζ + L * z' + s * z'' := by
  obtain ⟨k2, k0⟩ := sqrt_three
  obtain ⟨rfl, hXY, hcr, -⟩ := pass_compare hn hnm hu hin P Q
  have n0 : 0 < n := by linarith
  have m0 : 0 < m := by linarith
  obtain ⟨l, hl⟩ : ∃ l, l = L / n := ⟨_, rfl⟩
  obtain ⟨k, hk⟩ : ∃ k, k = M / m := ⟨_, rfl⟩
  have l0 : 0 < l := by rw [hl]; positivity
  have kk0 : 0 < k := by rw [hk]; positivity
  have eL : L = l * n := by rw [hl]; field_simp
  have eM : M = k * m := by rw [hk]; field_simp
  have wa : L * a' = l * (q / 2 + √3 / 2 * X) := by rw [eL, mul_assoc, P.wa]
  have wz : L * z' = l * (√3 / 2 * q - X / 2) := by rw [eL, mul_assoc, P.wz]
  have wb : M * b' = k * (q / 2 + √3 / 2 * Y) := by rw [eM, mul_assoc, Q.wa]
  have wc : M * c' = k * (√3 / 2 * q - Y / 2) := by rw [eM, mul_assoc, Q.wz]
  rw [wa, wz] at f1
  rw [wb, wc] at f2
  rw [wa, wb] at he
  rw [wz, wc]
  obtain ⟨D, hD⟩ : ∃ D, D = √3 / 2 * q + X / 2 := ⟨_, rfl⟩
  obtain ⟨E, hE⟩ : ∃ E, E = √3 / 2 * q + Y / 2 := ⟨_, rfl⟩
  have D0 : 0 < D := by rw [hD]; have := P.hX; positivity
  have E0 : 0 < E := by rw [hE]; have := Q.hX; positivity
  have hDE : l * D = k * E := by
    have : 2 * (l * D) = 2 * (k * E) := by
      rw [hD, hE]; linear_combination f1 - f2 - (l * X / 2 - k * Y / 2) * k2
    linarith
  -- the second colour leaves further down the face
  obtain ⟨e1, he1⟩ : ∃ e, e = l * (-q / 2 + √3 / 2 * X) := ⟨_, rfl⟩
  obtain ⟨e2, he2⟩ : ∃ e, e = k * (-q / 2 + √3 / 2 * Y) := ⟨_, rfl⟩
  have h12 : e1 ≤ e2 := by
    have e : D * E * (e2 - e1) = l * D * (q * (Y - X)) := by
      rw [he1, he2]
      have g : D * E * (k * (-q / 2 + √3 / 2 * Y) - l * (-q / 2 + √3 / 2 * X)) = l * D * (D * (-q / 2 + √3 / 2 * Y) - E * (-q / 2 + √3 / 2 * X)) := by
        linear_combination (-D * (-q / 2 + √3 / 2 * Y)) * hDE
      rw [g, hD, hE]
      linear_combination l * (√3 / 2 * q + X / 2) * (q * (Y - X) / 4) * k2
    have h0 : 0 ≤ D * E * (e2 - e1) := by
      rw [e]; exact mul_nonneg (by positivity) (mul_nonneg hp (by linarith))
    have := nonneg_of_mul_nonneg_right h0 (by positivity)
    linarith
  have xa : l * (q / 2 + √3 / 2 * X) = √3 / 2 * (l * D) + e1 / 2 := by
    rw [hD, he1]; linear_combination (-l * q / 4) * k2
  have xb : k * (q / 2 + √3 / 2 * Y) = √3 / 2 * (l * D) + e2 / 2 := by
    rw [hDE, hE, he2]; linear_combination (-k * q / 4) * k2
  have za : l * (√3 / 2 * q - X / 2) = l * D / 2 - √3 / 2 * e1 := by
    rw [hD, he1]; linear_combination (l * X / 4) * k2
  have zb : k * (√3 / 2 * q - Y / 2) = l * D / 2 - √3 / 2 * e2 := by
    rw [hDE, hE, he2]; linear_combination (k * Y / 4) * k2
  rw [xa, xb] at he
  rw [za, zb]
  have hs : s * a'' = (e2 - e1) / 2 + t * b'' := by linarith
  have hup : 0 < z'' + √3 * a'' := by have := P.vm; linarith
  have hgo : 0 < a'' * (s * z'' - t * c'' + √3 / 2 * (e2 - e1)) := by
    have e : a'' * (s * z'' - t * c'' + √3 / 2 * (e2 - e1)) = (e2 - e1) / 2 * (z'' + √3 * a'') + t * (z'' * b'' - a'' * c'') := by
      linear_combination z'' * hs
    rw [e]
    exact add_pos_of_nonneg_of_pos (mul_nonneg (by linarith) hup.le) (mul_pos ht hcr)
  have := pos_of_mul_pos_right hgo ha.le
  linarith

end PyRayT
