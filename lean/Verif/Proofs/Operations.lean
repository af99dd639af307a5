import Verif.Model.Operations
import Verif.Proofs.Primitives
import Mathlib.Tactic.LinearCombination

/-! Helper lemmas on dot products, reflection and refraction. -/

namespace PyRayT

open Classical

theorem dot4_comm (u v : Vec4) : dot4 u v = dot4 v u := by unfold dot4; ring

theorem dot4_neg_right (u v : Vec4) : dot4 u (-v) = -dot4 u v := by
  simp only [dot4, Pi.neg_apply]; ring

theorem dot4_neg_left (u v : Vec4) : dot4 (-u) v = -dot4 u v := by
  simp only [dot4, Pi.neg_apply]; ring

theorem dot4_lin_left (a b : ℝ) (u v w : Vec4) :
    dot4 (fun i => a * u i + b * v i) w = a * dot4 u w + b * dot4 v w := by
  simp only [dot4]; ring

theorem dot4_lin_right (a b : ℝ) (u v w : Vec4) :
    dot4 w (fun i => a * u i + b * v i) = a * dot4 w u + b * dot4 w v := by
  simp only [dot4]; ring

theorem norm4_eq (v : Vec4) : norm4 v = √(dot4 v v) := by
  unfold norm4 dot4; congr 1; ring

theorem dot4_self_nonneg (v : Vec4) : 0 ≤ dot4 v v := by
  unfold dot4
  nlinarith [mul_self_nonneg (v 0), mul_self_nonneg (v 1), mul_self_nonneg (v 2), mul_self_nonneg (v 3)]

theorem dot4_self_eq_zero {v : Vec4} : dot4 v v = 0 ↔ v = 0 := by
  constructor
  · intro h
    unfold dot4 at h
    have h0 := mul_self_nonneg (v 0)
    have h1 := mul_self_nonneg (v 1)
    have h2 := mul_self_nonneg (v 2)
    have h3 := mul_self_nonneg (v 3)
    have e0 : v 0 = 0 := mul_self_eq_zero.1 (by linarith)
    have e1 : v 1 = 0 := mul_self_eq_zero.1 (by linarith)
    have e2 : v 2 = 0 := mul_self_eq_zero.1 (by linarith)
    have e3 : v 3 = 0 := mul_self_eq_zero.1 (by linarith)
    funext i
    fin_cases i <;> assumption
  · rintro rfl; simp [dot4]

theorem dot4_self_pos {v : Vec4} (h : v ≠ 0) : 0 < dot4 v v :=
  lt_of_le_of_ne (dot4_self_nonneg v) (fun e => h (dot4_self_eq_zero.1 e.symm))

theorem norm4_pos {v : Vec4} (h : v ≠ 0) : 0 < norm4 v := by
  rw [norm4_eq]; exact Real.sqrt_pos.2 (dot4_self_pos h)

theorem norm4_sq (v : Vec4) : norm4 v ^ 2 = dot4 v v := by
  rw [norm4_eq, Real.sq_sqrt (dot4_self_nonneg v)]

theorem norm4_eq_one {v : Vec4} : norm4 v = 1 ↔ dot4 v v = 1 := by
  rw [norm4_eq, Real.sqrt_eq_one]

theorem dot4_normalize_self {v : Vec4} (h : v ≠ 0) : dot4 (normalize v) (normalize v) = 1 := by
  have hn := norm4_pos h
  have := norm4_sq v
  unfold normalize
  have e : dot4 (fun i => v i / norm4 v) (fun i => v i / norm4 v) = dot4 v v / norm4 v ^ 2 := by
    unfold dot4; field_simp
  rw [e, this, div_self (dot4_self_pos h).ne']

theorem normalize_of_unit {v : Vec4} (h : dot4 v v = 1) : normalize v = v := by
  unfold normalize
  rw [norm4_eq, h]; simp

theorem normalize_normalize {v : Vec4} (h : v ≠ 0) : normalize (normalize v) = normalize v :=
  normalize_of_unit (dot4_normalize_self h)

theorem unit_ne_zero {v : Vec4} (h : dot4 v v = 1) : v ≠ 0 := by
  rintro rfl; simp [dot4] at h

/-- Cauchy-Schwarz for unit vectors -/
theorem dot4_sq_le_one {u n : Vec4} (hu : dot4 u u = 1) (hn : dot4 n n = 1) : dot4 u n ^ 2 ≤ 1 := by
  have h := dot4_self_nonneg (fun i => 1 * u i + (-dot4 u n) * n i)
  rw [dot4_lin_left, dot4_lin_right, dot4_lin_right, hu, hn, dot4_comm n u] at h
  nlinarith

/-- the refracted or reflected vector before the last normalisation, in terms of the oriented normal
`m` (`u·m ≤ 0`) and the index ratio -/
noncomputable def refractRaw (u m : Vec4) (r : ℝ) : Vec4 :=
  let c := -dot4 u m
  let rad := 1 - r ^ 2 * (1 - c ^ 2)
  if rad > 0 then fun i => r * u i + (r * c - √rad) * m i else fun i => u i + 2 * c * m i

/-- the radicand, independent of the orientation of the normal -/
noncomputable def radicand (u n : Vec4) (r : ℝ) : ℝ := 1 - r ^ 2 * (1 - dot4 u n ^ 2)

/-- the normal oriented against the ray -/
noncomputable def facing (u n : Vec4) : Vec4 := if dot4 u n > 0 then -n else n

theorem facing_unit {u n : Vec4} (h : dot4 n n = 1) : dot4 (facing u n) (facing u n) = 1 := by
  unfold facing
  split
  · rw [dot4_neg_left, dot4_neg_right, neg_neg, h]
  · exact h

theorem dot_facing (u n : Vec4) : dot4 u (facing u n) = -|dot4 u n| := by
  unfold facing
  split
  · rename_i h; rw [dot4_neg_right, abs_of_pos h]
  · rename_i h; rw [abs_of_nonpos (not_lt.1 h), neg_neg]

theorem refractRaw_unit {u m : Vec4} (hu : dot4 u u = 1) (hm : dot4 m m = 1) (r : ℝ) :
    dot4 (refractRaw u m r) (refractRaw u m r) = 1 := by
  unfold refractRaw
  simp only
  split
  · rename_i h
    have hs := Real.sq_sqrt h.le
    rw [dot4_lin_left, dot4_lin_right, dot4_lin_right, hu, hm, dot4_comm m u]
    set s := √(1 - r ^ 2 * (1 - (-dot4 u m) ^ 2)) with hsdef
    linear_combination hs
  · have e : (fun i => u i + 2 * (-dot4 u m) * m i) = (fun i => 1 * u i + (2 * (-dot4 u m)) * m i) := by
      funext i; ring
    rw [e, dot4_lin_left, dot4_lin_right, dot4_lin_right, hu, hm, dot4_comm m u]
    ring

theorem refract_eq {v n : Vec4} (hv : v ≠ 0) (hn : dot4 n n = 1) (n1 n2 ng : ℝ) :
    let u := normalize v
    let r := n1 / refractIndex u n n2 ng
    refract v n n1 n2 ng =
      (u, refractRaw u (facing u n) r, if radicand u n r > 0 then refractIndex u n n2 ng else n1) := by
  intro u r
  have hu : dot4 u u = 1 := dot4_normalize_self hv
  have hunit := refractRaw_unit hu (facing_unit (u := u) hn) r
  have e1 : (if dot4 u n > 0 then dot4 u n else dot4 u (-n)) = -dot4 u (facing u n) := by
    rw [dot_facing, neg_neg, dot4_neg_right]
    split
    · rename_i h; rw [abs_of_pos h]
    · rename_i h; rw [abs_of_nonpos (not_lt.1 h)]
  have e2 : 1 - r ^ 2 * (1 - (-dot4 u (facing u n)) ^ 2) = radicand u n r := by
    unfold radicand; rw [dot_facing, neg_neg, sq_abs]
  unfold refract
  simp only
  rw [← normalize_of_unit hunit]
  change (u, normalize _, _) = _
  have e3 : (if dot4 (normalize v) n > 0 then dot4 (normalize v) n else dot4 (normalize v) (-n)) =
      -dot4 u (facing u n) := e1
  have e4 : n1 / refractIndex (normalize v) n n2 ng = r := rfl
  rw [e3, e4, e2]
  refine Prod.ext rfl (Prod.ext ?_ rfl)
  simp only
  congr 1
  unfold refractRaw
  simp only [e2]
  by_cases h : radicand u n r > 0
  · simp only [if_pos h, max_eq_right h.le]
    rfl
  · simp only [if_neg h]
    rfl

end PyRayT
