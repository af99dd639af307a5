import Verif.Proofs.Rounding

/-!
# Rounding errors of the hits of spheres
-/

namespace PyRayT

open Classical

variable {u : ℝ}

/-- the scalar product of the first three components -/
def dot3 (v w : Vec4) : ℝ := v 0 * w 0 + v 1 * w 1 + v 2 * w 2

theorem dot3_self_nonneg (v : Vec4) : 0 ≤ dot3 v v := by
  simp only [dot3]; nlinarith [mul_self_nonneg (v 0), mul_self_nonneg (v 1), mul_self_nonneg (v 2)]

theorem dot3_sq_le (v w : Vec4) : dot3 v w ^ 2 ≤ dot3 v v * dot3 w w := by
  simp only [dot3]
  nlinarith [sq_nonneg (v 0 * w 1 - v 1 * w 0), sq_nonneg (v 0 * w 2 - v 2 * w 0), sq_nonneg (v 1 * w 2 - v 2 * w 1)]

theorem abs3_sq_le (v w : Vec4) : (|v 0 * w 0| + |v 1 * w 1| + |v 2 * w 2|) ^ 2 ≤ dot3 v v * dot3 w w := by
  have h := dot3_sq_le (fun i => |v i|) (fun i => |w i|)
  simpa only [dot3, ← abs_mul, abs_mul_self] using h

theorem sums3_err (hu : 0 ≤ u) (hu6 : u ≤ 1e-6) {v w : Vec4} {s B k : ℝ} (h : SumsTo u [(v 0, w 0), (v 1, w 1), (v 2, w 2)] s) (hB0 : 0 ≤ B)
    (hB : dot3 v v * dot3 w w ≤ B ^ 2) (hk : 3.00001 * (B + 3e-6) ≤ k) : |s - dot3 v w| ≤ k * u := by
  have h1 := h.err hu
  have h2 : sumProd [(v 0, w 0), (v 1, w 1), (v 2, w 2)] = dot3 v w := by simp [sumProd, dot3]; ring
  have h3 : sumAbs [(v 0, w 0), (v 1, w 1), (v 2, w 2)] ≤ B := by
    have e : sumAbs [(v 0, w 0), (v 1, w 1), (v 2, w 2)] = |v 0 * w 0| + |v 1 * w 1| + |v 2 * w 2| := by
      simp only [sumAbs, List.map_cons, List.map_nil, List.sum_cons, List.sum_nil]; ring
    rw [e]
    exact (abs_le_of_sq_le_sq' ((abs3_sq_le v w).trans hB) hB0).2
  rw [h2] at h1
  simp only [List.length_cons, List.length_nil] at h1
  norm_num at hu6
  have h4 : (1 + u) ^ (0 + 1 + 1 + 1) - 1 ≤ 3.00001 * u := by
    norm_num
    nlinarith [mul_nonneg hu hu, mul_nonneg hu (mul_nonneg hu hu)]
  have h5 : 0 ≤ sumAbs [(v 0, w 0), (v 1, w 1), (v 2, w 2)] := sumAbs_nonneg _
  refine h1.trans ((mul_le_mul h4 (b := _) (d := B + 3e-6) ?_ (by positivity) (by positivity)).trans ?_)
  · norm_num; linarith
  · nlinarith

/-- roundings of numbers that are not tiny keep the sign -/
theorem Rounds.pos (hu : 0 ≤ u) (hu6 : u ≤ 1e-6) {x y : ℝ} (h : Rounds u x y) (hx : 0 < x) (hx2 : 2 * u ≤ x) : 0.9999 * x ≤ y ∧ 0 < y := by
  have h1 := (abs_le.1 (h.le hu)).1
  rw [abs_of_pos hx] at h1
  have h2 : u * x ≤ 1e-6 * x := mul_le_mul_of_nonneg_right hu6 hx.le
  have h3 : u * u ≤ 1e-6 * x := mul_le_mul hu6 (by linarith) hu (by norm_num)
  norm_num at *
  exact ⟨by linarith, by linarith⟩

theorem Rounds.neg {x y : ℝ} (h : Rounds u x y) : Rounds u (-x) (-y) := by
  rw [Rounds, abs_neg, show -y - -x = -(y - x) by ring, abs_neg]; exact h

theorem Rounds.scale {x y m : ℝ} (hu : 0 ≤ u) (hm : 0 ≤ m) (hm1 : m ≤ 1) (h : Rounds u x y) : Rounds u (m * x) (m * y) := by
  rw [Rounds, ← mul_sub, abs_mul, abs_mul, abs_of_nonneg hm]
  refine (mul_le_mul_of_nonneg_left h hm).trans ?_
  rw [show m * (u * max |x| u) = u * (m * max |x| u) by ring, mul_max_of_nonneg _ _ hm]
  exact mul_le_mul_of_nonneg_left (max_le_max le_rfl (by nlinarith)) hu

theorem SumsTo.scale (hu : 0 ≤ u) {l : List (ℝ × ℝ)} {s m n : ℝ} (hm : 0 ≤ m * n) (hm1 : m * n ≤ 1) (h : SumsTo u l s) :
    SumsTo u (l.map fun p => (m * p.1, n * p.2)) (m * n * s) := by
  induction h with
  | @prod x y p h =>
    refine .prod ?_
    have := h.scale hu hm hm1
    rwa [show m * n * (x * y) = m * x * (n * y) by ring] at this
  | @fma l x y a s _ h ih =>
    refine .fma ih ?_
    have := h.scale hu hm hm1
    rwa [show m * n * (a + x * y) = m * n * a + m * x * (n * y) by ring] at this
  | @add l l' a b s _ _ h ih ih' =>
    rw [List.map_append]
    refine .add ih ih' ?_
    have := h.scale hu hm hm1
    rwa [mul_add] at this
  | perm hp _ ih => exact .perm (hp.map _) ih

/-- Measured in a larger unit of length, the rounded computation is a rounded computation. -/
noncomputable def SphereR.scale (hu : 0 ≤ u) {radius m : ℝ} {ray : Ray} {hits : EReal × EReal} (hm : 0 < m) (hm1 : m ≤ 1) (h : SphereR u radius ray hits) :
    SphereR u (m * radius) ⟨m • ray.o, ray.d⟩ (if m ^ 2 * h.disc ≥ 0 then (((m * h.t0 : ℝ) : EReal), ((m * h.t1 : ℝ) : EReal)) else (⊤, ⊤)) where
  a := h.a
  ha := h.ha
  bd := m * h.bd
  b := m * h.b
  hbd := by simpa using h.hbd.scale hu (m := 1) (n := m) (by simpa using hm.le) (by simpa using hm1)
  hb := by have := h.hb.scale hu hm.le hm1; rwa [mul_left_comm] at this
  oo := m ^ 2 * h.oo
  r2 := m ^ 2 * h.r2
  c := m ^ 2 * h.c
  hoo := by simpa [sq] using h.hoo.scale hu (m := m) (n := m) (by positivity) (by nlinarith)
  hr2 := by have := h.hr2.scale hu (m := m ^ 2) (by positivity) (by nlinarith); rwa [← mul_pow] at this
  hc := by have := h.hc.scale hu (m := m ^ 2) (by positivity) (by nlinarith); rwa [mul_sub] at this
  bb := m ^ 2 * h.bb
  a4 := h.a4
  ac := m ^ 2 * h.ac
  disc := m ^ 2 * h.disc
  hbb := by
    have := h.hbb.scale hu (m := m ^ 2) (by positivity) (by nlinarith)
    rwa [show m ^ 2 * (h.b * h.b) = m * h.b * (m * h.b) by ring] at this
  ha4 := h.ha4
  hac := by
    have := h.hac.scale hu (m := m ^ 2) (by positivity) (by nlinarith)
    rwa [mul_left_comm] at this
  hdisc := by have := h.hdisc.scale hu (m := m ^ 2) (by positivity) (by nlinarith); rwa [mul_sub] at this
  root := m * h.root
  hroot := by
    have := h.hroot.scale hu hm.le hm1
    have e : m * √(max 0 h.disc) = √(max 0 (m ^ 2 * h.disc)) := by
      rw [show max 0 (m ^ 2 * h.disc) = m ^ 2 * max 0 h.disc by rw [mul_max_of_nonneg _ _ (by positivity), mul_zero], Real.sqrt_mul (by positivity), Real.sqrt_sq hm.le]
    rwa [e] at this
  num0 := m * h.num0
  num1 := m * h.num1
  den := h.den
  t0 := m * h.t0
  t1 := m * h.t1
  hnum0 := by have := h.hnum0.scale hu hm.le hm1; rwa [mul_add, mul_neg] at this
  hnum1 := by have := h.hnum1.scale hu hm.le hm1; rwa [mul_sub, mul_neg] at this
  hden := h.hden
  ht0 := by have := h.ht0.scale hu hm.le hm1; rwa [← mul_div_assoc] at this
  ht1 := by have := h.ht1.scale hu hm.le hm1; rwa [← mul_div_assoc] at this
  hhits := rfl

/-- what the unit of length has to be -/
structure SphereSmall (R : ℝ) (ray : Ray) : Prop where
  ho : dot3 ray.o ray.o ≤ 1
  hR : |R| ≤ 1
  hd : |dot3 ray.d ray.d - 1| ≤ 0.001

/-- the errors of the coefficients and of the discriminant -/
theorem SphereR.coeffs (hu : 0 ≤ u) (hu6 : u ≤ 1e-6) {R : ℝ} {ray : Ray} {hits : EReal × EReal} (h : SphereR u R ray hits) (hs : SphereSmall R ray) :
    |h.a - dot3 ray.d ray.d| ≤ 3.01 * u ∧ |h.b - 2 * dot3 ray.d ray.o| ≤ 8.03 * u ∧ |h.c - (dot3 ray.o ray.o - R ^ 2)| ≤ 5.03 * u ∧
    |h.disc - (h.b ^ 2 - 4 * h.a * h.c)| ≤ 20.2 * u ∧ |h.a - 1| ≤ 0.0011 ∧ |h.b| ≤ 2.003 ∧ |h.c| ≤ 1.0001 ∧ |dot3 ray.d ray.o| ≤ 1.001 := by
  obtain ⟨ho, hR, hd⟩ := hs
  have ho0 := dot3_self_nonneg ray.o
  have hd0 := dot3_self_nonneg ray.d
  have hd1 := abs_le.1 hd
  have hR2 : R ^ 2 ≤ 1 := by rw [← sq_abs]; nlinarith [abs_nonneg R]
  have hbd0 : |dot3 ray.d ray.o| ≤ 1.001 := by
    refine abs_le_of_sq_le_sq ((dot3_sq_le _ _).trans ?_) (by norm_num)
    norm_num at hd1 ⊢; nlinarith
  have e1 := sums3_err hu hu6 (B := 1.001) (k := 3.01) h.ha (by norm_num) (by norm_num at hd1 ⊢; nlinarith) (by norm_num)
  have e2 := sums3_err hu hu6 (B := 1.001) (k := 3.01) h.hbd (by norm_num) (by norm_num at hd1 ⊢; nlinarith) (by norm_num)
  have e3 := sums3_err hu hu6 (B := 1) (k := 3.01) h.hoo (by norm_num) (by nlinarith) (by norm_num)
  have e4 : |h.b - 2 * dot3 ray.d ray.o| ≤ 8.03 * u := by
    refine h.hb.err hu hu6 (x0 := 2 * dot3 ray.d ray.o) (k := 6.02) (B := 2.002) ?_ ?_ (by norm_num) (by norm_num)
    · rw [← mul_sub, abs_mul, abs_of_pos (by norm_num)]; linarith
    · rw [abs_mul, abs_of_pos (by norm_num)]; linarith
  have e5 : |h.r2 - R ^ 2| ≤ 1.01 * u := h.hr2.err hu hu6 (self_err _) (B := 1) (by rw [abs_of_nonneg (sq_nonneg R)]; exact hR2) le_rfl (by norm_num)
  have hc0 : |dot3 ray.o ray.o - R ^ 2| ≤ 1 := abs_le.2 ⟨by nlinarith, by nlinarith [sq_nonneg R]⟩
  have e6 : |h.c - (dot3 ray.o ray.o - R ^ 2)| ≤ 5.03 * u := h.hc.err hu hu6 (sub_err e3 e5) (B := 1) hc0 (by norm_num) (by norm_num)
  have ba : |h.a - 1| ≤ 0.0011 := by
    have := abs_sub_le h.a (dot3 ray.d ray.d) 1
    norm_num at *; linarith
  have bb : |h.b| ≤ 2.003 := by
    have := abs_add_le (h.b - 2 * dot3 ray.d ray.o) (2 * dot3 ray.d ray.o)
    rw [sub_add_cancel, abs_mul, abs_of_pos (a := (2 : ℝ)) (by norm_num)] at this
    norm_num at hu6; linarith
  have bc : |h.c| ≤ 1.0001 := by
    have := abs_add_le (h.c - (dot3 ray.o ray.o - R ^ 2)) (dot3 ray.o ray.o - R ^ 2)
    rw [sub_add_cancel] at this
    norm_num at hu6; linarith
  refine ⟨e1, e4, e6, ?_, ba, bb, bc, hbd0⟩
  have bbb : |h.b * h.b| ≤ 4.0121 := by
    rw [abs_mul]
    exact (mul_le_mul bb bb (abs_nonneg _) (by norm_num)).trans (by norm_num)
  have e7 : |h.bb - h.b * h.b| ≤ 4.014 * u := h.hbb.err hu hu6 (self_err _) (B := 4.0121) bbb le_rfl (by norm_num)
  have b4a : |4 * h.a| ≤ 4.0044 := by
    have := abs_le.1 ba
    exact abs_le.2 ⟨by linarith, by linarith⟩
  have e8 : |h.a4 - 4 * h.a| ≤ 4.006 * u := h.ha4.err hu hu6 (self_err _) (B := 4.0044) b4a le_rfl (by norm_num)
  have b4ac : |4 * h.a * h.c| ≤ 4.0049 := by
    rw [abs_mul]
    exact (mul_le_mul b4a bc (abs_nonneg _) (by norm_num)).trans (by norm_num)
  have e9 : |h.ac - 4 * h.a * h.c| ≤ 8.02 * u :=
    h.hac.err hu hu6 (mul_err hu hu6 e8 (self_err h.c) b4a bc (by norm_num) le_rfl (m := 4.0065) (by norm_num)) (B := 4.0049) b4ac (by norm_num) (by norm_num)
  have e10 := h.hdisc.err hu hu6 (sub_err e7 e9) (B := 8.017) (k' := 20.2) ?_ (by norm_num) (by norm_num)
  · rwa [sq]
  · have := abs_sub (h.b * h.b) (4 * h.a * h.c)
    linarith

theorem SphereR.root_sq (hu : 0 ≤ u) (hu6 : u ≤ 1e-6) {R : ℝ} {ray : Ray} {hits : EReal × EReal} (h : SphereR u R ray hits) (hs : SphereSmall R ray) (hdisc : 0 ≤ h.disc) :
    |h.root ^ 2 - (h.b ^ 2 - 4 * h.a * h.c)| ≤ 36.5 * u ∧ |h.root| ≤ 2.835 := by
  obtain ⟨-, -, -, e, ba, bb, bc, -⟩ := h.coeffs hu hu6 hs
  have hle : h.disc ≤ 8.0175 := by
    have h1 := (abs_le.1 e).2
    have h2 : h.b ^ 2 ≤ 4.0121 := by rw [← sq_abs]; nlinarith [abs_nonneg h.b]
    have h3 : -(4 * h.a * h.c) ≤ 4.0049 := by
      have h5 := abs_le.1 ba
      have h4 : |4 * h.a * h.c| ≤ 4.0049 := by
        rw [abs_mul]
        exact (mul_le_mul (abs_le.2 ⟨by linarith, by linarith⟩ : |4 * h.a| ≤ 4.0044) bc (abs_nonneg _) (by norm_num)).trans (by norm_num)
      linarith [(abs_le.1 h4).1]
    norm_num at hu6
    linarith
  have hr := h.hroot
  rw [max_eq_right hdisc] at hr
  set s := √h.disc with hsdef
  have hs0 : 0 ≤ s := Real.sqrt_nonneg _
  have hs2 : s ^ 2 = h.disc := Real.sq_sqrt hdisc
  have hsle : s ≤ 2.8316 := (abs_le_of_sq_le_sq' (by rw [hs2]; norm_num; linarith) (by norm_num)).2
  have hr1 := hr.le hu
  rw [abs_of_nonneg hs0] at hr1
  have hr2 : |h.root - s| ≤ 2.832 * u := hr1.trans (by norm_num at hu6; nlinarith)
  have hroot : |h.root| ≤ 2.835 := by
    have := abs_add_le (h.root - s) s
    rw [sub_add_cancel, abs_of_nonneg hs0] at this
    norm_num at hu6; linarith
  refine ⟨?_, hroot⟩
  have h1 : |h.root ^ 2 - s ^ 2| ≤ 16.1 * u := by
    rw [show h.root ^ 2 - s ^ 2 = (h.root - s) * (h.root + s) by ring, abs_mul]
    have := abs_add_le h.root s
    rw [abs_of_nonneg hs0] at this
    have h2 : |h.root + s| ≤ 5.6667 := by linarith
    exact (mul_le_mul hr2 h2 (abs_nonneg _) (by positivity)).trans (by linarith)
  rw [hs2] at h1
  have := abs_sub_le (h.root ^ 2) h.disc (h.b ^ 2 - 4 * h.a * h.c)
  linarith

/-- the residual of one of the two quotients -/
theorem hit_residual (hu : 0 ≤ u) (hu6 : u ≤ 1e-6) {a b c r a0 b0 c0 num den t : ℝ} (ha : |a - a0| ≤ 3.01 * u) (hb : |b - b0| ≤ 8.03 * u) (hc : |c - c0| ≤ 5.03 * u)
    (ba : |a - 1| ≤ 0.0011) (bb : |b| ≤ 2.003) (br : |r| ≤ 2.835) (hr : |r ^ 2 - (b ^ 2 - 4 * a * c)| ≤ 36.5 * u) (hnum : Rounds u (-b + r) num)
    (hden : Rounds u (2 * a) den) (ht : Rounds u (num / den) t) : |a0 * t ^ 2 + b0 * t + c0| ≤ 110 * u ∧ |t| ≤ 2.45 := by
  have ha1 := abs_le.1 ba
  norm_num at hu6
  have bx : |(-b + r)| ≤ 4.838 := by
    have := abs_add_le (-b) r
    rw [abs_neg] at this; linarith
  have e1 : |num - (-b + r)| ≤ 4.84 * u := hnum.err hu (by norm_num; exact hu6) (self_err _) (B := 4.838) bx le_rfl (by norm_num)
  have e2 : |den - 2 * a| ≤ 2.01 * u := hden.err hu (by norm_num; exact hu6) (self_err _) (B := 2.0022) (abs_le.2 ⟨by linarith, by linarith⟩) le_rfl (by norm_num)
  have hden1 : 1.997 ≤ den := by linarith [(abs_le.1 e2).1]
  set t' := (-b + r) / (2 * a) with ht'
  have ha0 : 0 < 2 * a := by linarith
  have ht'1 : |t'| ≤ 2.422 := by
    rw [ht', abs_div, abs_of_pos ha0, div_le_iff₀ ha0]; linarith
  have ht'2 : t' * (2 * a) = -b + r := by rw [ht', div_mul_cancel₀ _ ha0.ne']
  have e3 : |num / den - t'| ≤ 4.87 * u := by
    have : num / den - t' = (num - (-b + r) - t' * (den - 2 * a)) / den := by
      rw [← ht'2]; field_simp; ring
    rw [this, abs_div, abs_of_pos (a := den) (by linarith), div_le_iff₀ (by linarith)]
    have h1 := abs_sub (num - (-b + r)) (t' * (den - 2 * a))
    rw [abs_mul] at h1
    have h2 : |t'| * |den - 2 * a| ≤ 2.422 * (2.01 * u) := mul_le_mul ht'1 e2 (abs_nonneg _) (by norm_num)
    have h3 : 4.87 * u * 1.997 ≤ 4.87 * u * den := mul_le_mul_of_nonneg_left hden1 (by positivity)
    linarith
  have e4 : |t - t'| ≤ 7.3 * u := ht.err hu (by norm_num; exact hu6) e3 (B := 2.422) ht'1 (by norm_num) (by norm_num)
  have ht1 : |t| ≤ 2.4221 := by
    have := abs_add_le (t - t') t'
    rw [sub_add_cancel] at this; linarith
  refine ⟨?_, by linarith⟩
  have e5 : |a * t' ^ 2 + b * t' + c| ≤ 9.2 * u := by
    have h1 : (4 * a) * (a * t' ^ 2 + b * t' + c) = r ^ 2 - (b ^ 2 - 4 * a * c) := by
      have : r = t' * (2 * a) + b := by linarith
      rw [this]; ring
    have h2 : (4 * a) * |a * t' ^ 2 + b * t' + c| ≤ 36.5 * u := by
      rw [← abs_of_pos (a := 4 * a) (by linarith), ← abs_mul, h1]; exact hr
    have h3 : (3.9956 : ℝ) * |a * t' ^ 2 + b * t' + c| ≤ 4 * a * |a * t' ^ 2 + b * t' + c| := mul_le_mul_of_nonneg_right (by linarith) (abs_nonneg _)
    linarith
  have f1 : |(a0 - a) * t ^ 2| ≤ 17.66 * u := by
    rw [abs_mul, abs_sub_comm, abs_pow]
    have : |t| ^ 2 ≤ 5.867 := by nlinarith [abs_nonneg t]
    exact (mul_le_mul ha this (by positivity) (by positivity)).trans (by linarith)
  have f2 : |(b0 - b) * t| ≤ 19.45 * u := by
    rw [abs_mul, abs_sub_comm]
    exact (mul_le_mul hb ht1 (by positivity) (by positivity)).trans (by linarith)
  have f3 : |c0 - c| ≤ 5.03 * u := by rw [abs_sub_comm]; exact hc
  have f4 : |(t - t') * (a * (t + t') + b)| ≤ 50.1 * u := by
    rw [abs_mul]
    have h1 : |a * (t + t') + b| ≤ 6.86 := by
      have g1 := abs_add_le (a * (t + t')) b
      have g2 := abs_add_le t t'
      rw [abs_mul, abs_of_pos (a := a) (by linarith)] at g1
      have g3 : a * |t + t'| ≤ 1.0011 * 4.8441 := mul_le_mul (by linarith) (by linarith) (abs_nonneg _) (by norm_num)
      norm_num at g3; linarith
    exact (mul_le_mul e4 h1 (abs_nonneg _) (by positivity)).trans (by linarith)
  have e : a0 * t ^ 2 + b0 * t + c0 = (a0 - a) * t ^ 2 + (b0 - b) * t + (c0 - c) + (t - t') * (a * (t + t') + b) + (a * t' ^ 2 + b * t' + c) := by ring
  rw [abs_le] at *
  rw [e]
  constructor <;> linarith [f1.1, f1.2, f2.1, f2.2, f3.1, f3.2, f4.1, f4.2, e5.1, e5.2]

/-- both quotients, and the discriminant -/
theorem SphereR.small (hu : 0 ≤ u) (hu6 : u ≤ 1e-6) {R : ℝ} {ray : Ray} {hits : EReal × EReal} (h : SphereR u R ray hits) (hs : SphereSmall R ray) :
    |h.disc - ((2 * dot3 ray.d ray.o) ^ 2 - 4 * dot3 ray.d ray.d * (dot3 ray.o ray.o - R ^ 2))| ≤ 90 * u ∧
    (0 ≤ h.disc → ∀ t, t = h.t0 ∨ t = h.t1 →
      |dot3 ray.d ray.d * t ^ 2 + 2 * dot3 ray.d ray.o * t + (dot3 ray.o ray.o - R ^ 2)| ≤ 110 * u ∧ |t| ≤ 2.45) := by
  obtain ⟨ea, eb, ec, ed, ba, bb, bc, bd⟩ := h.coeffs hu hu6 hs
  constructor
  · have h1 : |h.b * h.b - (2 * dot3 ray.d ray.o) * (2 * dot3 ray.d ray.o)| ≤ 32.2 * u := by
      refine mul_err hu hu6 eb eb (X := 2.002) (Y := 2.002) ?_ ?_ (by norm_num) (by norm_num) (by norm_num) <;>
      · rw [abs_mul, abs_of_pos (a := (2 : ℝ)) (by norm_num)]; linarith
    have h2 : |h.a * h.c - dot3 ray.d ray.d * (dot3 ray.o ray.o - R ^ 2)| ≤ 8.1 * u := by
      refine mul_err hu hu6 ea ec (X := 1.001) (Y := 1) ?_ ?_ (by norm_num) (by norm_num) (by norm_num)
      · have := abs_le.1 hs.hd
        exact abs_le.2 ⟨by linarith, by linarith⟩
      · have hR2 : R ^ 2 ≤ 1 := by rw [← sq_abs]; nlinarith [abs_nonneg R, hs.hR]
        exact abs_le.2 ⟨by linarith [dot3_self_nonneg ray.o], by linarith [sq_nonneg R, hs.ho]⟩
    rw [abs_le] at *
    constructor <;> nlinarith [h1.1, h1.2, h2.1, h2.2, ed.1, ed.2]
  · intro hdisc t ht
    obtain ⟨hr, br⟩ := h.root_sq hu hu6 hs hdisc
    rcases ht with rfl | rfl
    · exact hit_residual hu hu6 ea eb ec ba bb br hr h.hnum0 h.hden h.ht0
    · exact hit_residual hu hu6 (r := -h.root) ea eb ec ba bb (by rwa [abs_neg]) (by rwa [neg_sq]) (by have := h.hnum1; rwa [sub_eq_add_neg] at this) h.hden h.ht1

/-- the sign of a quotient -/
theorem quot_pos (hu : 0 ≤ u) (hu6 : u ≤ 1e-6) {x num a den t : ℝ} (ba : |a - 1| ≤ 0.0011) (hx : 0 < x) (hx2 : 4.5 * u ≤ x) (hnum : Rounds u x num) (hden : Rounds u (2 * a) den)
    (ht : Rounds u (num / den) t) : 0 < t := by
  have ha1 := abs_le.1 ba
  have e2 : |den - 2 * a| ≤ 2.01 * u := hden.err hu hu6 (self_err _) (B := 2.0022) (abs_le.2 ⟨by linarith, by linarith⟩) le_rfl (by norm_num)
  have e3 := abs_le.1 e2
  have hd0 : 0 < den := by linarith
  have hd1 : den ≤ 2.1 := by linarith
  obtain ⟨n1, n2⟩ := hnum.pos hu hu6 hx (by linarith)
  refine (ht.pos hu hu6 (div_pos n2 hd0) ?_).2
  rw [le_div_iff₀ hd0]
  nlinarith

/-- From a point clearly inside there is one hit behind and one ahead. -/
theorem SphereR.inside (hu : 0 ≤ u) (hu6 : u ≤ 1e-6) {R : ℝ} {ray : Ray} {hits : EReal × EReal} (h : SphereR u R ray hits) (hs : SphereSmall R ray)
    (hin : dot3 ray.o ray.o - R ^ 2 < -(20 * u)) : 0 ≤ h.disc ∧ 0 < h.t0 ∧ h.t1 < 0 := by
  obtain ⟨ea, eb, ec, ed, ba, bb, bc, bd⟩ := h.coeffs hu hu6 hs
  have ha1 := abs_le.1 ba
  have hc1 : h.c < -(14.97 * u) := by linarith [(abs_le.1 ec).2]
  have hac : 59.8 * u < -(4 * h.a * h.c) := by nlinarith
  have hdisc : 0 < h.disc := by nlinarith [(abs_le.1 ed).1, sq_nonneg h.b]
  obtain ⟨hr, br⟩ := h.root_sq hu hu6 hs hdisc.le
  have hsq : h.b ^ 2 + 23.3 * u < h.root ^ 2 := by linarith [(abs_le.1 hr).1]
  have hroot0 : 0 < h.root := by
    have hr0 := h.hroot
    rw [max_eq_right hdisc.le] at hr0
    refine (hr0.pos hu hu6 (Real.sqrt_pos.2 hdisc) ?_).2
    refine Real.le_sqrt_of_sq_le ?_
    have := (abs_le.1 ed).1
    norm_num at hu6
    nlinarith [sq_nonneg h.b]
  have hlt : |h.b| < h.root := abs_lt_of_sq_lt_sq (by linarith) hroot0.le
  have hlt2 := abs_lt.1 hlt
  have br2 := abs_le.1 br
  have bb2 := abs_le.1 bb
  have hprod : 23.3 * u < (h.root - h.b) * (h.root + h.b) := by linarith
  refine ⟨hdisc.le, ?_, ?_⟩
  · refine quot_pos hu hu6 ba (by linarith : 0 < -h.b + h.root) ?_ h.hnum0 h.hden h.ht0
    nlinarith
  · have h1 := h.ht1.neg
    rw [← neg_div] at h1
    refine neg_pos.1 (quot_pos hu hu6 ba (by linarith : 0 < h.b + h.root) ?_ (by have := h.hnum1.neg; rwa [neg_sub, sub_neg_eq_add, add_comm] at this) h.hden h1)
    nlinarith

/-- From a point clearly outside, moving away, there is no hit ahead. -/
theorem SphereR.away (hu : 0 ≤ u) (hu6 : u ≤ 1e-6) {R : ℝ} {ray : Ray} {hits : EReal × EReal} (h : SphereR u R ray hits) (hs : SphereSmall R ray)
    (hout : 20 * u < dot3 ray.o ray.o - R ^ 2) (haway : 0 ≤ dot3 ray.d ray.o) (hdisc : 0 ≤ h.disc) : h.t0 < 0 ∧ h.t1 < 0 := by
  obtain ⟨ea, eb, ec, ed, ba, bb, bc, bd⟩ := h.coeffs hu hu6 hs
  have ha1 := abs_le.1 ba
  have hc1 : 14.97 * u < h.c := by linarith [(abs_le.1 ec).1]
  have hac : 59.8 * u < 4 * h.a * h.c := by nlinarith
  obtain ⟨hr, br⟩ := h.root_sq hu hu6 hs hdisc
  have hsq : h.root ^ 2 + 23.3 * u < h.b ^ 2 := by linarith [(abs_le.1 hr).2]
  have hb0 : 0 < h.b := by
    by_contra hn
    have h1 := (abs_le.1 eb).1
    norm_num at hu6
    nlinarith [sq_nonneg h.root]
  have hlt := abs_lt.1 (abs_lt_of_sq_lt_sq (by linarith : h.root ^ 2 < h.b ^ 2) hb0.le)
  have br2 := abs_le.1 br
  have bb2 := abs_le.1 bb
  have hprod : 23.3 * u < (h.b - h.root) * (h.b + h.root) := by linarith
  constructor
  · have h1 := h.ht0.neg
    rw [← neg_div] at h1
    refine neg_pos.1 (quot_pos hu hu6 ba (by linarith : 0 < h.b - h.root) ?_ (by have := h.hnum0.neg; rwa [neg_add, neg_neg, ← sub_eq_add_neg] at this) h.hden h1)
    nlinarith
  · have h1 := h.ht1.neg
    rw [← neg_div] at h1
    refine neg_pos.1 (quot_pos hu hu6 ba (by linarith : 0 < h.b + h.root) ?_ (by have := h.hnum1.neg; rwa [neg_sub, sub_neg_eq_add, add_comm] at this) h.hden h1)
    nlinarith

end PyRayT
