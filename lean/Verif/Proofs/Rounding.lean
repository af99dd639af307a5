import Verif.Model.Rounding
import Verif.Proofs.Operations
import Mathlib.Tactic.Positivity
import Mathlib.Tactic.NormNum

/-! Error bounds for rounded arithmetic. -/

namespace PyRayT

open Classical

variable {u : ℝ}

theorem Rounds.zero {x y : ℝ} : Rounds 0 x y ↔ y = x := by
  simp [Rounds, sub_eq_zero]

theorem Rounds.exact (hu : 0 ≤ u) (x : ℝ) : Rounds u x x := by
  simp only [Rounds, sub_self, abs_zero]
  exact mul_nonneg hu (le_max_of_le_left (abs_nonneg x))

theorem Rounds.le (hu : 0 ≤ u) {x y : ℝ} (h : Rounds u x y) : |y - x| ≤ u * (|x| + u) :=
  h.trans (mul_le_mul_of_nonneg_left (max_le (by linarith) (by linarith [abs_nonneg x])) hu)

/-- one more rounding -/
theorem Rounds.err (hu : 0 ≤ u) (hu6 : u ≤ 1e-6) {x y x0 k B k' : ℝ} (h : Rounds u x y) (hx : |x - x0| ≤ k * u) (hB : |x0| ≤ B) (hk : 0 ≤ k)
    (hk' : k + B + (k + 1) * 1e-6 ≤ k') : |y - x0| ≤ k' * u := by
  have h1 := h.le hu
  have h2 : |x| ≤ B + k * u := by
    have := abs_add_le (x - x0) x0
    rw [sub_add_cancel] at this
    linarith
  have h3 := abs_add_le (y - x) (x - x0)
  rw [sub_add_sub_cancel] at h3
  have h4 : u * (|x| + u) ≤ u * (B + k * u + u) := mul_le_mul_of_nonneg_left (by linarith) hu
  have h5 : (k + 1) * u ≤ (k + 1) * 1e-6 := mul_le_mul_of_nonneg_left hu6 (by linarith)
  nlinarith

/-- the error of a product -/
theorem mul_err (hu : 0 ≤ u) (hu6 : u ≤ 1e-6) {x y x0 y0 k l X Y m : ℝ} (hx : |x - x0| ≤ k * u) (hy : |y - y0| ≤ l * u) (hX : |x0| ≤ X) (hY : |y0| ≤ Y)
    (hk : 0 ≤ k) (hl : 0 ≤ l) (hm : X * l + Y * k + k * l * 1e-6 ≤ m) : |x * y - x0 * y0| ≤ m * u := by
  have e : x * y - x0 * y0 = x0 * (y - y0) + y0 * (x - x0) + (x - x0) * (y - y0) := by ring
  have h1 : |x0 * (y - y0)| ≤ X * (l * u) := by rw [abs_mul]; exact mul_le_mul hX hy (abs_nonneg _) ((abs_nonneg _).trans hX)
  have h2 : |y0 * (x - x0)| ≤ Y * (k * u) := by rw [abs_mul]; exact mul_le_mul hY hx (abs_nonneg _) ((abs_nonneg _).trans hY)
  have h3 : |(x - x0) * (y - y0)| ≤ (k * u) * (l * u) := by rw [abs_mul]; exact mul_le_mul hx hy (abs_nonneg _) (by positivity)
  have h4 := abs_add_three (x0 * (y - y0)) (y0 * (x - x0)) ((x - x0) * (y - y0))
  rw [e]
  have h5 : (k * u) * (l * u) ≤ k * l * 1e-6 * u := by
    have : k * l * u ≤ k * l * 1e-6 := mul_le_mul_of_nonneg_left hu6 (by positivity)
    nlinarith
  nlinarith

theorem add_err {x y x0 y0 k l : ℝ} (hx : |x - x0| ≤ k * u) (hy : |y - y0| ≤ l * u) : |x + y - (x0 + y0)| ≤ (k + l) * u := by
  have := abs_add_le (x - x0) (y - y0)
  rw [show x + y - (x0 + y0) = x - x0 + (y - y0) by ring]
  linarith

theorem sub_err {x y x0 y0 k l : ℝ} (hx : |x - x0| ≤ k * u) (hy : |y - y0| ≤ l * u) : |x - y - (x0 - y0)| ≤ (k + l) * u := by
  have := abs_sub (x - x0) (y - y0)
  rw [show x - y - (x0 - y0) = x - x0 - (y - y0) by ring]
  linarith

theorem self_err (x : ℝ) : |x - x| ≤ 0 * u := by simp

theorem err_trans {x y z k l : ℝ} (h1 : |x - y| ≤ k * u) (h2 : |y - z| ≤ l * u) : |x - z| ≤ (k + l) * u := by
  have := abs_sub_le x y z
  linarith

/-! ### Sums -/

/-- the exact sum -/
def sumProd (l : List (ℝ × ℝ)) : ℝ := (l.map fun p => p.1 * p.2).sum

/-- the sum of the absolute values -/
def sumAbs (l : List (ℝ × ℝ)) : ℝ := (l.map fun p => |p.1 * p.2|).sum

theorem abs_sumProd_le (l : List (ℝ × ℝ)) : |sumProd l| ≤ sumAbs l := by
  induction l with
  | nil => simp [sumProd, sumAbs]
  | cons a l ih =>
    simp only [sumProd, sumAbs, List.map_cons, List.sum_cons] at *
    exact (abs_add_le _ _).trans (by linarith)

theorem sumAbs_nonneg (l : List (ℝ × ℝ)) : 0 ≤ sumAbs l := (abs_nonneg _).trans (abs_sumProd_le l)

theorem SumsTo.ne_nil {l : List (ℝ × ℝ)} {s : ℝ} (h : SumsTo u l s) : 1 ≤ l.length := by
  induction h with
  | prod => simp
  | fma => simp
  | add _ _ _ h1 _ => simp; omega
  | perm hp _ ih => rw [← hp.length_eq]; exact ih

theorem SumsTo.err (hu : 0 ≤ u) {l : List (ℝ × ℝ)} {s : ℝ} (h : SumsTo u l s) :
    |s - sumProd l| ≤ ((1 + u) ^ l.length - 1) * (sumAbs l + l.length * u) := by
  have hpow : ∀ n : ℕ, 1 ≤ (1 + u) ^ n := fun n => one_le_pow₀ (by linarith)
  induction h with
  | prod h =>
    have := h.le hu
    simpa [sumProd, sumAbs] using this
  | @fma l x y a s h1 h2 ih =>
    have h3 := h2.le hu
    simp only [sumProd, sumAbs, List.map_cons, List.sum_cons, List.length_cons, Nat.cast_add, Nat.cast_one] at ih ⊢
    set P := (l.map fun p => p.1 * p.2).sum
    set S := (l.map fun p => |p.1 * p.2|).sum with hS
    have hP : |P| ≤ S := abs_sumProd_le l
    have hS0 : 0 ≤ S := sumAbs_nonneg l
    set E := (1 + u) ^ l.length with hE
    have hE1 : 1 ≤ E := hpow _
    set n : ℝ := (l.length : ℝ) with hn
    have hn0 : 0 ≤ n := Nat.cast_nonneg _
    have h4 : |a| ≤ S + (E - 1) * (S + n * u) := by
      have := abs_add_le (a - P) P
      rw [sub_add_cancel] at this
      linarith
    have h5 := abs_add_le a (x * y)
    have h6 : |s - (x * y + P)| ≤ |s - (a + x * y)| + |a - P| := by
      have := abs_add_le (s - (a + x * y)) (a - P)
      rwa [show s - (a + x * y) + (a - P) = s - (x * y + P) by ring] at this
    have h7 : u * (|a + x * y| + u) ≤ u * (S + (E - 1) * (S + n * u) + |x * y| + u) := mul_le_mul_of_nonneg_left (by linarith) hu
    have hxy := abs_nonneg (x * y)
    rw [pow_succ]
    have e : (E * (1 + u) - 1) * (|x * y| + S + (n + 1) * u) - ((E - 1) * (S + n * u) + u * (S + (E - 1) * (S + n * u) + |x * y| + u)) =
        (E - 1) * (1 + u) * (|x * y| + u) + u * (n * u) := by ring
    have : 0 ≤ (E - 1) * (1 + u) * (|x * y| + u) + u * (n * u) :=
      add_nonneg (mul_nonneg (mul_nonneg (by linarith) (by linarith)) (by linarith)) (by positivity)
    linarith
  | @add l l' a b s h1 h2 h3 ih1 ih2 =>
    have h4 := h3.le hu
    have n1 := h1.ne_nil
    have n2 := h2.ne_nil
    simp only [sumProd, sumAbs, List.map_append, List.sum_append, List.length_append, Nat.cast_add] at ih1 ih2 ⊢
    set P := (l.map fun p => p.1 * p.2).sum
    set S := (l.map fun p => |p.1 * p.2|).sum with hS
    set P' := (l'.map fun p => p.1 * p.2).sum
    set S' := (l'.map fun p => |p.1 * p.2|).sum with hS'
    have hP : |P| ≤ S := abs_sumProd_le l
    have hS0 : 0 ≤ S := sumAbs_nonneg l
    have hP' : |P'| ≤ S' := abs_sumProd_le l'
    have hS0' : 0 ≤ S' := sumAbs_nonneg l'
    obtain ⟨k, hk⟩ : ∃ k, l.length + l'.length = k + 1 := ⟨l.length + l'.length - 1, by omega⟩
    have hk1 : (1 + u) ^ l.length ≤ (1 + u) ^ k := pow_le_pow_right₀ (by linarith) (by omega)
    have hk2 : (1 + u) ^ l'.length ≤ (1 + u) ^ k := pow_le_pow_right₀ (by linarith) (by omega)
    rw [hk, pow_succ]
    set E := (1 + u) ^ k with hE
    have hE1 : 1 ≤ E := hpow _
    set n : ℝ := (l.length : ℝ) with hn
    have hn0 : 0 ≤ n := Nat.cast_nonneg _
    set m : ℝ := (l'.length : ℝ) with hm
    have hm0 : 1 ≤ m := by rw [hm]; exact_mod_cast n2
    have hn1 : 1 ≤ n := by rw [hn]; exact_mod_cast n1
    have i1 : |a - P| ≤ (E - 1) * (S + n * u) := ih1.trans (mul_le_mul_of_nonneg_right (by linarith) (by positivity))
    have i2 : |b - P'| ≤ (E - 1) * (S' + m * u) := ih2.trans (mul_le_mul_of_nonneg_right (by linarith) (by positivity))
    have ea : |a| ≤ S + (E - 1) * (S + n * u) := by
      have := abs_add_le (a - P) P
      rw [sub_add_cancel] at this
      linarith
    have eb : |b| ≤ S' + (E - 1) * (S' + m * u) := by
      have := abs_add_le (b - P') P'
      rw [sub_add_cancel] at this
      linarith
    have h5 := abs_add_le a b
    have h6 : |s - (P + P')| ≤ |s - (a + b)| + |a - P| + |b - P'| := by
      have := abs_add_three (s - (a + b)) (a - P) (b - P')
      rwa [show s - (a + b) + (a - P) + (b - P') = s - (P + P') by ring] at this
    have h7 : u * (|a + b| + u) ≤ u * (S + (E - 1) * (S + n * u) + (S' + (E - 1) * (S' + m * u)) + u) := mul_le_mul_of_nonneg_left (by linarith) hu
    have e : (E * (1 + u) - 1) * (S + S' + (n + m) * u) -
        ((E - 1) * (S + n * u) + (E - 1) * (S' + m * u) + u * (S + (E - 1) * (S + n * u) + (S' + (E - 1) * (S' + m * u)) + u)) = u * u * (n + m - 1) := by ring
    have : 0 ≤ u * u * (n + m - 1) := mul_nonneg (mul_nonneg hu hu) (by linarith)
    linarith
  | @perm l l' s hp _ ih =>
    have e1 : sumProd l = sumProd l' := (hp.map _).sum_eq
    have e2 : sumAbs l = sumAbs l' := (hp.map _).sum_eq
    rw [← e1, ← e2, ← hp.length_eq]
    exact ih

/-! ### Norms -/

theorem norm4_nonneg (v : Vec4) : 0 ≤ norm4 v := Real.sqrt_nonneg _

theorem norm4_abs (v : Vec4) : norm4 (fun i => |v i|) = norm4 v := by simp [norm4]

theorem abs_dot4_le (v w : Vec4) : |dot4 v w| ≤ norm4 v * norm4 w := by
  apply abs_le_of_sq_le_sq _ (mul_nonneg (norm4_nonneg _) (norm4_nonneg _))
  rw [mul_pow, norm4_sq, norm4_sq]
  simp only [dot4]
  nlinarith [sq_nonneg (v 0 * w 1 - v 1 * w 0), sq_nonneg (v 0 * w 2 - v 2 * w 0), sq_nonneg (v 0 * w 3 - v 3 * w 0), sq_nonneg (v 1 * w 2 - v 2 * w 1),
    sq_nonneg (v 1 * w 3 - v 3 * w 1), sq_nonneg (v 2 * w 3 - v 3 * w 2)]

theorem abs_le_norm4 (v : Vec4) (i : Fin 4) : |v i| ≤ norm4 v := by
  apply Real.le_sqrt_of_sq_le
  rw [sq_abs]
  fin_cases i <;> simp only [Fin.zero_eta, Fin.mk_one, Fin.reduceFinMk] <;>
    nlinarith [sq_nonneg (v 0), sq_nonneg (v 1), sq_nonneg (v 2), sq_nonneg (v 3)]

theorem norm4_le_two_mul {v : Vec4} {k : ℝ} (h : ∀ i, |v i| ≤ k) : norm4 v ≤ 2 * k := by
  have hk : 0 ≤ k := (abs_nonneg _).trans (h 0)
  refine Real.sqrt_le_iff.2 ⟨by linarith, ?_⟩
  have hs : ∀ i, v i ^ 2 ≤ k ^ 2 := fun i => sq_le_sq' (by linarith [(abs_le.1 (h i)).1]) (abs_le.1 (h i)).2
  nlinarith [hs 0, hs 1, hs 2, hs 3]

theorem norm4_add_le (v w : Vec4) : norm4 (v + w) ≤ norm4 v + norm4 w := by
  have h := (abs_le.1 (abs_dot4_le v w)).2
  refine Real.sqrt_le_iff.2 ⟨add_nonneg (norm4_nonneg _) (norm4_nonneg _), ?_⟩
  have e : (v + w) 0 ^ 2 + (v + w) 1 ^ 2 + (v + w) 2 ^ 2 + (v + w) 3 ^ 2 = dot4 v v + 2 * dot4 v w + dot4 w w := by
    simp only [dot4, Pi.add_apply]; ring
  rw [e, add_sq, norm4_sq, norm4_sq]
  linarith

theorem norm4_sub_comm (v w : Vec4) : norm4 (v - w) = norm4 (w - v) := by
  simp only [norm4, Pi.sub_apply]; congr 1; ring

theorem norm4_sub_le (v w x : Vec4) : norm4 (v - x) ≤ norm4 (v - w) + norm4 (w - x) := by
  have := norm4_add_le (v - w) (w - x)
  rwa [sub_add_sub_cancel] at this

theorem abs_norm4_sub_le (v w : Vec4) : |norm4 v - norm4 w| ≤ norm4 (v - w) := by
  rw [abs_le]
  have h1 := norm4_add_le (v - w) w
  have h2 := norm4_add_le (w - v) v
  rw [sub_add_cancel] at h1 h2
  rw [norm4_sub_comm w v] at h2
  constructor <;> linarith

theorem norm4_smul (k : ℝ) (v : Vec4) : norm4 (k • v) = |k| * norm4 v := by
  rw [norm4, norm4, ← Real.sqrt_sq_eq_abs, ← Real.sqrt_mul (sq_nonneg k)]
  congr 1
  simp only [Pi.smul_apply, smul_eq_mul]; ring

theorem pow_four_le (hu : 0 ≤ u) (hu6 : u ≤ 1e-6) : (1 + u) ^ 4 - 1 ≤ 4.00001 * u := by
  have h2 : u ^ 2 ≤ 1e-6 * u := by nlinarith
  have h3 : u ^ 3 ≤ 1e-6 * u := by nlinarith [mul_nonneg hu hu]
  have h4 : u ^ 4 ≤ 1e-12 * u := by nlinarith [mul_nonneg hu hu, mul_nonneg (mul_nonneg hu hu) hu]
  have e : (1 + u) ^ 4 - 1 = 4 * u + 6 * u ^ 2 + 4 * u ^ 3 + u ^ 4 := by ring
  rw [e]
  norm_num at h2 h3 h4 ⊢
  nlinarith

/-- the error of a rounded scalar product -/
theorem DotR.err (hu : 0 ≤ u) (hu6 : u ≤ 1e-6) {v w : Vec4} {s B k : ℝ} (h : DotR u v w s) (hB : norm4 v * norm4 w ≤ B) (hk : 4.00001 * (B + 4e-6) ≤ k) :
    |s - dot4 v w| ≤ k * u := by
  have h1 := SumsTo.err hu h
  have e1 : sumProd [(v 0, w 0), (v 1, w 1), (v 2, w 2), (v 3, w 3)] = dot4 v w := by simp [sumProd, dot4]; ring
  have e2 : sumAbs [(v 0, w 0), (v 1, w 1), (v 2, w 2), (v 3, w 3)] ≤ norm4 v * norm4 w := by
    have := abs_dot4_le (fun i => |v i|) (fun i => |w i|)
    rw [norm4_abs, norm4_abs] at this
    refine le_trans (le_of_eq ?_) ((le_abs_self _).trans this)
    simp [sumAbs, dot4, abs_mul]; ring
  have e3 := sumAbs_nonneg [(v 0, w 0), (v 1, w 1), (v 2, w 2), (v 3, w 3)]
  rw [e1] at h1
  simp only [List.length_cons, List.length_nil, zero_add, Nat.reduceAdd, Nat.cast_ofNat] at h1
  refine h1.trans ?_
  have h2 := pow_four_le hu hu6
  have h3 : (0 : ℝ) ≤ (1 + u) ^ 4 - 1 := by
    have : (1 : ℝ) ≤ (1 + u) ^ 4 := one_le_pow₀ (by linarith)
    linarith
  refine (mul_le_mul h2 (show _ ≤ B + 4e-6 by linarith) (by positivity) (by positivity)).trans ?_
  nlinarith

/-! ### Vectors -/

theorem norm4_le_of_le {v : Vec4} {a b : ℝ} {x : Vec4} (hu : 0 ≤ a) (hb : 0 ≤ b) (h : ∀ i, |v i| ≤ a * |x i| + b) : norm4 v ≤ a * norm4 x + 2 * b := by
  have h1 : norm4 v ≤ norm4 ((a • fun i => |x i|) + fun _ => b) := by
    apply Real.sqrt_le_sqrt
    have hs : ∀ i, v i ^ 2 ≤ (((a • fun i => |x i|) + fun _ => b : Vec4) i) ^ 2 := fun i => by
      rw [← sq_abs (v i)]
      exact pow_le_pow_left₀ (abs_nonneg _) (by simpa using h i) 2
    linarith [hs 0, hs 1, hs 2, hs 3]
  have h2 := norm4_add_le (a • fun i => |x i|) (fun _ => b)
  rw [norm4_smul, norm4_abs, abs_of_nonneg hu] at h2
  have h3 : norm4 (fun _ => b) ≤ 2 * b := norm4_le_two_mul fun _ => by rw [abs_of_nonneg hb]
  linarith

theorem rounds_vec (hu : 0 ≤ u) {x y : Vec4} (h : ∀ i, Rounds u (x i) (y i)) : norm4 (y - x) ≤ u * (norm4 x + 2 * u) := by
  have := norm4_le_of_le (v := y - x) (x := x) (a := u) (b := u * u) hu (mul_nonneg hu hu) fun i => by
    have := (h i).le hu
    simp only [Pi.sub_apply]
    linarith
  linarith

/-- one more rounding of a vector -/
theorem vec_err (hu : 0 ≤ u) (hu6 : u ≤ 1e-6) {x y x0 : Vec4} {k B k' : ℝ} (h : ∀ i, Rounds u (x i) (y i)) (hx : norm4 (x - x0) ≤ k * u) (hB : norm4 x0 ≤ B) (hk : 0 ≤ k)
    (hk' : k + B + (k + 2) * 1e-6 ≤ k') : norm4 (y - x0) ≤ k' * u := by
  have h1 := rounds_vec hu h
  have h2 : norm4 x ≤ B + k * u := by
    have := norm4_add_le (x - x0) x0
    rw [sub_add_cancel] at this
    linarith
  have h3 := norm4_sub_le y x x0
  have h4 : u * (norm4 x + 2 * u) ≤ u * (B + k * u + 2 * u) := mul_le_mul_of_nonneg_left (by linarith) hu
  have h5 : (k + 2) * u ≤ (k + 2) * 1e-6 := mul_le_mul_of_nonneg_left hu6 (by linarith)
  nlinarith

/-- the error of a multiple of a vector -/
theorem smul_err (hu : 0 ≤ u) (hu6 : u ≤ 1e-6) {x x0 : ℝ} {y y0 : Vec4} {k l X Y m : ℝ} (hx : |x - x0| ≤ k * u) (hy : norm4 (y - y0) ≤ l * u) (hX : |x0| ≤ X) (hY : norm4 y0 ≤ Y)
    (hk : 0 ≤ k) (hl : 0 ≤ l) (hm : X * l + Y * k + k * l * 1e-6 ≤ m) : norm4 (x • y - x0 • y0) ≤ m * u := by
  have e : x • y - x0 • y0 = x0 • (y - y0) + ((x - x0) • y0 + (x - x0) • (y - y0)) := by
    funext i; simp only [Pi.sub_apply, Pi.smul_apply, Pi.add_apply, smul_eq_mul]; ring
  have h1 : norm4 (x0 • (y - y0)) ≤ X * (l * u) := by rw [norm4_smul]; exact mul_le_mul hX hy (norm4_nonneg _) ((abs_nonneg _).trans hX)
  have h2 : norm4 ((x - x0) • y0) ≤ (k * u) * Y := by rw [norm4_smul]; exact mul_le_mul hx hY (norm4_nonneg _) (by positivity)
  have h3 : norm4 ((x - x0) • (y - y0)) ≤ (k * u) * (l * u) := by rw [norm4_smul]; exact mul_le_mul hx hy (norm4_nonneg _) (by positivity)
  have h4 := norm4_add_le (x0 • (y - y0)) ((x - x0) • y0 + (x - x0) • (y - y0))
  have h4' := norm4_add_le ((x - x0) • y0) ((x - x0) • (y - y0))
  rw [e]
  have h5 : (k * u) * (l * u) ≤ k * l * 1e-6 * u := by
    have : k * l * u ≤ k * l * 1e-6 := mul_le_mul_of_nonneg_left hu6 (by positivity)
    nlinarith
  nlinarith

theorem vadd_err {x y x0 y0 : Vec4} {k l : ℝ} (hx : norm4 (x - x0) ≤ k * u) (hy : norm4 (y - y0) ≤ l * u) : norm4 (x + y - (x0 + y0)) ≤ (k + l) * u := by
  have := norm4_add_le (x - x0) (y - y0)
  rw [show x + y - (x0 + y0) = x - x0 + (y - y0) by abel]
  linarith

theorem vsub_err {x y x0 y0 : Vec4} {k l : ℝ} (hx : norm4 (x - x0) ≤ k * u) (hy : norm4 (y - y0) ≤ l * u) : norm4 (x - y - (x0 - y0)) ≤ (k + l) * u := by
  have h := norm4_add_le (x - x0) (y0 - y)
  rw [norm4_sub_comm y0 y] at h
  rw [show x - y - (x0 - y0) = x - x0 + (y0 - y) by abel]
  linarith

theorem vself_err (x : Vec4) : norm4 (x - x) ≤ 0 * u := by simp [norm4]

theorem norm4_neg (v : Vec4) : norm4 (-v) = norm4 v := by simp [norm4]

theorem normalize_eq_smul (v : Vec4) : normalize v = (norm4 v)⁻¹ • v := by
  funext i; simp only [normalize, Pi.smul_apply, smul_eq_mul]; ring

/-- a rounded normalisation is the exact one up to a few units of roundoff -/
theorem NormalizeR.err (hu : 0 ≤ u) (hu6 : u ≤ 1e-6) {v w : Vec4} (h : NormalizeR u v w) (h1 : 1 / 2 ≤ norm4 v) (h2 : norm4 v ≤ 2) : norm4 (w - normalize v) ≤ 4.1 * u := by
  obtain ⟨s, m, hs, hm, hw⟩ := h
  set M := norm4 v with hM
  have hM0 : 0 < M := by linarith
  have e1 : |s - M ^ 2| ≤ 4.0001 * u * M ^ 2 := by
    have := SumsTo.err hu hs
    have e := hs.err hu hu6 (B := M ^ 2) (by rw [← hM, sq]) (le_refl _)
    rw [← norm4_sq, ← hM] at e
    have : (1 : ℝ) / 4 ≤ M ^ 2 := by nlinarith
    refine e.trans ?_
    have : 4.00001 * (M ^ 2 + 4e-6) ≤ 4.0001 * M ^ 2 := by norm_num; linarith
    nlinarith
  have hs1 : M ^ 2 * (1 - 4.0001e-6) ≤ s := by
    have := (abs_le.1 e1).1
    have hu' : 4.0001 * u * M ^ 2 ≤ 4.0001 * 1e-6 * M ^ 2 := mul_le_mul_of_nonneg_right (by linarith) (sq_nonneg M)
    norm_num at hu' this ⊢
    linarith
  have hs0 : 0 ≤ s := le_trans (mul_nonneg (sq_nonneg M) (by norm_num)) hs1
  have hq : M * (1 - 4.0001e-6) ≤ √s := by
    apply Real.le_sqrt_of_sq_le
    refine le_trans ?_ hs1
    rw [mul_pow]
    exact mul_le_mul_of_nonneg_left (by norm_num) (sq_nonneg M)
  have e2 : |√s - M| ≤ 2.0002 * u * M := by
    have e : (√s - M) * (√s + M) = s - M ^ 2 := by
      have := Real.sq_sqrt hs0
      linear_combination this
    have h3 : |√s - M| * (√s + M) ≤ 4.0001 * u * M ^ 2 := by
      rw [← e, abs_mul, abs_of_nonneg (a := √s + M) (by positivity)] at e1
      exact e1
    have h4 : 1.99999 * M ≤ √s + M := by
      norm_num at hq ⊢
      linarith
    have h5 : |√s - M| * (1.99999 * M) ≤ 4.0001 * u * M ^ 2 := (mul_le_mul_of_nonneg_left h4 (abs_nonneg _)).trans h3
    have h6 : |√s - M| * 1.99999 ≤ 4.0001 * u * M := by
      have : (|√s - M| * 1.99999) * M ≤ (4.0001 * u * M) * M := by linarith
      exact le_of_mul_le_mul_right this hM0
    have : 0 ≤ u * M := by positivity
    norm_num at h6 ⊢
    linarith
  have e3 : |m - M| ≤ 3.001 * u * M := by
    have h3 := hm.le hu
    rw [abs_of_nonneg (Real.sqrt_nonneg s)] at h3
    have h4 : √s ≤ 1.00001 * M := by
      have := (abs_le.1 e2).2
      have h5 : 2.0002 * u * M ≤ 2.0002 * 1e-6 * M := mul_le_mul_of_nonneg_right (by linarith) hM0.le
      norm_num at this h5 ⊢
      linarith
    have h5 := abs_sub_le m (√s) M
    have h6 : u * (√s + u) ≤ u * (1.00001 * M + 2e-6 * M) := mul_le_mul_of_nonneg_left (by norm_num at hu6 ⊢; linarith) hu
    have : 0 ≤ u * M := by positivity
    norm_num at h6 e2 ⊢
    linarith
  have hm0 : 0.9999 * M ≤ m := by
    have := (abs_le.1 e3).1
    have h5 : 3.001 * u * M ≤ 3.001 * 1e-6 * M := mul_le_mul_of_nonneg_right (by linarith) hM0.le
    norm_num at this h5 ⊢
    linarith
  have hmp : 0 < m := by
    have : 0 < 0.9999 * M := by positivity
    linarith
  have e4 : norm4 ((m⁻¹ • v) - normalize v) ≤ 3.01 * u := by
    rw [normalize_eq_smul, ← hM, ← sub_smul, norm4_smul, ← hM]
    have e : (m⁻¹ - M⁻¹) * M = (M - m) / m := by field_simp
    rw [← abs_of_pos hM0, ← abs_mul, abs_of_pos hM0, e, abs_div, abs_of_pos hmp, div_le_iff₀ hmp, abs_sub_comm]
    have : 3.01 * u * (0.9999 * M) ≤ 3.01 * u * m := mul_le_mul_of_nonneg_left hm0 (by positivity)
    have : 0 ≤ u * M := by positivity
    norm_num at *
    linarith
  refine vec_err hu hu6 (x := m⁻¹ • v) (fun i => by have := hw i; simpa [div_eq_inv_mul] using this) e4 (B := 1) ?_ (by norm_num) (by norm_num)
  rw [normalize_eq_smul, norm4_smul, abs_of_pos (by positivity), ← hM, inv_mul_cancel₀ hM0.ne']

end PyRayT
