import Verif.Model.Special

/-!
# Finite numbers in the model with nan

Sums, products, roots and comparisons of finite numbers are those of the reals; the primitives give the distances of `Model/Primitives.lean`.
-/

namespace PyRayT

open Classical Flt

namespace Flt

theorem re_inj {x y : ℝ} : re x = re y ↔ x = y := by simp [re]

theorem not_isInf (x : ℝ) : ¬ (x : EReal).isInf := by simp [EReal.isInf]

theorem re_neg (x : ℝ) : -re x = re (-x) := by
  show neg (num _) = _
  simp [neg, re]

theorem re_add (x y : ℝ) : re x + re y = re (x + y) := by
  show add (num _) (num _) = _
  simp [add, re]

theorem re_sub (x y : ℝ) : re x - re y = re (x - y) := by
  show re x + -re y = _
  rw [re_neg, re_add, sub_eq_add_neg]

theorem re_mul (x y : ℝ) : re x * re y = re (x * y) := by
  show mul (num _) (num _) = _
  simp [mul, re, not_isInf]

theorem re_div {x y : ℝ} (h : y ≠ 0) : re x / re y = re (x / y) := by
  show div (num _) (num _) = _
  have : ¬ ((y : EReal) = 0) := by simpa using h
  simp [div, re, not_isInf, this, EReal.coe_div]

theorem div_zero (x : Flt) : x / re 0 = nan := by
  show div x (num _) = _
  cases x <;> simp [div]

theorem re_sqrt {x : ℝ} (h : 0 ≤ x) : sqrt (re x) = re √x := by
  have : ¬ ((x : EReal) < 0) := by
    rw [not_lt]
    exact_mod_cast h
  simp [sqrt, re, this]

theorem num_le (x y : EReal) : num x ≤ num y ↔ x ≤ y := Iff.rfl

theorem num_lt (x y : EReal) : num x < num y ↔ x < y := Iff.rfl

theorem re_le (x y : ℝ) : re x ≤ re y ↔ x ≤ y := by
  show (x : EReal) ≤ y ↔ _
  exact EReal.coe_le_coe_iff

theorem re_lt (x y : ℝ) : re x < re y ↔ x < y := by
  show (x : EReal) < y ↔ _
  exact EReal.coe_lt_coe_iff

theorem not_lt_nan (x : Flt) : ¬ x < nan := by
  cases x <;> exact id

theorem max_num (x y : EReal) : Flt.max (num x) (num y) = num (Max.max x y) := rfl

theorem min_num (x y : EReal) : Flt.min (num x) (num y) = num (Min.min x y) := rfl

theorem re_max (x y : ℝ) : Flt.max (re x) (re y) = re (Max.max x y) := by
  show num _ = num _
  rcases le_total x y with h | h
  · rw [max_eq_right h, max_eq_right (EReal.coe_le_coe_iff.2 h)]
  · rw [max_eq_left h, max_eq_left (EReal.coe_le_coe_iff.2 h)]

theorem isclose_re (x y : ℝ) : (re x).isclose (re y) ↔ PyRayT.isclose x y := by
  simp [re, Flt.isclose, not_isInf]

theorem isclose_re_zero (x : ℝ) : (re x).isclose (re 0) ↔ isclose0 x := by
  rw [isclose_re, isclose_zero]

theorem addMask_re (x : ℝ) (p : Prop) [Decidable p] : (re x).addMask p = re (@PyRayT.addMask x p (propDecidable p)) := by
  simp only [Flt.addMask, PyRayT.addMask, re_add]
  congr

end Flt

/-- a pair of distances -/
def numP (h : EReal × EReal) : Flt × Flt := (num h.1, num h.2)

/-- a vector of finite numbers -/
def ofV (v : Vec4) : Vec4F := fun i => re (v i)

/-- a ray of finite numbers -/
def RayF.of (r : Ray) : RayF := ⟨ofV r.o, ofV r.d⟩

theorem sort2_numP (h : EReal × EReal) : Flt.sort2 (numP h) = numP (sort2 h) := rfl

theorem matF_of (m : Mat4) (v : Vec4) : matF m (ofV v) = ofV (m.mulVec v) := by
  funext i
  simp only [matF, ofV, re_mul, re_add, Matrix.mulVec, dotProduct, Fin.sum_univ_four]

theorem dotF_of (u v : Vec4) : dotF (ofV u) (ofV v) = re (dot4 u v) := by
  simp only [dotF, ofV, re_mul, re_add, dot4]

theorem normF_of (v : Vec4) : normF (ofV v) = re (norm4 v) := by
  simp only [normF, ofV, re_mul, re_add, norm4]
  rw [re_sqrt (by nlinarith [sq_nonneg (v 0), sq_nonneg (v 1), sq_nonneg (v 2), sq_nonneg (v 3)])]
  simp only [pow_two]

theorem normalizeF_of {v : Vec4} (h : norm4 v ≠ 0) : normalizeF (ofV v) = ofV (normalize v) := by
  funext i
  rw [normalizeF, normF_of]
  exact re_div h

/-! ### denominators -/

theorem addMask_close_ne (x : ℝ) : addMask x (isclose0 x) ≠ 0 := by
  unfold addMask
  split
  · rename_i h
    have := abs_le.1 h
    norm_num at this
    linarith [this.1]
  · rename_i h
    rw [add_zero]
    rintro rfl
    exact h (by norm_num [isclose0])

theorem addMask_close_two_ne (x : ℝ) : addMask (2 * x) (isclose0 x) ≠ 0 := by
  unfold addMask
  split
  · rename_i h
    have := abs_le.1 h
    norm_num at this
    linarith [this.1]
  · rename_i h
    rw [add_zero]
    intro hx
    have : x = 0 := by linarith
    subst this
    exact h (by norm_num [isclose0])

theorem addMask_eq_ne (x : ℝ) : addMask x (x = 0) ≠ 0 := by
  unfold addMask
  split
  · rename_i h
    rw [h]
    norm_num
  · rename_i h
    simpa using h

/-! ### primitives -/

theorem polyRootsF_of {b disc den : ℝ} (h : den ≠ 0) : polyRootsF (re b) (re disc) (re den) = numP (polyRoots b disc den) := by
  have hs : sqrt (Flt.max (re 0) (re disc)) = re √(max 0 disc) := by
    rw [re_max, re_sqrt (le_max_left _ _)]
  simp only [polyRootsF, polyRoots, hs, re_neg, re_add, re_sub, re_div h]
  by_cases hd : 0 ≤ disc
  · rw [if_pos ((re_le _ _).2 hd), if_pos hd]
    rfl
  · rw [if_neg (mt (re_le _ _).1 hd), if_neg hd]
    rfl

/-- for a direction that is not zero -/
theorem sphereIntersectF_of {r : ℝ} {ray : Ray} (h : ray.d 0 * ray.d 0 + ray.d 1 * ray.d 1 + ray.d 2 * ray.d 2 ≠ 0) :
    sphereIntersectF r (RayF.of ray) = numP (sphereIntersect r ray) := by
  simp only [sphereIntersectF, sphereIntersect, RayF.of, ofV, re_mul, re_add, re_sub, if_neg h]
  rw [polyRootsF_of (mul_ne_zero two_ne_zero h)]
  simp only [pow_two]

/-- For a zero direction the code divides 0 by 0. -/
theorem sphereIntersectF_zero {r : ℝ} {ray : Ray} (h : ray.d 0 * ray.d 0 + ray.d 1 * ray.d 1 + ray.d 2 * ray.d 2 = 0) :
    sphereIntersectF r (RayF.of ray) = (nan, nan) ∧ sphereIntersect r ray = (⊤, ⊤) := by
  have h0 : ray.d 0 = 0 := by nlinarith [sq_nonneg (ray.d 0), sq_nonneg (ray.d 1), sq_nonneg (ray.d 2)]
  have h1 : ray.d 1 = 0 := by nlinarith [sq_nonneg (ray.d 0), sq_nonneg (ray.d 1), sq_nonneg (ray.d 2)]
  have h2 : ray.d 2 = 0 := by nlinarith [sq_nonneg (ray.d 0), sq_nonneg (ray.d 1), sq_nonneg (ray.d 2)]
  constructor
  · simp only [sphereIntersectF, RayF.of, ofV, re_mul, re_add, re_sub, h0, h1, h2, zero_mul, mul_zero, add_zero, sub_zero, polyRootsF, div_zero]
    rw [if_pos ((re_le 0 0).2 le_rfl)]
  · simp only [sphereIntersect, if_pos h]

theorem binomialRootF_of (a b c : ℝ) : binomialRootF (re a) (re b) (re c) = numP (binomialRoot a b c) := by
  simp only [binomialRootF, binomialRoot, re_mul, re_sub, addMask_re, re_neg, re_div (addMask_eq_ne b), polyRootsF_of (addMask_close_two_ne a), pow_two, isclose_re_zero, re_le, re_inj]
  by_cases ha : isclose0 a
  · by_cases hb : isclose0 b
    · by_cases hc : c ≤ 0 <;> simp [ha, hb, hc, numP, inf]
    · simp [ha, hb, numP, re]
  · simp [ha, numP]

theorem capHitsF_of (lo hi oz dz : ℝ) : capHitsF lo hi (re oz) (re dz) = numP (capHits lo hi oz dz) := by
  simp only [capHitsF, capHits, re_sub, addMask_re, re_div (addMask_close_ne dz), isclose_re_zero, re_le, re_inj]
  by_cases h : isclose0 dz
  · by_cases h' : lo ≤ oz ∧ oz ≤ hi
    · simp [h, h', numP, inf]
    · have h'' : ¬ (oz ≥ lo ∧ oz ≤ hi) := h'
      simp [h, h', h'', numP, inf]
  · simp [h, numP, re]

theorem clipHitsF_of (side caps : EReal × EReal) : clipHitsF (numP side) (numP caps) = numP (clipHits side caps) := by
  simp only [clipHitsF, clipHits, sort2_numP]
  simp only [numP, max_num, min_num, num_le]
  split <;> rfl

theorem cylinderIntersectF_of (r lo hi : ℝ) (ray : Ray) : cylinderIntersectF r lo hi (RayF.of ray) = numP (cylinderIntersect r lo hi ray) := by
  simp only [cylinderIntersectF, cylinderIntersect, RayF.of, ofV, re_mul, re_add, re_sub, binomialRootF_of, capHitsF_of, sort2_numP, clipHitsF_of, pow_two]

theorem paraboloidIntersectF_of (f h : ℝ) (ray : Ray) : paraboloidIntersectF f h (RayF.of ray) = numP (paraboloidIntersect f h ray) := by
  simp only [paraboloidIntersectF, paraboloidIntersect, RayF.of, ofV, re_mul, re_add, re_sub, capHitsF_of, pow_two]
  generalize ray.d 0 * ray.d 0 + ray.d 1 * ray.d 1 = a
  generalize 2 * (ray.o 0 * ray.d 0 + ray.o 1 * ray.d 1) - 4 * f * ray.d 2 = b
  generalize ray.o 0 * ray.o 0 + ray.o 1 * ray.o 1 - 4 * f * ray.o 2 = c
  simp only [addMask_re, re_neg, re_div (addMask_close_ne b), polyRootsF_of (addMask_close_two_ne a), isclose_re_zero, re_le, re_inj]
  rw [← clipHitsF_of, ← sort2_numP]
  congr 2
  by_cases ha : isclose0 a
  · simp only [if_pos ha, numP]
    by_cases hd : 0 ≤ ray.d 2
    · simp [hd, inf, re]
    · simp [hd, re]
  · simp [ha]

theorem planeBoundF_of (dim o d : ℝ) : planeBoundF dim (re o) (re d) = numP (planeBound dim o d) := by
  simp only [planeBoundF, planeBound, re_sub, re_add, re_neg, addMask_re, re_div (addMask_close_ne d), isclose_re_zero, re_le, abs_le]
  by_cases hd : isclose0 d
  · by_cases ho : -(dim / 2) ≤ o ∧ o ≤ dim / 2
    · simp [hd, ho, numP, inf]
    · simp only [if_pos hd, if_neg ho, numP, inf]
  · simp [hd, numP, re]

theorem planeIntersectF_of (w l : ℝ) (ray : Ray) : planeIntersectF w l (RayF.of ray) = numP (planeIntersect w l ray) := by
  simp only [planeIntersectF, planeIntersect, RayF.of, ofV, planeBoundF_of, sort2_numP, addMask_re, re_neg, re_div (addMask_close_ne (ray.d 2)), isclose_re_zero]
  have e2 : (if isclose0 (ray.d 2) then inf else re (-ray.o 2 / addMask (ray.d 2) (isclose0 (ray.d 2)))) =
      num (if isclose0 (ray.d 2) then ⊤ else ((-ray.o 2 / addMask (ray.d 2) (isclose0 (ray.d 2)) : ℝ) : EReal)) := by
    split <;> rfl
  rw [e2]
  simp only [numP, max_num, min_num, num_le, ge_iff_le]
  generalize (if isclose0 (ray.d 2) then (⊤ : EReal) else _) = x
  split <;> rfl

theorem slabF_of (span : EReal × EReal) (o d : ℝ) : slabF span (re o) (re d) = numP (slab span o d) := by
  have e2 : ∀ (s : EReal) {x : ℝ}, x ≠ 0 → -(re o - num s) / re x = num ((s - (o : EReal)) * ((x⁻¹ : ℝ) : EReal)) := by
    intro s x hx
    have hx' : ¬ ((x : EReal) = 0) := by simpa using hx
    have h1 : re o - num s = num (o - s) := by
      show add (num _) (neg (num _)) = _
      simp only [neg, add, EReal.coe_ne_top, EReal.coe_ne_bot, false_and, or_self, if_false]
      rfl
    have h2 : -num (o - s) = num (s - o) := by
      show num (-((o : EReal) - s)) = _
      rw [EReal.neg_sub (.inl (EReal.coe_ne_bot o)) (.inl (EReal.coe_ne_top o)), add_comm, sub_eq_add_neg]
    rw [h1, h2]
    show div (num _) (num _) = _
    simp only [div, hx', not_isInf, and_false, or_self, if_false]
    rw [EReal.div_eq_inv_mul, mul_comm, EReal.coe_inv]
  simp only [slabF, slab, addMask_re, isclose_re_zero, e2 _ (addMask_close_ne d), isclose_re_zero]
  rw [← sort2_numP]
  congr 1
  by_cases hd : isclose0 d
  · simp only [hd, not_true_eq_false, if_false, numP]
    by_cases ho : (o : EReal) ≤ span.2 ∧ span.1 ≤ (o : EReal)
    · have ho' : re o ≤ num span.2 ∧ num span.1 ≤ re o := ho
      have ho'' : (o : EReal) ≤ span.2 ∧ (o : EReal) ≥ span.1 := ho
      rw [if_pos ho', if_pos ho'']
      rfl
    · have ho' : ¬ (re o ≤ num span.2 ∧ num span.1 ≤ re o) := ho
      have ho'' : ¬ ((o : EReal) ≤ span.2 ∧ (o : EReal) ≥ span.1) := ho
      rw [if_neg ho', if_neg ho'']
      rfl
  · simp [hd, numP]

theorem boxIntersectF_of (box : Box) (ray : Ray) : boxIntersectF box (RayF.of ray) = numP (boxIntersect box ray) := by
  simp only [boxIntersectF, boxIntersect, RayF.of, ofV, slabF_of]
  simp only [numP, max_num, min_num, num_lt]
  split <;> rfl

/-- direction of length zero -/
def Ray.still (ray : Ray) : Prop := ray.d 0 * ray.d 0 + ray.d 1 * ray.d 1 + ray.d 2 * ray.d 2 = 0

theorem intersectF_of (p : Prim) {ray : Ray} (h : ¬ ray.still) : p.intersectF (RayF.of ray) = numP (p.intersect ray) := by
  cases p with
  | sphere r => exact sphereIntersectF_of h
  | paraboloid f h => exact paraboloidIntersectF_of f h ray
  | plane w l => exact planeIntersectF_of w l ray
  | cube a b => exact boxIntersectF_of _ ray
  | cylinder r a b => exact cylinderIntersectF_of r a b ray

theorem intersectF_or (p : Prim) (ray : Ray) : p.intersectF (RayF.of ray) = numP (p.intersect ray) ∨
    (p.intersectF (RayF.of ray) = (nan, nan) ∧ p.intersect ray = (⊤, ⊤)) := by
  cases p with
  | sphere r =>
    by_cases h : ray.still
    · exact .inr (sphereIntersectF_zero h)
    · exact .inl (sphereIntersectF_of h)
  | paraboloid f h => exact .inl (paraboloidIntersectF_of f h ray)
  | plane w l => exact .inl (planeIntersectF_of w l ray)
  | cube a b => exact .inl (boxIntersectF_of _ ray)
  | cylinder r a b => exact .inl (cylinderIntersectF_of r a b ray)

end PyRayT
