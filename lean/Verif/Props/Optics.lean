import Verif.Proofs.Operations
import Verif.Props.Primitives

/-!
# Properties C21 - C24 (reflection and refraction) and C43, C44 (roots)
-/

namespace PyRayT

open Classical

/-! ### C21 reflection -/

/-- **C21.** Law of reflection for a unit normal: length preserved, tangential part (what is left after removing
the multiple of the normal) kept, normal component reversed; an involution; independent of the
orientation of the normal. -/
theorem C21_reflect (v n : Vec4) (hn : norm4 n = 1) :
    norm4 (reflect v n) = norm4 v ∧
    dot4 (reflect v n) n = -dot4 v n ∧
    (∀ w : Vec4, dot4 w n = 0 → dot4 (reflect v n) w = dot4 v w) ∧
    reflect (reflect v n) n = v ∧
    reflect v (-n) = reflect v n := by
  have hn' := norm4_eq_one.1 hn
  have e : reflect v n = fun i => 1 * v i + (-2 * dot4 v n) * n i := by
    funext i; unfold reflect; ring
  have hd : dot4 (reflect v n) n = -dot4 v n := by
    rw [e, dot4_lin_left, hn']; ring
  refine ⟨?_, hd, ?_, ?_, ?_⟩
  · rw [norm4_eq, norm4_eq]
    congr 1
    rw [e, dot4_lin_left, dot4_lin_right, dot4_lin_right, hn', dot4_comm n v]
    ring
  · intro w hw
    rw [e, dot4_lin_left, dot4_comm n w, hw]; ring
  · funext i
    have e2 : reflect (reflect v n) n i = reflect v n i - n i * 2 * dot4 (reflect v n) n := rfl
    rw [e2, hd, e]; ring
  · funext i
    unfold reflect
    rw [dot4_neg_right]; simp only [Pi.neg_apply]; ring

/-- **C21 (array forms).** The single-normal and the per-column forms apply the 1-D form to every column. -/
theorem C21_reflect_forms (vs ns : List Vec4) (n : Vec4) :
    reflectSingle vs n = vs.map (fun v => reflect v n) ∧
    (∀ i (hv : i < vs.length) (hn : i < ns.length),
      (reflectColumns vs ns)[i]? = some (reflect vs[i] ns[i])) ∧
    reflectColumns vs (List.replicate vs.length n) = reflectSingle vs n := by
  have e : ∀ v m : Vec4, (fun i => v i - 2 * m i * dot4 v m) = reflect v m := by
    intro v m; funext i; unfold reflect; ring
  refine ⟨?_, ?_, ?_⟩
  · unfold reflectSingle
    exact List.map_congr_left fun v _ => e v n
  · intro i hv hn
    have e' : (fun (v m : Vec4) i => v i - 2 * m i * dot4 v m) = reflect := by
      funext v m; exact e v m
    unfold reflectColumns
    rw [e']
    rw [List.getElem?_zipWith, List.getElem?_eq_getElem hv, List.getElem?_eq_getElem hn]
  · unfold reflectColumns reflectSingle
    induction vs with
    | nil => rfl
    | cons v vs ih => simp only [List.length_cons, List.replicate_succ, List.zipWith_cons_cons, List.map_cons, ih]

/-- non-vacuity of C21: a concrete oblique reflection -/
example : norm4 (vector 0 0.6 0.8) = 1 ∧
    reflect (vector 1 0 (-1)) (vector 0 0.6 0.8) = vector 1 0.96 0.28 := by
  constructor
  · rw [norm4_eq_one]; simp [dot4, vector]; norm_num
  · funext i; fin_cases i <;> simp [reflect, dot4, vector] <;> norm_num

/-! ### C22, C23 refraction

Angles are expressed by the sine of the angle between a unit vector and the (unoriented) normal:
`sinTo u n = sqrt(1 - (u·n)²)`. -/

/-- sine of the angle between the unit vector `u` and the line of the unit normal `n` -/
noncomputable def Spec.sinTo (u n : Vec4) : ℝ := √(1 - dot4 u n ^ 2)

/-- the index on the far side of the surface as seen by the ray: the material's index when entering
(`v·n ≤ 0`), the world index when leaving -/
noncomputable def Spec.farIndex (v n : Vec4) (n2 nGlobal : ℝ) : ℝ := if 0 < dot4 v n then nGlobal else n2

theorem dot4_normalize (v n : Vec4) : dot4 (normalize v) n = dot4 v n / norm4 v := by
  unfold normalize dot4; ring

theorem dot4_normalize_pos {v : Vec4} (hv : v ≠ 0) (n : Vec4) : dot4 (normalize v) n > 0 ↔ 0 < dot4 v n := by
  rw [dot4_normalize, gt_iff_lt, div_pos_iff_of_pos_right (norm4_pos hv)]

theorem refractIndex_eq {v : Vec4} (hv : v ≠ 0) (n : Vec4) (n2 ng : ℝ) :
    refractIndex (normalize v) n n2 ng = Spec.farIndex v n n2 ng := by
  unfold refractIndex Spec.farIndex
  simp only [dot4_normalize_pos hv]

theorem radicand_pos_iff {u n : Vec4} (hu : dot4 u u = 1) (hn : dot4 n n = 1) {n1 n2 : ℝ} (h1 : 0 < n1)
    (h2 : 0 < n2) : radicand u n (n1 / n2) > 0 ↔ n1 * Spec.sinTo u n < n2 := by
  have hs : 0 ≤ 1 - dot4 u n ^ 2 := by linarith [dot4_sq_le_one hu hn]
  have hsq := Real.sq_sqrt hs
  have hs0 := Real.sqrt_nonneg (1 - dot4 u n ^ 2)
  unfold radicand Spec.sinTo
  set s := √(1 - dot4 u n ^ 2)
  rw [← hsq]
  constructor
  · intro h
    by_contra hc
    push Not at hc
    have : n2 ^ 2 ≤ (n1 * s) ^ 2 := pow_le_pow_left₀ h2.le hc 2
    have h3 : (n1 / n2) ^ 2 * s ^ 2 = (n1 * s) ^ 2 / n2 ^ 2 := by field_simp
    have h4 : 1 ≤ (n1 * s) ^ 2 / n2 ^ 2 := (one_le_div (by positivity)).2 this
    linarith
  · intro h
    have : (n1 * s) ^ 2 < n2 ^ 2 := pow_lt_pow_left₀ h (by positivity) (by norm_num)
    have h3 : (n1 / n2) ^ 2 * s ^ 2 = (n1 * s) ^ 2 / n2 ^ 2 := by field_simp
    have h4 : (n1 * s) ^ 2 / n2 ^ 2 < 1 := (div_lt_one (by positivity)).2 this
    linarith

/-- **C22.** Snell's law. For any nonzero incoming vector, unit normal and positive indices: unless the ray is
totally reflected, the returned direction `w` is a unit vector; `n1·(tangential part of u) =
n2·(tangential part of w)` as vectors (so `w` is in the plane of incidence), hence
`n1 sin θ1 = n2 sin θ2`; `w` lies on the far side; the returned index is that of the far side. -/
theorem C22_snell (v n : Vec4) (n1 n2 ng : ℝ) (hv : v ≠ 0) (hn : norm4 n = 1) (h1 : 0 < n1) (h2 : 0 < n2)
    (hg : 0 < ng) :
    let u : Vec4 := fun i => v i / norm4 v
    let far := Spec.farIndex v n n2 ng
    let w := (refract v n n1 n2 ng).2.1
    n1 * Spec.sinTo u n < far →
      norm4 w = 1 ∧
      (∀ i, n1 * (u i - dot4 u n * n i) = far * (w i - dot4 w n * n i)) ∧
      n1 * Spec.sinTo u n = far * Spec.sinTo w n ∧
      (0 < dot4 v n → 0 < dot4 w n) ∧ (dot4 v n ≤ 0 → dot4 w n < 0) ∧
      (refract v n n1 n2 ng).2.2 = far := by
  intro u far w hlt
  have hn' := norm4_eq_one.1 hn
  have hu : dot4 u u = 1 := dot4_normalize_self hv
  have hfar : 0 < far := by change 0 < Spec.farIndex v n n2 ng; unfold Spec.farIndex; split <;> assumption
  have hri : refractIndex (normalize v) n n2 ng = far := refractIndex_eq hv n n2 ng
  have heq := refract_eq hv hn' n1 n2 ng
  simp only [hri] at heq
  have hrad : radicand u n (n1 / far) > 0 := (radicand_pos_iff hu hn' h1 hfar).2 hlt
  have hrad' : radicand (normalize v) n (n1 / far) > 0 := hrad
  have hw : w = refractRaw u (facing u n) (n1 / far) := by
    change (refract v n n1 n2 ng).2.1 = _; rw [heq]; rfl
  set r := n1 / far with hr
  set m := facing u n with hm
  have hmm : dot4 m m = 1 := facing_unit hn'
  have hum : dot4 u m = -|dot4 u n| := dot_facing u n
  have hrad2 : 1 - r ^ 2 * (1 - (-dot4 u m) ^ 2) = radicand u n r := by
    unfold radicand; rw [hum, neg_neg, sq_abs]
  set c2 := √(radicand u n r) with hc2
  have hc2pos : 0 < c2 := Real.sqrt_pos.2 hrad
  have hw2 : w = fun i => r * u i + (r * (-dot4 u m) - c2) * m i := by
    rw [hw]; unfold refractRaw; simp only [hrad2]; rw [if_pos hrad]
  have hwm : dot4 w m = -c2 := by
    rw [hw2, dot4_lin_left, hmm]; ring
  have hfr : far * r = n1 := by rw [hr]; field_simp
  have hww : dot4 w w = 1 := by rw [hw]; exact refractRaw_unit hu hmm r
  have htan : ∀ i, n1 * (u i - dot4 u n * n i) = far * (w i - dot4 w n * n i) := by
    intro i
    have key : n1 * (u i - dot4 u m * m i) = far * (w i - dot4 w m * m i) := by
      rw [hwm, hw2]
      simp only
      linear_combination (-(u i) + dot4 u m * m i) * hfr
    have conv : ∀ x : Vec4, x i - dot4 x m * m i = x i - dot4 x n * n i := by
      intro x
      rw [hm]; unfold facing
      split
      · rw [dot4_neg_right]; simp only [Pi.neg_apply]; ring
      · rfl
    rw [conv u, conv w] at key
    exact key
  refine ⟨norm4_eq_one.2 hww, htan, ?_, ?_, ?_, ?_⟩
  · have hs1 : 0 ≤ 1 - dot4 u n ^ 2 := by linarith [dot4_sq_le_one hu hn']
    have hs2 : 0 ≤ 1 - dot4 w n ^ 2 := by linarith [dot4_sq_le_one hww hn']
    have hsq : n1 ^ 2 * (1 - dot4 u n ^ 2) = far ^ 2 * (1 - dot4 w n ^ 2) := by
      have hwn2 : dot4 w n ^ 2 = c2 ^ 2 := by
        have : dot4 w n ^ 2 = dot4 w m ^ 2 := by
          rw [hm]; unfold facing; split
          · rw [dot4_neg_right]; ring
          · rfl
        rw [this, hwm]; ring
      have hc2sq : c2 ^ 2 = radicand u n r := Real.sq_sqrt hrad.le
      rw [hwn2, hc2sq]
      unfold radicand
      rw [← hfr]; ring
    unfold Spec.sinTo
    have l : n1 * √(1 - dot4 u n ^ 2) = √(n1 ^ 2 * (1 - dot4 u n ^ 2)) := by
      rw [Real.sqrt_mul (sq_nonneg _), Real.sqrt_sq h1.le]
    have l2 : far * √(1 - dot4 w n ^ 2) = √(far ^ 2 * (1 - dot4 w n ^ 2)) := by
      rw [Real.sqrt_mul (sq_nonneg _), Real.sqrt_sq hfar.le]
    rw [l, l2, hsq]
  · intro hpos
    have : dot4 u n > 0 := (dot4_normalize_pos hv n).2 hpos
    have e : m = -n := by rw [hm]; unfold facing; rw [if_pos this]
    rw [e, dot4_neg_right] at hwm
    linarith
  · intro hnp
    have : ¬ dot4 u n > 0 := fun h => absurd ((dot4_normalize_pos hv n).1 h) (not_lt.2 hnp)
    have e : m = n := by rw [hm]; unfold facing; rw [if_neg this]
    rw [e] at hwm
    linarith
  · rw [heq]; simp only [if_pos hrad']

/-- **C23.** Total internal reflection happens exactly at and beyond the critical angle: the result is then the
mirror image of the (normalised) ray and the index is unchanged; below it the returned index is that
of the far side and the ray crosses the surface. -/
theorem C23_total_internal_reflection (v n : Vec4) (n1 n2 ng : ℝ) (hv : v ≠ 0) (hn : norm4 n = 1)
    (h1 : 0 < n1) (h2 : 0 < n2) (hg : 0 < ng) :
    let u : Vec4 := fun i => v i / norm4 v
    let far := Spec.farIndex v n n2 ng
    let w := (refract v n n1 n2 ng).2.1
    let idx := (refract v n n1 n2 ng).2.2
    (far * 1 ≤ n1 * Spec.sinTo u n → (∀ i, w i = u i - 2 * dot4 u n * n i) ∧ idx = n1) ∧
    (n1 * Spec.sinTo u n < far * 1 → idx = far ∧ dot4 w n ≠ - dot4 u n) := by
  intro u far w idx
  have hn' := norm4_eq_one.1 hn
  have hu : dot4 u u = 1 := dot4_normalize_self hv
  have hfar : 0 < far := by change 0 < Spec.farIndex v n n2 ng; unfold Spec.farIndex; split <;> assumption
  have hri : refractIndex (normalize v) n n2 ng = far := refractIndex_eq hv n n2 ng
  have heq := refract_eq hv hn' n1 n2 ng
  simp only [hri] at heq
  constructor
  · intro hge
    have hrad : ¬ radicand u n (n1 / far) > 0 := by
      rw [radicand_pos_iff hu hn' h1 hfar]; rw [mul_one] at hge; exact not_lt.2 hge
    have hrad' : ¬ radicand (normalize v) n (n1 / far) > 0 := hrad
    constructor
    · intro i
      have hw : w = refractRaw u (facing u n) (n1 / far) := by
        change (refract v n n1 n2 ng).2.1 = _; rw [heq]; rfl
      rw [hw]; unfold refractRaw
      have hrad2 : 1 - (n1 / far) ^ 2 * (1 - (-dot4 u (facing u n)) ^ 2) = radicand u n (n1 / far) := by
        unfold radicand; rw [dot_facing, neg_neg, sq_abs]
      simp only [hrad2]
      rw [if_neg hrad]
      unfold facing
      split
      · rw [dot4_neg_right]; simp only [Pi.neg_apply]; ring
      · ring
    · change (refract v n n1 n2 ng).2.2 = _
      rw [heq]; simp only [if_neg hrad']
  · intro hlt
    rw [mul_one] at hlt
    obtain ⟨-, -, -, hp, hnp, hidx⟩ := C22_snell v n n1 n2 ng hv hn h1 h2 hg hlt
    refine ⟨hidx, ?_⟩
    intro hcon
    rcases le_or_gt (dot4 v n) 0 with h | h
    · have h3 := hnp h
      have h4 : dot4 u n ≤ 0 := by
        by_contra hc
        exact absurd ((dot4_normalize_pos hv n).1 (not_le.1 hc)) (not_lt.2 h)
      have : dot4 w n < 0 := h3
      linarith
    · have h3 := hp h
      have h4 : dot4 u n > 0 := (dot4_normalize_pos hv n).2 h
      have : 0 < dot4 w n := h3
      linarith

/-- non-vacuity of C22 and C23: entering glass head-on refracts; leaving glass at 3-4-5 incidence is totally
reflected (1.5·0.8 ≥ 1). -/
example : (1 : ℝ) * Spec.sinTo (vector 0 0 (-1)) (vector 0 0 1) < 1.5 ∧
    (1 : ℝ) ≤ 1.5 * Spec.sinTo (vector 0 0.8 0.6) (vector 0 0 1) := by
  constructor
  · simp [Spec.sinTo, dot4, vector]; norm_num
  · have : (1 - dot4 (vector 0 0.8 0.6) (vector 0 0 1) ^ 2) = 0.8 ^ 2 := by
      simp [dot4, vector]; norm_num
    rw [Spec.sinTo, this, Real.sqrt_sq (by norm_num)]; norm_num

/-- **`refract` normalises its argument in place** (used in C33): the caller's vectors afterwards have unit length and
the same direction. -/
theorem refract_mutates (v n : Vec4) (n1 n2 ng : ℝ) :
    (refract v n n1 n2 ng).1 = fun i => v i / norm4 v := rfl

/-! ### C24 reversibility -/

/-- **C24.** A transmitted, non-grazing ray sent back through the same interface with the index it carries
returns along the incoming direction with the incoming index: entering from the world (`n1 = n_global`)
and leaving to it (`n2` is then the index `n1` of the material). -/
theorem C24_reversible (v n : Vec4) (n1 n2 ng : ℝ) (hv : v ≠ 0) (hn : norm4 n = 1) (h1 : 0 < n1)
    (h2 : 0 < n2) (hg : 0 < ng) (hgraze : dot4 v n ≠ 0)
    (hside : (dot4 v n < 0 ∧ n1 = ng) ∨ (0 < dot4 v n ∧ n1 = n2)) :
    let u : Vec4 := fun i => v i / norm4 v
    let far := Spec.farIndex v n n2 ng
    let out := refract v n n1 n2 ng
    n1 * Spec.sinTo u n < far →
      (refract (-out.2.1) n out.2.2 n2 ng).2.1 = -u ∧ (refract (-out.2.1) n out.2.2 n2 ng).2.2 = n1 := by
  intro u far out hlt
  have hn' := norm4_eq_one.1 hn
  have hu : dot4 u u = 1 := dot4_normalize_self hv
  have hfar : 0 < far := by change 0 < Spec.farIndex v n n2 ng; unfold Spec.farIndex; split <;> assumption
  obtain ⟨hw1, htan, hsin, hp, hnp, hidx⟩ := C22_snell v n n1 n2 ng hv hn h1 h2 hg hlt
  change norm4 out.2.1 = 1 at hw1
  change ∀ i, n1 * (u i - dot4 u n * n i) = far * (out.2.1 i - dot4 out.2.1 n * n i) at htan
  change n1 * Spec.sinTo u n = far * Spec.sinTo out.2.1 n at hsin
  change 0 < dot4 v n → 0 < dot4 out.2.1 n at hp
  change dot4 v n ≤ 0 → dot4 out.2.1 n < 0 at hnp
  change out.2.2 = far at hidx
  set w := out.2.1 with hwdef
  have hw1' := norm4_eq_one.1 hw1
  have hwn : -w ≠ 0 := by
    rw [neg_ne_zero]; exact unit_ne_zero hw1'
  have hnw : norm4 (-w) = 1 := by
    rw [norm4_eq_one, dot4_neg_left, dot4_neg_right, neg_neg, hw1']
  have huw : (fun i => (-w) i / norm4 (-w)) = -w := by
    funext i; rw [hnw, div_one]
  have hsu : Spec.sinTo (-w) n = Spec.sinTo w n := by
    unfold Spec.sinTo; rw [dot4_neg_left]; congr 2; ring
  -- the far index of the way back is n1
  have hback : Spec.farIndex (-w) n n2 ng = n1 := by
    unfold Spec.farIndex
    rw [dot4_neg_left]
    rcases hside with ⟨hs, he⟩ | ⟨hs, he⟩
    · have := hnp hs.le
      rw [if_pos (by linarith)]; exact he.symm
    · have := hp hs
      rw [if_neg (by linarith)]; exact he.symm
  have hun : dot4 u n ≠ 0 := by
    change dot4 (normalize v) n ≠ 0
    rw [dot4_normalize]
    exact div_ne_zero hgraze (norm4_pos hv).ne'
  -- no total reflection on the way back
  have hlt2 : far * Spec.sinTo (-w) n < n1 := by
    rw [hsu, ← hsin]
    have : Spec.sinTo u n < 1 := by
      unfold Spec.sinTo
      rw [Real.sqrt_lt' one_pos]
      have : 0 < dot4 u n ^ 2 := by positivity
      linarith
    nlinarith
  have key := C22_snell (-w) n far n2 ng hwn hn hfar h2 hg
  simp only [huw, hback] at key
  obtain ⟨kw1, ktan, ksin, kp, knp, kidx⟩ := key hlt2
  rw [hidx]
  set x := (refract (-w) n far n2 ng).2.1 with hx
  refine ⟨?_, kidx⟩
  have kw1' := norm4_eq_one.1 kw1
  -- normal component of x
  have hsq : dot4 x n ^ 2 = dot4 u n ^ 2 := by
    have hs1 : 0 ≤ 1 - dot4 u n ^ 2 := by linarith [dot4_sq_le_one hu hn']
    have hs2 : 0 ≤ 1 - dot4 x n ^ 2 := by linarith [dot4_sq_le_one kw1' hn']
    have e : n1 * Spec.sinTo u n = n1 * Spec.sinTo x n := by rw [hsin, ← ksin, hsu]
    have e2 := mul_left_cancel₀ h1.ne' e
    unfold Spec.sinTo at e2
    have := (Real.sqrt_inj hs1 hs2).1 e2
    linarith
  have hxn : dot4 x n = -dot4 u n := by
    rcases sq_eq_sq_iff_eq_or_eq_neg.1 hsq with h | h
    · exfalso
      rcases hside with ⟨hs, -⟩ | ⟨hs, -⟩
      · have h3 := hnp hs.le
        have h4 := kp (by rw [dot4_neg_left]; linarith)
        have h5 : dot4 u n < 0 := by
          change dot4 (normalize v) n < 0
          rw [dot4_normalize]; exact div_neg_of_neg_of_pos hs (norm4_pos hv)
        linarith
      · have h3 := hp hs
        have h4 := knp (by rw [dot4_neg_left]; linarith)
        have h5 : dot4 u n > 0 := (dot4_normalize_pos hv n).2 hs
        linarith
    · exact h
  funext i
  have t1 := htan i
  have t2 := ktan i
  rw [dot4_neg_left, hxn] at t2
  rw [hnw, div_one] at t2
  simp only [Pi.neg_apply] at t2 ⊢
  have : n1 * (x i + u i) = 0 := by linear_combination t1 - t2
  rcases mul_eq_zero.1 this with h | h
  · exact absurd h h1.ne'
  · linarith

/-- non-vacuity of C24: oblique entry from the world into glass -/
example : dot4 (vector 0 0.6 (-0.8)) (vector 0 0 1) < 0 ∧
    (1 : ℝ) * Spec.sinTo (vector 0 0.6 (-0.8)) (vector 0 0 1) < Spec.farIndex (vector 0 0.6 (-0.8)) (vector 0 0 1) 1.5 1 := by
  have hd : dot4 (vector 0 0.6 (-0.8)) (vector 0 0 1) = -0.8 := by simp [dot4, vector]
  constructor
  · rw [hd]; norm_num
  · have : (1 - dot4 (vector 0 0.6 (-0.8)) (vector 0 0 1) ^ 2) = 0.6 ^ 2 := by rw [hd]; norm_num
    rw [Spec.sinTo, this, Real.sqrt_sq (by norm_num), Spec.farIndex, hd, if_neg (by norm_num)]; norm_num

/-! ### C43, C44 roots -/

/-- the root set -/
def Spec.IsRoot (a b c x : ℝ) : Prop := a * x ^ 2 + b * x + c = 0

theorem root_iff {a b c : ℝ} (ha : a ≠ 0) (x : ℝ) : Spec.IsRoot a b c x ↔
    0 ≤ b ^ 2 - 4 * a * c ∧ (x = (-b + √(b ^ 2 - 4 * a * c)) / (2 * a) ∨
      x = (-b - √(b ^ 2 - 4 * a * c)) / (2 * a)) := by
  unfold Spec.IsRoot
  have h4 : 4 * a * (a * x ^ 2 + b * x + c) = (2 * a * x + b) ^ 2 - (b ^ 2 - 4 * a * c) := by ring
  have h2a : 2 * a ≠ 0 := by simpa using ha
  constructor
  · intro h
    have hd : b ^ 2 - 4 * a * c = (2 * a * x + b) ^ 2 := by rw [h] at h4; linarith
    have hnn : 0 ≤ b ^ 2 - 4 * a * c := by rw [hd]; positivity
    refine ⟨hnn, ?_⟩
    have : (2 * a * x + b) ^ 2 = √(b ^ 2 - 4 * a * c) ^ 2 := by rw [Real.sq_sqrt hnn, hd]
    rcases sq_eq_sq_iff_eq_or_eq_neg.1 this with h | h
    · left; rw [eq_div_iff h2a]; linarith
    · right; rw [eq_div_iff h2a]; linarith
  · rintro ⟨hd, h⟩
    have hs := Real.sq_sqrt hd
    have h5 : 4 * a * (a * x ^ 2 + b * x + c) = 0 := by
      rw [h4]
      rcases h with h | h <;> rw [eq_div_iff h2a] at h
      · have : 2 * a * x + b = √(b ^ 2 - 4 * a * c) := by linarith
        rw [this, hs]; ring
      · have : 2 * a * x + b = -√(b ^ 2 - 4 * a * c) := by linarith
        rw [this, neg_sq, hs]; ring
    rcases mul_eq_zero.1 h5 with h | h
    · exact absurd h (by simpa using ha)
    · exact h

/-- **C43 (partial).** For `a > 1e-8`, or `a < -1e-8` with `c < 0`: `smallest_positive_root` is the least root
`≥ 0`, and `+inf` iff there is none. Missing: `a < -1e-8` with `c ≥ 0`, where it is false
(`C43_false`). -/
theorem C43_smallest_positive_root_partial (a b c : ℝ) (h : 1e-8 < a ∨ (a < -1e-8 ∧ c < 0)) :
    (∀ x : ℝ, smallestPositiveRoot a b c = x → IsLeast {y | 0 ≤ y ∧ Spec.IsRoot a b c y} x) ∧
    (smallestPositiveRoot a b c = ⊤ → ∀ y, 0 ≤ y → ¬ Spec.IsRoot a b c y) ∧
    (smallestPositiveRoot a b c = ⊤ ∨ ∃ x : ℝ, smallestPositiveRoot a b c = x) := by
  have hne : a ≠ 0 := by rcases h with h | h <;> intro h0 <;> rw [h0] at h <;> norm_num at h
  have hnc : ¬ isclose0 a := by
    apply not_isclose0
    rcases h with h | h
    · exact lt_of_lt_of_le h (le_abs_self a)
    · rw [abs_of_neg (by linarith [h.1])]; linarith [h.1]
  have hroots := fun x => root_iff (b := b) (c := c) hne x
  unfold smallestPositiveRoot
  simp only [hnc, addMask_False]
  set disc := b ^ 2 - 4 * a * c with hdisc
  by_cases hd : 0 ≤ disc
  · simp only [max_eq_right hd, ge_iff_le, hd, true_and]
    set p0 := (-b + √disc) / (2 * a) with hp0
    set p1 := (-b - √disc) / (2 * a) with hp1
    have hr0 : Spec.IsRoot a b c p0 := (hroots _).2 ⟨hd, Or.inl rfl⟩
    have hr1 : Spec.IsRoot a b c p1 := (hroots _).2 ⟨hd, Or.inr rfl⟩
    have hs0 := Real.sqrt_nonneg disc
    have hall : ∀ y, Spec.IsRoot a b c y → y = p0 ∨ y = p1 := fun y hy => ((hroots y).1 hy).2
    have hor : p1 ≤ p0 ∨ (p0 ≤ p1 ∧ (0 ≤ p1 → 0 < p0)) := by
      rcases h with h | h
      · left
        apply div_le_div_of_nonneg_right _ (by linarith)
        linarith
      · right
        have ha : 2 * a < 0 := by linarith [h.1]
        refine ⟨?_, ?_⟩
        · rw [hp0, hp1, div_le_div_right_of_neg ha]; linarith
        · intro h1
          have hprod : p0 * p1 = c / a := by
            rw [hp0, hp1]
            have hs := Real.sq_sqrt hd
            rw [div_mul_div_comm]
            rw [div_eq_div_iff (by simpa using hne) hne]
            linear_combination (-a) * hs
          have hpos : 0 < c / a := div_pos_of_neg_of_neg h.2 (by linarith [h.1])
          rw [← hprod] at hpos
          rcases pos_and_pos_or_neg_and_neg_of_mul_pos hpos with h2 | h2
          · exact h2.1
          · linarith [h2.2]
    refine ⟨?_, ?_, ?_⟩
    · intro x
      split_ifs with h1 h2 h2
      · intro hx
        rw [EReal.coe_eq_coe_iff] at hx
        subst hx
        refine ⟨⟨h2, ?_⟩, ?_⟩
        · rcases min_choice p0 p1 with e | e <;> simp only [e] <;> assumption
        · rintro y ⟨-, hy⟩
          rcases hall y hy with e | e <;> rw [e]
          · exact min_le_left _ _
          · exact min_le_right _ _
      · intro hx; exact absurd hx (EReal.coe_ne_top x).symm
      · intro hx
        rw [EReal.coe_eq_coe_iff] at hx
        subst hx
        refine ⟨⟨h2, hr0⟩, ?_⟩
        rintro y ⟨hy0, hy⟩
        rcases hall y hy with e | e
        · exact e.ge
        · rw [e] at hy0; exact absurd hy0 h1
      · intro hx; exact absurd hx (EReal.coe_ne_top x).symm
    · split_ifs with h1 h2 h2
      · intro hx; exact absurd hx (EReal.coe_ne_top _)
      · intro _ y hy0 hy
        rcases hor with hle | ⟨hle, hpp⟩
        · apply h2; rw [min_eq_right hle]; exact h1
        · apply h2; rw [min_eq_left hle]; exact (hpp h1).le
      · intro hx; exact absurd hx (EReal.coe_ne_top _)
      · intro _ y hy0 hy
        rcases hall y hy with e | e <;> rw [e] at hy0
        · exact h2 hy0
        · exact h1 hy0
    · split_ifs
      · exact Or.inr ⟨_, rfl⟩
      · exact Or.inl rfl
      · exact Or.inr ⟨_, rfl⟩
      · exact Or.inl rfl
  · simp only [ge_iff_le, hd, false_and, if_false]
    refine ⟨?_, ?_, Or.inl trivial⟩
    · intro x hx; exact absurd hx (EReal.coe_ne_top x).symm
    · intro _ y _ hy; exact hd ((hroots y).1 hy).1

/-- **C43 is false for a downward parabola that is positive at 0**: every such polynomial has a positive
root, and `smallest_positive_root` always answers `+inf`. -/
theorem C43_false (a b c : ℝ) (ha : a < -1e-8) (hc : 0 < c) :
    (∃ x, 0 < x ∧ Spec.IsRoot a b c x) ∧ smallestPositiveRoot a b c = ⊤ := by
  have hne : a ≠ 0 := by intro h0; rw [h0] at ha; norm_num at ha
  have hnc : ¬ isclose0 a := by
    apply not_isclose0
    rw [abs_of_neg (by linarith)]; linarith
  have han : a < 0 := by linarith
  have h2a : 2 * a < 0 := by linarith
  have hac : 0 < -4 * a * c := by nlinarith
  have hd : 0 ≤ b ^ 2 - 4 * a * c := by nlinarith [sq_nonneg b]
  have hlt : |b| < √(b ^ 2 - 4 * a * c) := by
    rw [Real.lt_sqrt (abs_nonneg b), sq_abs]; linarith
  have hb := abs_lt.1 hlt
  have h1 : 0 < (-b - √(b ^ 2 - 4 * a * c)) / (2 * a) :=
    div_pos_of_neg_of_neg (by linarith [hb.1]) h2a
  have h0 : (-b + √(b ^ 2 - 4 * a * c)) / (2 * a) < 0 :=
    div_neg_of_pos_of_neg (by linarith [hb.2]) h2a
  refine ⟨⟨_, h1, (root_iff hne _).2 ⟨hd, Or.inr rfl⟩⟩, ?_⟩
  unfold smallestPositiveRoot
  simp only [hnc, addMask_False, max_eq_right hd, ge_iff_le, h1.le, if_true]
  rw [if_neg]
  rintro ⟨-, h⟩
  exact absurd (le_trans h (min_le_left _ _)) (not_le.2 h0)

/-- non-vacuity of C43: `x² - 3x + 2` and `-x² + 1` -/
example : IsLeast {y : ℝ | 0 ≤ y ∧ Spec.IsRoot 1 (-3) 2 y} 1 ∧ ((1e-8 : ℝ) < 1) ∧ ((-1 : ℝ) < -1e-8) := by
  refine ⟨⟨⟨by norm_num, by norm_num [Spec.IsRoot]⟩, ?_⟩, by norm_num, by norm_num⟩
  rintro y ⟨-, hy⟩
  unfold Spec.IsRoot at hy
  have : (y - 1) * (y - 2) = 0 := by linarith
  rcases mul_eq_zero.1 this with h | h <;> linarith

/-- **C44 (partial).** `binomial_root` returns exactly the real roots when `|a| > 1e-8`, or `a = 0` and
`|b| > 1e-8`; `+inf` twice iff there are none. For `a = b = 0` it returns `(-inf, inf)` when `c ≤ 0`.
Missing: nonzero coefficients below the tolerance, where it is false (`C44_false`). -/
theorem C44_binomial_root_partial (a b c : ℝ) :
    (1e-8 < |a| ∨ (a = 0 ∧ 1e-8 < |b|) →
      (∀ x : ℝ, ((binomialRoot a b c).1 = x ∨ (binomialRoot a b c).2 = x) ↔ Spec.IsRoot a b c x) ∧
      ((∀ x, ¬ Spec.IsRoot a b c x) ↔ binomialRoot a b c = (⊤, ⊤))) ∧
    (a = 0 → b = 0 → binomialRoot a b c = (if c ≤ 0 then ⊥ else ⊤, ⊤)) := by
  refine ⟨?_, ?_⟩
  · rintro (ha | ⟨rfl, hb⟩)
    · have hne : a ≠ 0 := by rintro rfl; norm_num at ha
      rw [binomialRoot_quad ha]
      unfold polyRoots
      by_cases hd : b ^ 2 - 4 * a * c ≥ 0
      · simp only [hd, if_true, max_eq_right hd, EReal.coe_eq_coe_iff]
        refine ⟨fun x => ?_, ?_⟩
        · rw [root_iff hne]
          constructor
          · rintro (h | h)
            · exact ⟨hd, Or.inl h.symm⟩
            · exact ⟨hd, Or.inr h.symm⟩
          · rintro ⟨-, h | h⟩
            · exact Or.inl h.symm
            · exact Or.inr h.symm
        · constructor
          · intro h
            exact absurd ((root_iff hne _).2 ⟨hd, Or.inl rfl⟩) (h _)
          · intro h
            have := congrArg Prod.fst h
            exact absurd this (EReal.coe_ne_top _)
      · have hno : ∀ x, ¬ Spec.IsRoot a b c x := fun x hx => hd ((root_iff hne x).1 hx).1
        simp only [hd, if_false]
        refine ⟨fun x => ?_, ?_⟩
        · simp only [or_self]
          exact iff_of_false (EReal.coe_ne_top x).symm (hno x)
        · simp only [iff_true]; exact hno
    · rw [binomialRoot_linear hb]
      have hne : b ≠ 0 := by rintro rfl; norm_num at hb
      have hr : ∀ x : ℝ, Spec.IsRoot 0 b c x ↔ -c / b = x := by
        intro x
        unfold Spec.IsRoot
        rw [div_eq_iff hne]
        constructor <;> intro h <;> linarith
      refine ⟨fun x => ?_, ?_⟩
      · simp only [or_self, EReal.coe_eq_coe_iff, hr]
      · constructor
        · intro h; exact absurd ((hr _).2 rfl) (h _)
        · intro h
          have := congrArg Prod.fst h
          exact absurd this (EReal.coe_ne_top _)
  · rintro rfl rfl
    exact binomialRoot_const

/-- **C44 is false below the tolerance**: `1e-9·x² - 1` has the roots `±√1e9 ≈ ±31623`, none of which is
returned. -/
theorem C44_false : (∃ x, Spec.IsRoot 1e-9 0 (-1) x) ∧ binomialRoot 1e-9 0 (-1) = (⊥, ⊤) := by
  constructor
  · refine ⟨√1e9, ?_⟩
    unfold Spec.IsRoot
    rw [Real.sq_sqrt (by norm_num)]; norm_num
  · have h : isclose0 1e-9 := by unfold isclose0; rw [abs_of_pos] <;> norm_num
    simp [binomialRoot, isclose0_zero, h]

/-- non-vacuity of C44 -/
example : (1e-8 : ℝ) < |2| ∧ Spec.IsRoot 2 (-2) (-4) 2 := by
  refine ⟨by norm_num, by norm_num [Spec.IsRoot]⟩

end PyRayT
