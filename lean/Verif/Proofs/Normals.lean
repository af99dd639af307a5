import Verif.Model.Normals
import Verif.Spec.Normals
import Verif.Proofs.PrimAll
import Verif.Proofs.World3

/-! Surface normals. -/

namespace PyRayT

open Classical Matrix Spec

theorem Spec.Soon.and {P Q : ℝ → Prop} (h1 : Soon P) (h2 : Soon Q) : Soon fun s => P s ∧ Q s := by
  obtain ⟨e1, p1, q1⟩ := h1
  obtain ⟨e2, p2, q2⟩ := h2
  exact ⟨min e1 e2, lt_min p1 p2, fun s hs hs' => ⟨q1 s hs (lt_of_lt_of_le hs' (min_le_left _ _)),
    q2 s hs (lt_of_lt_of_le hs' (min_le_right _ _))⟩⟩

theorem Spec.Soon.imp {P Q : ℝ → Prop} (h1 : Soon P) (h : ∀ s, 0 < s → P s → Q s) : Soon Q := by
  obtain ⟨e1, p1, q1⟩ := h1
  exact ⟨e1, p1, fun s hs hs' => h s hs (q1 s hs hs')⟩

theorem Spec.Soon.of_all {P : ℝ → Prop} (h : ∀ s, 0 < s → P s) : Soon P := ⟨1, one_pos, fun s hs _ => h s hs⟩

/-- the sign of a polynomial near zero -/
theorem soon_neg {c0 c1 c2 : ℝ} (h : c0 < 0 ∨ (c0 = 0 ∧ c1 < 0)) : Soon fun s => c0 + c1 * s + c2 * s ^ 2 < 0 := by
  rcases h with h | ⟨h0, h⟩
  · refine ⟨min 1 (-c0 / (|c1| + |c2| + 1)), lt_min one_pos (div_pos (by linarith) (by positivity)), fun s hs hs' => ?_⟩
    have s1 : s < 1 := lt_of_lt_of_le hs' (min_le_left _ _)
    have s2 : s < -c0 / (|c1| + |c2| + 1) := lt_of_lt_of_le hs' (min_le_right _ _)
    rw [lt_div_iff₀ (by positivity)] at s2
    have h1 : c1 * s ≤ |c1| * s := mul_le_mul_of_nonneg_right (le_abs_self c1) hs.le
    have h2 : c2 * s ^ 2 ≤ |c2| * s := by
      have : s ^ 2 ≤ s := by nlinarith
      calc c2 * s ^ 2 ≤ |c2| * s ^ 2 := mul_le_mul_of_nonneg_right (le_abs_self c2) (sq_nonneg s)
        _ ≤ |c2| * s := mul_le_mul_of_nonneg_left this (abs_nonneg _)
    nlinarith
  · refine ⟨-c1 / (|c2| + 1), div_pos (by linarith) (by positivity), fun s hs hs' => ?_⟩
    rw [lt_div_iff₀ (by positivity)] at hs'
    have h2 : c2 * s ≤ |c2| * s := mul_le_mul_of_nonneg_right (le_abs_self c2) hs.le
    have : c1 + c2 * s < 0 := by nlinarith
    nlinarith

theorem dot4_normalize {u : Vec4} (v : Vec4) : dot4 (normalize u) v = dot4 u v / norm4 u := by
  unfold dot4 normalize; ring

theorem norm4_pos_of {u : Vec4} (h : u 0 ≠ 0 ∨ u 1 ≠ 0 ∨ u 2 ≠ 0) : 0 < norm4 u := by
  unfold norm4
  apply Real.sqrt_pos.2
  rcases h with h | h | h <;> positivity

/-- from an unnormalised normal -/
theorem outward_of {inside closed : Vec4 → Prop} {q u : Vec4} (h3 : u 3 = 0) (hn : u 0 ≠ 0 ∨ u 1 ≠ 0 ∨ u 2 ≠ 0)
    (h : ∀ v : Vec4, v 3 = 0 → (dot4 u v < 0 → Soon fun s => inside (q + s • v)) ∧
      (0 < dot4 u v → Soon fun s => ¬ closed (q + s • v))) :
    OutwardNormal inside closed q (normalize u) := by
  have hp := norm4_pos_of hn
  refine ⟨by simp [normalize, h3], norm4_normalize hp, fun v hv => ?_⟩
  rw [dot4_normalize]
  refine ⟨fun hneg => (h v hv).1 ?_, fun hpos => (h v hv).2 ?_⟩
  · by_contra hc
    exact absurd hneg (not_lt.2 (div_nonneg (not_lt.1 hc) hp.le))
  · by_contra hc
    exact absurd hpos (not_lt.2 (div_nonpos_of_nonpos_of_nonneg (not_lt.1 hc) hp.le))

theorem cubeNormalComp_hi {sp : ℝ × ℝ} {x : ℝ} (h : isclose x sp.2) : cubeNormalComp sp x = 1 := by
  unfold cubeNormalComp; rw [if_pos h]

theorem cubeNormalComp_lo {sp : ℝ × ℝ} {x : ℝ} (h : ¬ isclose x sp.2) (h' : isclose x sp.1) : cubeNormalComp sp x = -1 := by
  unfold cubeNormalComp; rw [if_neg h, if_pos h']

theorem cubeNormalComp_none {sp : ℝ × ℝ} {x : ℝ} (h : ¬ isclose x sp.2) (h' : ¬ isclose x sp.1) : cubeNormalComp sp x = 0 := by
  unfold cubeNormalComp; rw [if_neg h, if_neg h']

theorem isclose_self (x : ℝ) : isclose x x := by
  unfold isclose; simp; positivity

theorem sphere_outward {r : ℝ} {x : Vec4} (h : SmoothPoint (.sphere r) x) :
    OutwardNormal (Interior (.sphere r)) (Closed (.sphere r)) x ((Prim.sphere r).normal x) := by
  obtain ⟨hr, hx⟩ := h
  refine outward_of (by simp) ?_ fun v hv => ?_
  · by_contra hc
    push Not at hc
    simp at hc
    rw [hc.1, hc.2.1, hc.2.2] at hx
    nlinarith
  · have e : ∀ s : ℝ, (x + s • v) 0 ^ 2 + (x + s • v) 1 ^ 2 + (x + s • v) 2 ^ 2 =
        r ^ 2 + (2 * (x 0 * v 0 + x 1 * v 1 + x 2 * v 2)) * s + (v 0 ^ 2 + v 1 ^ 2 + v 2 ^ 2) * s ^ 2 := by
      intro s; simp only [Pi.add_apply, Pi.smul_apply, smul_eq_mul]; rw [← hx]; ring
    simp only [dot4, cons_val]
    constructor
    · intro hneg
      refine (soon_neg (c0 := 0) (c1 := 2 * (x 0 * v 0 + x 1 * v 1 + x 2 * v 2)) (c2 := v 0 ^ 2 + v 1 ^ 2 + v 2 ^ 2)
        (Or.inr ⟨rfl, by linarith⟩)).imp fun s _ hs => ?_
      simp only [Interior]; rw [e]; linarith
    · intro hpos
      refine Soon.of_all fun s hs => ?_
      simp only [Closed]; rw [e]
      have : 0 < 2 * (x 0 * v 0 + x 1 * v 1 + x 2 * v 2) * s := by
        apply mul_pos _ hs; linarith
      have : 0 ≤ (v 0 ^ 2 + v 1 ^ 2 + v 2 ^ 2) * s ^ 2 := by positivity
      linarith

theorem z_outward_up {inside closed : Vec4 → Prop} {x : Vec4} (hx : ∀ v : Vec4, v 3 = 0 →
    (v 2 < 0 → Soon fun s => inside (x + s • v)) ∧ (0 < v 2 → Soon fun s => ¬ closed (x + s • v))) :
    OutwardNormal inside closed x (normalize ![0, 0, 1, 0]) := by
  refine outward_of (by simp) (by simp) fun v hv => ?_
  have : dot4 ![0, 0, 1, 0] v = v 2 := by simp [dot4]
  rw [this]
  exact hx v hv

theorem z_outward_down {inside closed : Vec4 → Prop} {x : Vec4} (hx : ∀ v : Vec4, v 3 = 0 →
    (0 < v 2 → Soon fun s => inside (x + s • v)) ∧ (v 2 < 0 → Soon fun s => ¬ closed (x + s • v))) :
    OutwardNormal inside closed x (normalize ![0, 0, -1, 0]) := by
  refine outward_of (by simp) (by simp) fun v hv => ?_
  have : dot4 ![0, 0, -1, 0] v = - v 2 := by simp [dot4]
  rw [this]
  exact ⟨fun h => (hx v hv).1 (by linarith), fun h => (hx v hv).2 (by linarith)⟩

theorem paraboloid_outward {f h : ℝ} {x : Vec4} (hs : SmoothPoint (.paraboloid f h) x) :
    OutwardNormal (Interior (.paraboloid f h)) (Closed (.paraboloid f h)) x ((Prim.paraboloid f h).normal x) := by
  obtain ⟨hf, ⟨hx, hz, hc⟩ | ⟨hz, hx⟩⟩ := hs
  · have hcurve : ∀ (v : Vec4) (s : ℝ), (x + s • v) 0 ^ 2 + (x + s • v) 1 ^ 2 - 4 * f * (x + s • v) 2 =
        0 + (2 * (x 0 * v 0 + x 1 * v 1 - 2 * f * v 2)) * s + (v 0 ^ 2 + v 1 ^ 2) * s ^ 2 := by
      intro v s; simp only [Pi.add_apply, Pi.smul_apply, smul_eq_mul]
      linear_combination hx
    simp only [Prim.normal, if_neg hc]
    refine outward_of (by simp) (by simp [hf.ne']) fun v hv => ?_
    simp only [dot4, cons_val]
    constructor
    · intro hneg
      have h1 := soon_neg (c0 := 0) (c1 := 2 * (x 0 * v 0 + x 1 * v 1 - 2 * f * v 2)) (c2 := v 0 ^ 2 + v 1 ^ 2)
        (Or.inr ⟨rfl, by linarith⟩)
      have h2 := soon_neg (c0 := x 2 - h) (c1 := v 2) (c2 := 0) (Or.inl (by linarith))
      refine (h1.and h2).imp fun s _ hs => ⟨?_, ?_⟩
      · have := hcurve v s; linarith [hs.1]
      · simp only [Pi.add_apply, Pi.smul_apply, smul_eq_mul]; linarith [hs.2]
    · intro hpos
      refine Soon.of_all fun s hs hcl => ?_
      have := hcurve v s
      have h1 : 0 < 2 * (x 0 * v 0 + x 1 * v 1 - 2 * f * v 2) * s := by apply mul_pos _ hs; linarith
      have h2 : 0 ≤ (v 0 ^ 2 + v 1 ^ 2) * s ^ 2 := by positivity
      linarith [hcl.1]
  · have hc : isclose (x 2) h := by rw [hz]; exact isclose_self h
    simp only [Prim.normal, if_pos hc]
    refine z_outward_up fun v hv => ⟨fun hneg => ?_, fun hpos => ?_⟩
    · have h1 := soon_neg (c0 := x 0 ^ 2 + x 1 ^ 2 - 4 * f * h) (c1 := 2 * (x 0 * v 0 + x 1 * v 1 - 2 * f * v 2))
        (c2 := v 0 ^ 2 + v 1 ^ 2) (Or.inl (by linarith))
      refine h1.imp fun s hs0 hs => ⟨?_, ?_⟩
      · simp only [Pi.add_apply, Pi.smul_apply, smul_eq_mul, hz]
        linarith
      · simp only [Pi.add_apply, Pi.smul_apply, smul_eq_mul, hz]
        nlinarith
    · refine Soon.of_all fun s hs hcl => ?_
      have := hcl.2
      simp only [Pi.add_apply, Pi.smul_apply, smul_eq_mul, hz] at this
      nlinarith

theorem cylinder_outward {r lo hi : ℝ} {x : Vec4} (hs : SmoothPoint (.cylinder r lo hi) x) :
    OutwardNormal (Interior (.cylinder r lo hi)) (Closed (.cylinder r lo hi)) x ((Prim.cylinder r lo hi).normal x) := by
  obtain ⟨hr, hlt, h⟩ := hs
  have hcurve : ∀ (v : Vec4) (s : ℝ), (x + s • v) 0 ^ 2 + (x + s • v) 1 ^ 2 - r ^ 2 =
      (x 0 ^ 2 + x 1 ^ 2 - r ^ 2) + (2 * (x 0 * v 0 + x 1 * v 1)) * s + (v 0 ^ 2 + v 1 ^ 2) * s ^ 2 := by
    intro v s; simp only [Pi.add_apply, Pi.smul_apply, smul_eq_mul]
    ring
  have hz2 : ∀ (v : Vec4) (s : ℝ), (x + s • v) 2 = x 2 + s * v 2 := fun v s => by simp
  have hIn : ∀ y : Vec4, Interior (.cylinder r lo hi) y ↔ y 0 ^ 2 + y 1 ^ 2 < r ^ 2 ∧ lo < y 2 ∧ y 2 < hi := by
    intro y; simp only [Interior, min_eq_left hlt.le, max_eq_right hlt.le]
  have hCl : ∀ y : Vec4, Closed (.cylinder r lo hi) y ↔ y 0 ^ 2 + y 1 ^ 2 ≤ r ^ 2 ∧ lo ≤ y 2 ∧ y 2 ≤ hi := by
    intro y; simp only [Closed, min_eq_left hlt.le, max_eq_right hlt.le]
  simp only [Prim.normal]
  rcases h with ⟨hx, h1, h2, h3, h4⟩ | ⟨hz, hx⟩ | ⟨hz, hx, hc⟩
  · rw [if_neg h4, if_neg h3]
    refine outward_of (by simp) ?_ fun v hv => ?_
    · by_contra hc
      push Not at hc
      simp at hc
      rw [hc.1, hc.2] at hx
      nlinarith
    · simp only [dot4, cons_val]
      constructor
      · intro hneg
        have k1 := soon_neg (c0 := x 0 ^ 2 + x 1 ^ 2 - r ^ 2) (c1 := 2 * (x 0 * v 0 + x 1 * v 1)) (c2 := v 0 ^ 2 + v 1 ^ 2)
          (Or.inr ⟨by linarith, by linarith⟩)
        have k2 := soon_neg (c0 := x 2 - hi) (c1 := v 2) (c2 := 0) (Or.inl (by linarith))
        have k3 := soon_neg (c0 := lo - x 2) (c1 := - v 2) (c2 := 0) (Or.inl (by linarith))
        refine (k1.and (k2.and k3)).imp fun s _ hs => ?_
        rw [hIn]
        refine ⟨?_, ?_, ?_⟩
        · linarith [hcurve v s, hs.1]
        · rw [hz2]; linarith [hs.2.2]
        · rw [hz2]; linarith [hs.2.1]
      · intro hpos
        refine Soon.of_all fun s hs hcl => ?_
        rw [hCl] at hcl
        have := hcurve v s
        have k1 : 0 < 2 * (x 0 * v 0 + x 1 * v 1) * s := by apply mul_pos _ hs; linarith
        have k2 : 0 ≤ (v 0 ^ 2 + v 1 ^ 2) * s ^ 2 := by positivity
        linarith [hcl.1]
  · rw [if_pos (by rw [hz]; exact isclose_self hi)]
    refine z_outward_up fun v hv => ⟨fun hneg => ?_, fun hpos => ?_⟩
    · have k1 := soon_neg (c0 := x 0 ^ 2 + x 1 ^ 2 - r ^ 2) (c1 := 2 * (x 0 * v 0 + x 1 * v 1)) (c2 := v 0 ^ 2 + v 1 ^ 2)
        (Or.inl (by linarith))
      have k3 := soon_neg (c0 := lo - x 2) (c1 := - v 2) (c2 := 0) (Or.inl (by linarith))
      refine (k1.and k3).imp fun s hs0 hs => ?_
      rw [hIn]
      refine ⟨by linarith [hcurve v s, hs.1], ?_, ?_⟩
      · rw [hz2]; linarith [hs.2]
      · rw [hz2, hz]; nlinarith
    · refine Soon.of_all fun s hs hcl => ?_
      rw [hCl, hz2, hz] at hcl
      nlinarith [hcl.2.2]
  · rw [if_neg (by rw [hz]; exact hc), if_pos (by rw [hz]; exact isclose_self lo)]
    refine z_outward_down fun v hv => ⟨fun hpos => ?_, fun hneg => ?_⟩
    · have k1 := soon_neg (c0 := x 0 ^ 2 + x 1 ^ 2 - r ^ 2) (c1 := 2 * (x 0 * v 0 + x 1 * v 1)) (c2 := v 0 ^ 2 + v 1 ^ 2)
        (Or.inl (by linarith))
      have k3 := soon_neg (c0 := x 2 - hi) (c1 := v 2) (c2 := 0) (Or.inl (by linarith))
      refine (k1.and k3).imp fun s hs0 hs => ?_
      rw [hIn]
      refine ⟨by linarith [hcurve v s, hs.1], ?_, ?_⟩
      · rw [hz2, hz]; nlinarith
      · rw [hz2]; linarith [hs.2]
    · refine Soon.of_all fun s hs hcl => ?_
      rw [hCl, hz2, hz] at hcl
      nlinarith [hcl.2.1]

theorem cube_outward {a b : Fin 3 → ℝ} {x : Vec4} (hs : SmoothPoint (.cube a b) x) :
    OutwardNormal (Interior (.cube a b)) (Closed (.cube a b)) x ((Prim.cube a b).normal x) := by
  obtain ⟨i, hab, hi, hj⟩ := hs
  have hlt : min (a i) (b i) < max (a i) (b i) := min_lt_max.2 hab
  have hcomp : ∀ j, j ≠ i → cubeNormalComp (cubeSpans a b j) (x j.castSucc) = 0 := by
    intro j hne
    obtain ⟨-, -, h3, h4⟩ := hj j hne
    exact cubeNormalComp_none h4 h3
  have hz : ∀ (v : Vec4) (s : ℝ) (j : Fin 3), (x + s • v) j.castSucc = x j.castSucc + s * v j.castSucc := fun v s j => by simp
  have hother : ∀ v : Vec4, Soon fun s => ∀ j, j ≠ i → min (a j) (b j) < (x + s • v) j.castSucc ∧
      (x + s • v) j.castSucc < max (a j) (b j) := by
    intro v
    have key : ∀ j : Fin 3, Soon fun s => j ≠ i → min (a j) (b j) < (x + s • v) j.castSucc ∧
        (x + s • v) j.castSucc < max (a j) (b j) := by
      intro j
      by_cases hne : j = i
      · exact Soon.of_all fun s _ h => absurd hne h
      · obtain ⟨h1, h2, -, -⟩ := hj j hne
        have k1 := soon_neg (c0 := min (a j) (b j) - x j.castSucc) (c1 := - v j.castSucc) (c2 := 0) (Or.inl (by linarith))
        have k2 := soon_neg (c0 := x j.castSucc - max (a j) (b j)) (c1 := v j.castSucc) (c2 := 0) (Or.inl (by linarith))
        refine (k1.and k2).imp fun s _ hs _ => ?_
        rw [hz]
        constructor <;> linarith [hs.1, hs.2]
    refine ((key 0).and ((key 1).and (key 2))).imp fun s _ hs j => ?_
    fin_cases j
    · exact hs.1
    · exact hs.2.1
    · exact hs.2.2
  set c := cubeNormalComp (cubeSpans a b i) (x i.castSucc) with hcdef
  have hc : (c = 1 ∧ x i.castSucc = max (a i) (b i)) ∨ (c = -1 ∧ x i.castSucc = min (a i) (b i)) := by
    rcases hi with h | ⟨h, hn⟩
    · left
      refine ⟨?_, h⟩
      rw [hcdef, h]
      exact cubeNormalComp_hi (isclose_self _)
    · right
      refine ⟨?_, h⟩
      rw [hcdef, h]
      exact cubeNormalComp_lo hn (isclose_self _)
  have main : ∀ v : Vec4, v 3 = 0 → (c * v i.castSucc < 0 → Soon fun s => Interior (.cube a b) (x + s • v)) ∧
      (0 < c * v i.castSucc → Soon fun s => ¬ Closed (.cube a b) (x + s • v)) := by
    intro v hv
    constructor
    · intro hneg
      have k : Soon fun s => min (a i) (b i) < (x + s • v) i.castSucc ∧ (x + s • v) i.castSucc < max (a i) (b i) := by
        rcases hc with ⟨h1, h2⟩ | ⟨h1, h2⟩
        · rw [h1] at hneg
          have k1 := soon_neg (c0 := min (a i) (b i) - max (a i) (b i)) (c1 := - v i.castSucc) (c2 := 0) (Or.inl (by linarith))
          refine k1.imp fun s hs0 hs => ?_
          rw [hz, h2]
          constructor
          · linarith
          · nlinarith
        · rw [h1] at hneg
          have k1 := soon_neg (c0 := min (a i) (b i) - max (a i) (b i)) (c1 := v i.castSucc) (c2 := 0) (Or.inl (by linarith))
          refine k1.imp fun s hs0 hs => ?_
          rw [hz, h2]
          constructor
          · nlinarith
          · linarith
      refine (k.and (hother v)).imp fun s _ hs j => ?_
      by_cases hji : j = i
      · rw [hji]; exact hs.1
      · exact hs.2 j hji
    · intro hpos
      refine Soon.of_all fun s hs hcl => ?_
      have := hcl i
      rw [hz] at this
      rcases hc with ⟨h1, h2⟩ | ⟨h1, h2⟩
      · rw [h1] at hpos; rw [h2] at this; nlinarith [this.2]
      · rw [h1] at hpos; rw [h2] at this; nlinarith [this.1]
  have cne : c ≠ 0 := by rcases hc with h | h <;> rw [h.1] <;> norm_num
  simp only [Prim.normal]
  have i0 := hcomp 0; have i1 := hcomp 1; have i2 := hcomp 2
  change 0 ≠ i → cubeNormalComp (cubeSpans a b 0) (x 0) = 0 at i0
  change 1 ≠ i → cubeNormalComp (cubeSpans a b 1) (x 1) = 0 at i1
  change 2 ≠ i → cubeNormalComp (cubeSpans a b 2) (x 2) = 0 at i2
  rcases (by omega : i = 0 ∨ i = 1 ∨ i = 2) with rfl | rfl | rfl
  · rw [i1 (by decide), i2 (by decide)]
    refine outward_of (by simp) (Or.inl cne) fun v hv => ?_
    have : dot4 ![c, 0, 0, 0] v = c * v 0 := by simp [dot4]
    change (dot4 ![c, 0, 0, 0] v < 0 → _) ∧ (0 < dot4 ![c, 0, 0, 0] v → _)
    rw [this]; exact main v hv
  · rw [i0 (by decide), i2 (by decide)]
    refine outward_of (by simp) (Or.inr (Or.inl cne)) fun v hv => ?_
    have : dot4 ![0, c, 0, 0] v = c * v 1 := by simp [dot4]
    change (dot4 ![0, c, 0, 0] v < 0 → _) ∧ (0 < dot4 ![0, c, 0, 0] v → _)
    rw [this]; exact main v hv
  · rw [i0 (by decide), i1 (by decide)]
    refine outward_of (by simp) (Or.inr (Or.inr cne)) fun v hv => ?_
    have : dot4 ![0, 0, c, 0] v = c * v 2 := by simp [dot4]
    change (dot4 ![0, 0, c, 0] v < 0 → _) ∧ (0 < dot4 ![0, 0, c, 0] v → _)
    rw [this]; exact main v hv

theorem prim_outward {p : Prim} {x : Vec4} (hs : SmoothPoint p x) : OutwardNormal (Interior p) (Closed p) x (p.normal x) := by
  cases p with
  | sphere r => exact sphere_outward hs
  | paraboloid f h => exact paraboloid_outward hs
  | plane w l => exact hs.elim
  | cube a b => exact cube_outward hs
  | cylinder r lo hi => exact cylinder_outward hs

theorem dot_zeroW_transpose (m : Mat4) (n v : Vec4) (hv : v 3 = 0) : dot4 (zeroW (mᵀ *ᵥ n)) v = dot4 n (m *ᵥ v) := by
  simp only [dot4, zeroW, mulVec4, transpose_apply, cons_val, hv]
  ring

/-- the transposed inverse carries outward normals to outward normals -/
theorem outward_map {inside closed : Vec4 → Prop} {w : Mat4} (hw : Affine w) {q n : Vec4}
    (hn : OutwardNormal inside closed (w⁻¹ *ᵥ q) n) :
    OutwardNormal (fun y => inside (w⁻¹ *ᵥ y)) (fun y => closed (w⁻¹ *ᵥ y)) q (normalize (zeroW (w⁻¹ᵀ *ᵥ n))) := by
  obtain ⟨h3, h1, h⟩ := hn
  have hu : IsUnit w.det := isUnit_iff_ne_zero.2 hw.2
  have hinv3 : ∀ v : Vec4, (w⁻¹ *ᵥ v) 3 = v 3 := by
    intro v
    rw [← affine_three hw (w⁻¹ *ᵥ v), mulVec_mulVec, mul_nonsing_inv _ hu, one_mulVec]
  refine outward_of rfl ?_ fun v hv => ?_
  · by_contra hc
    push Not at hc
    have e := dot_zeroW_transpose w⁻¹ n (w *ᵥ n) (by rw [affine_three hw, h3])
    rw [mulVec_mulVec, nonsing_inv_mul _ hu, one_mulVec] at e
    have z : dot4 (zeroW (w⁻¹ᵀ *ᵥ n)) (w *ᵥ n) = 0 := by
      unfold dot4; rw [hc.1, hc.2.1, hc.2.2]; simp [zeroW]
    rw [z] at e
    unfold norm4 at h1
    have : n 0 ^ 2 + n 1 ^ 2 + n 2 ^ 2 + n 3 ^ 2 = 0 := by unfold dot4 at e; nlinarith
    rw [this] at h1
    simp at h1
  · rw [dot_zeroW_transpose _ _ _ hv]
    have key := h (w⁻¹ *ᵥ v) (by rw [hinv3, hv])
    have e : ∀ s : ℝ, w⁻¹ *ᵥ (q + s • v) = w⁻¹ *ᵥ q + s • (w⁻¹ *ᵥ v) := fun s => by rw [mulVec_add, mulVec_smul]
    simp only [e]
    exact key

end PyRayT
