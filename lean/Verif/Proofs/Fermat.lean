import Mathlib.Analysis.Calculus.Deriv.Pow
import Mathlib.Analysis.Calculus.Deriv.Mul
import Mathlib.Analysis.Calculus.Deriv.Add
import Mathlib.Analysis.Calculus.Deriv.Prod
import Mathlib.Analysis.SpecialFunctions.Sqrt
import Verif.Spec.Fermat
import Verif.Proofs.View
import Verif.Model.Scene

/-!
# Curves on surfaces are perpendicular to the normal

For C100.
-/

namespace PyRayT

open Classical Matrix Spec Topology Filter

theorem flat {F : ℝ → ℝ} {c : ℝ} (h : HasDerivAt F c 0) (h0 : ∀ᶠ s in 𝓝 (0 : ℝ), F s = 0) : c = 0 :=
  h.unique ((hasDerivAt_const (0 : ℝ) (0 : ℝ)).congr_of_eventuallyEq h0)

theorem dot4_normalize_zero {u v : Vec4} (h : dot4 u v = 0) : dot4 (normalize u) v = 0 := by
  rw [dot4_normalize, h, zero_div]

/-- A curve on the surface of a primitive is perpendicular to the normal. -/
theorem prim_tangent {p : Prim} {x : Vec4} (hs : SmoothPoint p x ∨ ∃ w l, p = .plane w l) {y : ℝ → Vec4} {v : Vec4} (hy : HasDerivAt y v 0)
    (h0 : y 0 = x) (hb : ∀ᶠ s in 𝓝 (0 : ℝ), Closed p (y s) ∧ ¬ Interior p (y s)) : dot4 (p.normal x) v = 0 := by
  have hyi : ∀ i, HasDerivAt (fun s => y s i) (v i) 0 := hasDerivAt_pi.1 hy
  have hc : ∀ i, ContinuousAt (fun s => y s i) 0 := fun i => (hyi i).continuousAt
  have lt : ∀ i (b : ℝ), x i < b → ∀ᶠ s in 𝓝 (0 : ℝ), y s i < b := fun i b h =>
    (hc i).eventually_lt_const (by show y 0 i < b; rw [h0]; exact h)
  have gt : ∀ i (b : ℝ), b < x i → ∀ᶠ s in 𝓝 (0 : ℝ), b < y s i := fun i b h =>
    (hc i).eventually_const_lt (by show b < y 0 i; rw [h0]; exact h)
  rcases hs with hs | ⟨w, l, rfl⟩
  swap
  · have : v 2 = 0 := flat (hyi 2) (hb.mono fun s h => h.1.1)
    simp [Prim.normal, dot4, this]
  cases p with
  | plane w l => exact hs.elim
  | sphere r =>
    have hd := ((((hyi 0).pow 2).add ((hyi 1).pow 2)).add ((hyi 2).pow 2)).sub_const (r ^ 2)
    have := flat hd (hb.mono fun s h => by
      have h1 := h.1
      have h2 := h.2
      simp only [Closed, Interior, not_lt] at h1 h2
      simp only [Pi.add_apply, Pi.pow_apply]
      linarith)
    simp only [h0] at this
    refine dot4_normalize_zero ?_
    simp only [dot4, cons_val]
    norm_num at this
    linarith
  | paraboloid f h =>
    obtain ⟨hf, ⟨hx, hz, hcl⟩ | ⟨hz, hx⟩⟩ := hs
    · have hd := (((hyi 0).pow 2).add ((hyi 1).pow 2)).sub ((hyi 2).const_mul (4 * f))
      have := flat hd ((hb.and (lt 2 h hz)).mono fun s h => by
        obtain ⟨⟨h1, h2⟩, h3⟩ := h
        simp only [Closed, Interior, not_and, not_lt] at h1 h2
        have h4 : 4 * f * y s 2 ≤ y s 0 ^ 2 + y s 1 ^ 2 := by
          by_contra hcon
          exact absurd (h2 (not_le.1 hcon)) (not_le.2 h3)
        simp only [Pi.add_apply, Pi.sub_apply, Pi.pow_apply]
        linarith [h1.1])
      simp only [Prim.normal, if_neg hcl]
      refine dot4_normalize_zero ?_
      simp only [h0] at this
      simp only [dot4, cons_val]
      norm_num at this
      linarith
    · have hq : ContinuousAt (fun s => y s 0 ^ 2 + y s 1 ^ 2 - 4 * f * y s 2) 0 :=
        (((hc 0).pow 2).add ((hc 1).pow 2)).sub ((hc 2).const_mul (4 * f))
      have hin : ∀ᶠ s in 𝓝 (0 : ℝ), y s 0 ^ 2 + y s 1 ^ 2 - 4 * f * y s 2 < 0 :=
        hq.eventually_lt_const (by show y 0 0 ^ 2 + y 0 1 ^ 2 - 4 * f * y 0 2 < 0; rw [h0, hz]; linarith)
      have : v 2 = 0 := flat ((hyi 2).sub_const h) ((hb.and hin).mono fun s hh => by
        obtain ⟨⟨h1, h2⟩, h3⟩ := hh
        simp only [Closed, Interior, not_and, not_lt] at h1 h2
        have := h2 (by linarith)
        linarith [h1.2])
      simp only [Prim.normal, if_pos (show isclose (x 2) h by rw [hz]; exact isclose_self h)]
      exact dot4_normalize_zero (by simp [dot4, this])
  | cylinder r lo hi =>
    obtain ⟨hr, hlt, h⟩ := hs
    have hIn : ∀ y : Vec4, Interior (.cylinder r lo hi) y ↔ y 0 ^ 2 + y 1 ^ 2 < r ^ 2 ∧ lo < y 2 ∧ y 2 < hi := by
      intro y; simp only [Interior, min_eq_left hlt.le, max_eq_right hlt.le]
    have hCl : ∀ y : Vec4, Closed (.cylinder r lo hi) y ↔ y 0 ^ 2 + y 1 ^ 2 ≤ r ^ 2 ∧ lo ≤ y 2 ∧ y 2 ≤ hi := by
      intro y; simp only [Closed, min_eq_left hlt.le, max_eq_right hlt.le]
    simp only [hIn, hCl] at hb
    have hq : ContinuousAt (fun s => y s 0 ^ 2 + y s 1 ^ 2) 0 := ((hc 0).pow 2).add ((hc 1).pow 2)
    simp only [Prim.normal]
    rcases h with ⟨hx, h1, h2, h3, h4⟩ | ⟨hz, hx⟩ | ⟨hz, hx, hcl⟩
    · have hd := (((hyi 0).pow 2).add ((hyi 1).pow 2)).sub_const (r ^ 2)
      have := flat hd ((hb.and ((gt 2 lo h1).and (lt 2 hi h2))).mono fun s h => by
        obtain ⟨⟨k1, k2⟩, k3, k4⟩ := h
        have : ¬ y s 0 ^ 2 + y s 1 ^ 2 < r ^ 2 := fun hh => k2 ⟨hh, k3, k4⟩
        simp only [Pi.add_apply, Pi.pow_apply]
        linarith [k1.1])
      rw [if_neg h4, if_neg h3]
      refine dot4_normalize_zero ?_
      simp only [h0] at this
      simp only [dot4, cons_val]
      norm_num at this
      linarith
    · have hin : ∀ᶠ s in 𝓝 (0 : ℝ), y s 0 ^ 2 + y s 1 ^ 2 < r ^ 2 := hq.eventually_lt_const (by show y 0 0 ^ 2 + y 0 1 ^ 2 < r ^ 2; rw [h0]; exact hx)
      have : v 2 = 0 := flat ((hyi 2).sub_const hi) ((hb.and (hin.and (gt 2 lo (by linarith)))).mono fun s h => by
        obtain ⟨⟨k1, k2⟩, k3, k4⟩ := h
        have : ¬ y s 2 < hi := fun hh => k2 ⟨k3, k4, hh⟩
        linarith [k1.2.2])
      rw [if_pos (by rw [hz]; exact isclose_self hi)]
      exact dot4_normalize_zero (by simp [dot4, this])
    · have hin : ∀ᶠ s in 𝓝 (0 : ℝ), y s 0 ^ 2 + y s 1 ^ 2 < r ^ 2 := hq.eventually_lt_const (by show y 0 0 ^ 2 + y 0 1 ^ 2 < r ^ 2; rw [h0]; exact hx)
      have : v 2 = 0 := flat ((hyi 2).sub_const lo) ((hb.and (hin.and (lt 2 hi (by linarith)))).mono fun s h => by
        obtain ⟨⟨k1, k2⟩, k3, k4⟩ := h
        have : ¬ lo < y s 2 := fun hh => k2 ⟨k3, hh, k4⟩
        linarith [k1.2.1])
      rw [if_neg (by rw [hz]; exact hcl), if_pos (by rw [hz]; exact isclose_self lo)]
      exact dot4_normalize_zero (by simp [dot4, this])
  | cube a b =>
    obtain ⟨i, hab, hi, hj⟩ := hs
    have hlt : min (a i) (b i) < max (a i) (b i) := min_lt_max.2 hab
    have hcomp : ∀ j, j ≠ i → cubeNormalComp (cubeSpans a b j) (x j.castSucc) = 0 := by
      intro j hne
      obtain ⟨-, -, h3, h4⟩ := hj j hne
      exact cubeNormalComp_none h4 h3
    have hother : ∀ᶠ s in 𝓝 (0 : ℝ), ∀ j, j ≠ i → min (a j) (b j) < y s j.castSucc ∧ y s j.castSucc < max (a j) (b j) := by
      rw [eventually_all]
      intro j
      by_cases hne : j = i
      · exact Eventually.of_forall fun s h => absurd hne h
      · obtain ⟨h1, h2, -, -⟩ := hj j hne
        exact ((gt _ _ h1).and (lt _ _ h2)).mono fun s h _ => h
    have hedge : ∀ᶠ s in 𝓝 (0 : ℝ), (min (a i) (b i) ≤ y s i.castSucc ∧ y s i.castSucc ≤ max (a i) (b i)) ∧
        ¬ (min (a i) (b i) < y s i.castSucc ∧ y s i.castSucc < max (a i) (b i)) :=
      (hb.and hother).mono fun s h => ⟨h.1.1 i, fun hh => h.1.2 fun j => by
        by_cases hji : j = i
        · rw [hji]; exact hh
        · exact h.2 j hji⟩
    have hv : v i.castSucc = 0 := by
      rcases hi with h | ⟨h, -⟩
      · exact flat ((hyi i.castSucc).sub_const (max (a i) (b i))) ((hedge.and (gt i.castSucc _ (by rw [h]; exact hlt))).mono fun s h => by
          obtain ⟨⟨k1, k2⟩, k3⟩ := h
          have : ¬ y s i.castSucc < max (a i) (b i) := fun hh => k2 ⟨k3, hh⟩
          linarith [k1.2])
      · exact flat ((hyi i.castSucc).sub_const (min (a i) (b i))) ((hedge.and (lt i.castSucc _ (by rw [h]; exact hlt))).mono fun s h => by
          obtain ⟨⟨k1, k2⟩, k3⟩ := h
          have : ¬ min (a i) (b i) < y s i.castSucc := fun hh => k2 ⟨hh, k3⟩
          linarith [k1.1])
    simp only [Prim.normal]
    refine dot4_normalize_zero ?_
    have i0 := hcomp 0; have i1 := hcomp 1; have i2 := hcomp 2
    change 0 ≠ i → cubeNormalComp (cubeSpans a b 0) (x 0) = 0 at i0
    change 1 ≠ i → cubeNormalComp (cubeSpans a b 1) (x 1) = 0 at i1
    change 2 ≠ i → cubeNormalComp (cubeSpans a b 2) (x 2) = 0 at i2
    rcases (by omega : i = 0 ∨ i = 1 ∨ i = 2) with rfl | rfl | rfl
    · rw [i1 (by decide), i2 (by decide)]
      have : v 0 = 0 := hv
      simp [dot4, this]
    · rw [i0 (by decide), i2 (by decide)]
      have : v 1 = 0 := hv
      simp [dot4, this]
    · rw [i0 (by decide), i1 (by decide)]
      have : v 2 = 0 := hv
      simp [dot4, this]

/-- A curve on a placed surface is perpendicular to its normal. -/
theorem surface_tangent {argsort : List EReal → List ℕ} {fuel : ℕ} {h : Heap} (hr : Reaches argsort fuel Heap.empty h) {x : ℕ} (hx : x < h.size)
    {p : Prim} (hk : (h.obj x).kind = .prim p) {Q : ℝ → Vec4} {u : Vec4} (hQ : HasDerivAt Q u 0) (h3 : ∀ s, Q s 3 = 1)
    (hs : SmoothPoint p ((h.obj x).world⁻¹ *ᵥ Q 0) ∨ ∃ w l, p = .plane w l)
    (hb : ∀ᶠ s in 𝓝 (0 : ℝ), OnBoundary (.leaf p (h.obj x).world) (Q s)) : dot4 (surfaceNormal h x (Q 0)) u = 0 := by
  have hi := reaches_inv argsort empty_inv hr
  obtain ⟨hdet, hobj, -⟩ := hi.synced x hx
  have hu3 : u 3 = 0 := by
    have := hasDerivAt_pi.1 hQ 3
    simp only [h3] at this
    exact this.unique (hasDerivAt_const _ _)
  have hy : HasDerivAt (fun s => (h.obj x).world⁻¹ *ᵥ Q s) ((h.obj x).world⁻¹ *ᵥ u) 0 := by
    have hQi := hasDerivAt_pi.1 hQ
    refine hasDerivAt_pi.2 fun i => ?_
    simp only [mulVec4]
    exact ((((hQi 0).const_mul _).add ((hQi 1).const_mul _)).add ((hQi 2).const_mul _)).add ((hQi 3).const_mul _)
  have key := prim_tangent hs hy rfl (hb.mono fun s hh => by
    obtain ⟨h1, h2⟩ := hh
    rw [leaf_interior_iff hdet] at h1
    rw [leaf_outside_iff hdet, not_not] at h2
    exact ⟨h2, h1⟩)
  simp only [surfaceNormal, hk, worldNormal, hobj]
  have e : dot4 ((h.obj x).nscale • normalize (zeroW ((h.obj x).world⁻¹ᵀ *ᵥ p.normal ((h.obj x).world⁻¹ *ᵥ Q 0)))) u =
      (h.obj x).nscale * dot4 (normalize (zeroW ((h.obj x).world⁻¹ᵀ *ᵥ p.normal ((h.obj x).world⁻¹ *ᵥ Q 0)))) u := by
    simp only [dot4, Pi.smul_apply, smul_eq_mul]; ring
  rw [e, dot4_normalize, dot_zeroW_transpose _ _ _ hu3, key, zero_div, mul_zero]

/-- derivative of a length -/
theorem hasDerivAt_norm {V : ℝ → Fin 3 → ℝ} {V' : Fin 3 → ℝ} (hV : ∀ i, HasDerivAt (fun s => V s i) (V' i) 0) {L : ℝ} {e : Fin 3 → ℝ} (hL : 0 < L)
    (he : e 0 ^ 2 + e 1 ^ 2 + e 2 ^ 2 = 1) (h0 : ∀ i, V 0 i = L * e i) :
    HasDerivAt (fun s => √(V s 0 ^ 2 + V s 1 ^ 2 + V s 2 ^ 2)) (e 0 * V' 0 + e 1 * V' 1 + e 2 * V' 2) 0 := by
  have hsq : V 0 0 ^ 2 + V 0 1 ^ 2 + V 0 2 ^ 2 = L ^ 2 := by rw [h0, h0, h0]; linear_combination L ^ 2 * he
  have hd := ((((hV 0).pow 2).add ((hV 1).pow 2)).add ((hV 2).pow 2)).sqrt (by
    simp only [Pi.add_apply, Pi.pow_apply]; rw [hsq]; positivity)
  simp only [Pi.add_apply, Pi.pow_apply] at hd
  rw [hsq, Real.sqrt_sq hL.le, h0, h0, h0] at hd
  refine hd.congr_deriv ?_
  field_simp
  norm_num
  ring

end PyRayT
