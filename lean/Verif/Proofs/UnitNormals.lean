import Verif.Proofs.Normals
import Verif.Proofs.PrimAll
import Verif.Proofs.Scene

/-! Helper lemmas for C74: the normal at a reported hit is not the zero vector. No condition on the ray is needed. -/

namespace PyRayT

open Classical Matrix Spec

/-- a finite value of a sorted pair is one of the pair -/
theorem sort2_mem {h : EReal × EReal} {t : EReal} (ht : t = (sort2 h).1 ∨ t = (sort2 h).2) : t = h.1 ∨ t = h.2 := by
  rcases ht with e | e
  · rcases min_choice h.1 h.2 with m | m <;> rw [sort2_fst, m] at e <;> simp [e]
  · rcases max_choice h.1 h.2 with m | m <;> rw [sort2_snd, m] at e <;> simp [e]

theorem clipHits_mem {side caps : EReal × EReal} {t : ℝ} (ht : (t : EReal) = (clipHits side caps).1 ∨ (t : EReal) = (clipHits side caps).2) :
    ((t : EReal) = side.1 ∨ (t : EReal) = side.2) ∨ ((t : EReal) = caps.1 ∨ (t : EReal) = caps.2) := by
  unfold clipHits at ht
  dsimp only at ht
  split_ifs at ht with hle
  · rcases ht with e | e
    · rcases max_choice (sort2 side).1 (sort2 caps).1 with m | m <;> rw [m] at e
      · exact Or.inl (sort2_mem (Or.inl e))
      · exact Or.inr (sort2_mem (Or.inl e))
    · rcases min_choice (sort2 side).2 (sort2 caps).2 with m | m <;> rw [m] at e
      · exact Or.inl (sort2_mem (Or.inr e))
      · exact Or.inr (sort2_mem (Or.inr e))
  · rcases ht with e | e <;> exact absurd e (EReal.coe_ne_top t)

theorem capHits_mem {lo hi oz dz t : ℝ} (ht : (t : EReal) = (capHits lo hi oz dz).1 ∨ (t : EReal) = (capHits lo hi oz dz).2) :
    oz + t * dz = lo ∨ oz + t * dz = hi := by
  unfold capHits at ht
  dsimp only at ht
  by_cases hp : isclose0 dz
  · simp only [hp, if_true, true_and] at ht
    rcases ht with e | e
    · split_ifs at e
      · exact absurd e (EReal.coe_ne_bot t)
      · exact absurd e (EReal.coe_ne_top t)
    · exact absurd e (EReal.coe_ne_top t)
  · have hd : dz ≠ 0 := by rintro rfl; exact hp isclose0_zero
    simp only [hp, if_false, false_and, addMask_False] at ht
    rcases ht with e | e
    · left
      rw [EReal.coe_eq_coe_iff] at e
      rw [e]; field_simp; ring
    · right
      rw [EReal.coe_eq_coe_iff] at e
      rw [e]; field_simp; ring

theorem polyRoots_mem {a b c t : ℝ} (ha : a ≠ 0)
    (ht : (t : EReal) = (polyRoots b (b ^ 2 - 4 * a * c) (2 * a)).1 ∨ (t : EReal) = (polyRoots b (b ^ 2 - 4 * a * c) (2 * a)).2) :
    a * t ^ 2 + b * t + c = 0 := by
  unfold polyRoots at ht
  split_ifs at ht with hd
  · rw [max_eq_right hd] at ht
    have hs := Real.sq_sqrt hd
    set q := √(b ^ 2 - 4 * a * c) with hq
    have key : ∀ u : ℝ, (u - -b) ^ 2 = b ^ 2 - 4 * a * c → a * (u / (2 * a)) ^ 2 + b * (u / (2 * a)) + c = 0 := by
      intro u hu
      field_simp
      linear_combination hu
    rcases ht with e | e <;> rw [EReal.coe_eq_coe_iff] at e <;> rw [e] <;> apply key <;> rw [← hs] <;> ring
  · rcases ht with e | e <;> exact absurd e (EReal.coe_ne_top t)

theorem binomialRoot_mem {a b c t : ℝ} (ht : (t : EReal) = (binomialRoot a b c).1 ∨ (t : EReal) = (binomialRoot a b c).2) :
    a * t ^ 2 + b * t + c = 0 ∨ b * t + c = 0 := by
  unfold binomialRoot at ht
  dsimp only at ht
  by_cases hl : isclose0 a
  · right
    simp only [hl, true_and, if_true] at ht
    by_cases hb : isclose0 b
    · simp only [hb, if_true, true_and] at ht
      rcases ht with e | e
      · split_ifs at e
        · exact absurd e (EReal.coe_ne_bot t)
        · exact absurd e (EReal.coe_ne_top t)
      · exact absurd e (EReal.coe_ne_top t)
    · have hb0 : b ≠ 0 := by rintro rfl; exact hb isclose0_zero
      simp only [hb, if_false, false_and, hb0, addMask_False, or_self] at ht
      rw [EReal.coe_eq_coe_iff] at ht
      rw [ht]; field_simp; ring
  · left
    have ha : a ≠ 0 := by rintro rfl; exact hl isclose0_zero
    simp only [hl, false_and, if_false, addMask_False] at ht
    exact polyRoots_mem ha ht

/-- a finite entry of a slab is a crossing of one of its planes -/
theorem slab_mem {s : ℝ × ℝ} {o d t : ℝ} (ht : (t : EReal) = (slab ((s.1 : EReal), (s.2 : EReal)) o d).1 ∨
    (t : EReal) = (slab ((s.1 : EReal), (s.2 : EReal)) o d).2) : o + t * d = s.1 ∨ o + t * d = s.2 := by
  unfold slab at ht
  have ht := sort2_mem ht
  by_cases hp : isclose0 d
  · simp only [hp, not_true, if_false] at ht
    rcases ht with e | e
    · split_ifs at e
      · exact absurd e (EReal.coe_ne_bot t)
      · exact absurd e (EReal.coe_ne_top t)
    · exact absurd e (EReal.coe_ne_top t)
  · have hd : d ≠ 0 := by rintro rfl; exact hp isclose0_zero
    simp only [hp, not_false_eq_true, if_true, addMask_False] at ht
    rw [← EReal.coe_sub, ← EReal.coe_mul, ← EReal.coe_sub, ← EReal.coe_mul, EReal.coe_eq_coe_iff, EReal.coe_eq_coe_iff] at ht
    rcases ht with e | e
    · left; rw [e]; field_simp; ring
    · right; rw [e]; field_simp; ring

theorem boxIntersect_mem {s : Fin 3 → ℝ × ℝ} {ray : Ray} {t : ℝ}
    (ht : (t : EReal) = (boxIntersect (toBox s) ray).1 ∨ (t : EReal) = (boxIntersect (toBox s) ray).2) :
    ∃ i : Fin 3, ray.at t i.castSucc = (s i).1 ∨ ray.at t i.castSucc = (s i).2 := by
  unfold boxIntersect at ht
  dsimp only at ht
  split_ifs at ht with hlt
  · rcases ht with e | e
    · rcases max_choice (max (slab (toBox s 0) (ray.o 0) (ray.d 0)).1 (slab (toBox s 1) (ray.o 1) (ray.d 1)).1)
        (slab (toBox s 2) (ray.o 2) (ray.d 2)).1 with m | m <;> rw [m] at e
      · rcases max_choice (slab (toBox s 0) (ray.o 0) (ray.d 0)).1 (slab (toBox s 1) (ray.o 1) (ray.d 1)).1 with m | m <;> rw [m] at e
        · exact ⟨0, slab_mem (Or.inl e)⟩
        · exact ⟨1, slab_mem (Or.inl e)⟩
      · exact ⟨2, slab_mem (Or.inl e)⟩
    · rcases min_choice (min (slab (toBox s 0) (ray.o 0) (ray.d 0)).2 (slab (toBox s 1) (ray.o 1) (ray.d 1)).2)
        (slab (toBox s 2) (ray.o 2) (ray.d 2)).2 with m | m <;> rw [m] at e
      · rcases min_choice (slab (toBox s 0) (ray.o 0) (ray.d 0)).2 (slab (toBox s 1) (ray.o 1) (ray.d 1)).2 with m | m <;> rw [m] at e
        · exact ⟨0, slab_mem (Or.inr e)⟩
        · exact ⟨1, slab_mem (Or.inr e)⟩
      · exact ⟨2, slab_mem (Or.inr e)⟩
  · rcases ht with e | e <;> exact absurd e (EReal.coe_ne_top t)

/-- Shapes with a size: a radius or focal length that is not 0. -/
def Spec.Sized : Prim → Prop
  | .sphere r => r ≠ 0
  | .paraboloid f _ => f ≠ 0
  | .plane _ _ => True
  | .cube _ _ => True
  | .cylinder r _ _ => r ≠ 0

theorem cubeNormalComp_ne {sp : ℝ × ℝ} {x : ℝ} (h : x = sp.1 ∨ x = sp.2) : cubeNormalComp sp x ≠ 0 := by
  by_cases h2 : isclose x sp.2
  · rw [cubeNormalComp_hi h2]; exact one_ne_zero
  · rcases h with rfl | rfl
    · rw [cubeNormalComp_lo h2 (isclose_self _)]; norm_num
    · exact absurd (isclose_self _) h2

/-- the normal at a reported hit is not zero, and is a vector -/
theorem prim_normal_hit {p : Prim} (hp : Sized p) {ray : Ray} {t : ℝ}
    (ht : (t : EReal) = (p.intersect ray).1 ∨ (t : EReal) = (p.intersect ray).2) :
    norm4 (p.normal (ray.at t)) = 1 ∧ p.normal (ray.at t) 3 = 0 := by
  have nz : ∀ u : Vec4, u 3 = 0 → (u 0 ≠ 0 ∨ u 1 ≠ 0 ∨ u 2 ≠ 0) → norm4 (normalize u) = 1 ∧ normalize u 3 = 0 := fun u h3 hu =>
    ⟨norm4_normalize (norm4_pos_of hu), by simp [normalize, h3]⟩
  cases p with
  | sphere r =>
    simp only [Prim.intersect] at ht
    unfold sphereIntersect at ht
    dsimp only at ht
    split_ifs at ht with ha
    · rcases ht with e | e <;> exact absurd e (EReal.coe_ne_top t)
    · have h := polyRoots_mem ha ht
      apply nz _ rfl
      by_contra hc
      push Not at hc
      simp only [Matrix.cons_val] at hc
      obtain ⟨h0, h1, h2⟩ := hc
      simp only [Ray.at] at h0 h1 h2
      apply hp
      have : r ^ 2 = 0 := by
        have e0 : ray.o 0 = -(t * ray.d 0) := by linarith
        have e1 : ray.o 1 = -(t * ray.d 1) := by linarith
        have e2 : ray.o 2 = -(t * ray.d 2) := by linarith
        rw [e0, e1, e2] at h
        linear_combination -h
      exact pow_eq_zero_iff (two_ne_zero) |>.1 this
  | paraboloid f h =>
    simp only [Prim.normal]
    split_ifs
    · exact nz _ rfl (by simp)
    · exact nz _ rfl (Or.inr (Or.inr (by simpa using (show f ≠ 0 from hp))))
  | plane w l => exact ⟨by simp [Prim.normal, norm4], rfl⟩
  | cube a b =>
    obtain ⟨i, hi⟩ := boxIntersect_mem ht
    apply nz _ rfl
    simp only [Matrix.cons_val]
    fin_cases i
    · exact Or.inl (cubeNormalComp_ne hi)
    · exact Or.inr (Or.inl (cubeNormalComp_ne hi))
    · exact Or.inr (Or.inr (cubeNormalComp_ne hi))
  | cylinder r lo hi =>
    simp only [Prim.normal]
    split_ifs with h1 h2
    · exact nz _ rfl (by simp)
    · exact nz _ rfl (by simp)
    · rcases clipHits_mem ht with hs | hs
      · have h := binomialRoot_mem (sort2_mem hs)
        apply nz _ rfl
        by_contra hc
        push Not at hc
        simp only [Matrix.cons_val] at hc
        obtain ⟨h0, h1, -⟩ := hc
        simp only [Ray.at] at h0 h1
        have e0 : ray.o 0 = -(t * ray.d 0) := by linarith
        have e1 : ray.o 1 = -(t * ray.d 1) := by linarith
        rw [e0, e1] at h
        have hr : 0 < r ^ 2 := by
          have : r ≠ 0 := hp
          positivity
        rcases h with h | h
        · nlinarith
        · nlinarith [sq_nonneg (t * ray.d 0), sq_nonneg (t * ray.d 1)]
      · rcases capHits_mem hs with e | e
        · exact absurd (by rw [show ray.at t 2 = lo from e]; exact isclose_self _) h2
        · exact absurd (by rw [show ray.at t 2 = hi from e]; exact isclose_self _) h1

end PyRayT
