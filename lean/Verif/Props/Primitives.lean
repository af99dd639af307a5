import Verif.Proofs.Primitives2

/-!
# Properties C07 - C11: ray / primitive intersections

`Btw h t` / `SBtw h t` (t between / strictly between the two hits) are unfolded in the statements.
`Clear x` says `x = 0 ∨ 1e-8 < |x|`: the numpy tolerance does not confuse `x` with zero.
-/

namespace PyRayT

open Spec

/-- **C07.** `Sphere.intersect`, for every radius and every ray with nonzero direction: the two returned
values (smaller first) delimit exactly the part of the line in the ball; they are the parameters of
the points on the sphere; and a line missing the ball gives `+inf` twice. -/
theorem C07_sphere (radius : ℝ) (ray : Ray) (hd : ray.d 0 ≠ 0 ∨ ray.d 1 ≠ 0 ∨ ray.d 2 ≠ 0) :
    let h := sphereIntersect radius ray
    let lo := min h.1 h.2
    let hi := max h.1 h.2
    let sq := fun t : ℝ => (ray.at t 0) ^ 2 + (ray.at t 1) ^ 2 + (ray.at t 2) ^ 2
    (∀ t : ℝ, (lo ≤ t ∧ (t : EReal) ≤ hi) ↔ sq t ≤ radius ^ 2) ∧
    (∀ t : ℝ, (lo < t ∧ (t : EReal) < hi) ↔ sq t < radius ^ 2) ∧
    (∀ t : ℝ, (h.1 = t ∨ h.2 = t) ↔ sq t = radius ^ 2) ∧
    ((∀ t : ℝ, sq t > radius ^ 2) ↔ h = (⊤, ⊤)) := by
  have hpos := dirSq_pos hd
  have hb := fun t => sphere_btw radius hpos t
  have hs := fun t => sphere_sbtw radius hpos t
  simp only [Closed, Interior, Btw, SBtw, sort2] at hb hs
  have h3 : ∀ t : ℝ, ((sphereIntersect radius ray).1 = t ∨ (sphereIntersect radius ray).2 = t) ↔
      (ray.at t 0) ^ 2 + (ray.at t 1) ^ 2 + (ray.at t 2) ^ 2 = radius ^ 2 := by
    intro t
    have e : (ray.at t 0) ^ 2 + (ray.at t 1) ^ 2 + (ray.at t 2) ^ 2 = radius ^ 2 ↔
        (ray.at t 0) ^ 2 + (ray.at t 1) ^ 2 + (ray.at t 2) ^ 2 ≤ radius ^ 2 ∧
        ¬ ((ray.at t 0) ^ 2 + (ray.at t 1) ^ 2 + (ray.at t 2) ^ 2 < radius ^ 2) := by
      constructor
      · intro h; exact ⟨h.le, not_lt.2 h.ge⟩
      · rintro ⟨h1, h2⟩; exact le_antisymm h1 (not_lt.1 h2)
    rw [e, ← hb, ← hs]
    rcases le_total (sphereIntersect radius ray).1 (sphereIntersect radius ray).2 with hle | hle
    · rw [min_eq_left hle, max_eq_right hle]
      constructor
      · rintro (h | h)
        · rw [← h]; exact ⟨⟨le_rfl, hle⟩, fun hc => lt_irrefl _ hc.1⟩
        · rw [← h]; exact ⟨⟨hle, le_rfl⟩, fun hc => lt_irrefl _ hc.2⟩
      · rintro ⟨⟨h1, h2⟩, h3⟩
        rcases h1.lt_or_eq with h1 | h1
        · rcases h2.lt_or_eq with h2 | h2
          · exact absurd ⟨h1, h2⟩ h3
          · exact Or.inr h2.symm
        · exact Or.inl h1
    · rw [min_eq_right hle, max_eq_left hle]
      constructor
      · rintro (h | h)
        · rw [← h]; exact ⟨⟨hle, le_rfl⟩, fun hc => lt_irrefl _ hc.2⟩
        · rw [← h]; exact ⟨⟨le_rfl, hle⟩, fun hc => lt_irrefl _ hc.1⟩
      · rintro ⟨⟨h1, h2⟩, h3⟩
        rcases h1.lt_or_eq with h1 | h1
        · rcases h2.lt_or_eq with h2 | h2
          · exact absurd ⟨h1, h2⟩ h3
          · exact Or.inl h2.symm
        · exact Or.inr h1
  refine ⟨hb, hs, h3, ?_⟩
  constructor
  · intro hm
    have e := sphereIntersect_eq radius hpos
    unfold polyRoots at e
    split at e
    · exfalso
      have h1 : (sphereIntersect radius ray).1 = _ := congrArg Prod.fst e
      have := (h3 _).1 (Or.inl h1)
      exact absurd this (hm _).ne'
    · exact e
  · intro he t
    by_contra hc
    rw [gt_iff_lt, not_lt, ← hb, he] at hc
    simp at hc

/-- non-vacuity of C07 -/
example : (⟨point 0 0 (-3), vector 0 0 1⟩ : Ray).d 2 ≠ 0 ∧
    ((⟨point 0 0 (-3), vector 0 0 1⟩ : Ray).at 2 2) ^ 2 = (1 : ℝ) ^ 2 := by
  simp [vector, point, Ray.at]; norm_num

/-- **C08.** `Cube.intersect` for corners in any order and rays whose direction components are zero or
above tolerance: either a proper interval that is exactly the part of the line in the closed box, or
`+inf` twice and the line meets the box in at most one point. -/
theorem C08_cube (c1 c2 : Fin 3 → ℝ) (ray : Ray)
    (h0 : Clear (ray.d 0)) (h1 : Clear (ray.d 1)) (h2 : Clear (ray.d 2)) :
    let h := (Prim.cube c1 c2).intersect ray
    let inBox := fun t : ℝ => ∀ i : Fin 3, min (c1 i) (c2 i) ≤ ray.at t i.castSucc ∧
      ray.at t i.castSucc ≤ max (c1 i) (c2 i)
    (h.1 < h.2 ∧ ∀ t : ℝ, (h.1 ≤ t ∧ (t : EReal) ≤ h.2) ↔ inBox t) ∨
    (h = (⊤, ⊤) ∧ ∀ s t : ℝ, inBox s → inBox t → s = t) := by
  have hb := fun t => boxRaw_btw (b := toBox (cubeSpans c1 c2)) (fun i => by
    simp [toBox, cubeSpans]) (r := ray) ⟨h0, h1, h2⟩ t
  have hin : ∀ t : ℝ, InBox (toBox (cubeSpans c1 c2)) (ray.at t) ↔
      ∀ i : Fin 3, min (c1 i) (c2 i) ≤ ray.at t i.castSucc ∧
      ray.at t i.castSucc ≤ max (c1 i) (c2 i) := by
    intro t
    simp only [InBox, toBox, cubeSpans, EReal.coe_le_coe_iff, Fin.forall_fin_succ, IsEmpty.forall_iff,
      and_true]
    rfl
  simp only [Prim.intersect]
  rw [boxIntersect_eq]
  split
  · rename_i hlt
    left
    exact ⟨hlt, fun t => (hb t).trans (hin t)⟩
  · rename_i hlt
    right
    refine ⟨rfl, fun s t hs ht => ?_⟩
    have hs := (hb s).2 ((hin s).2 hs)
    have ht := (hb t).2 ((hin t).2 ht)
    rw [not_lt] at hlt
    have e1 : (s : EReal) ≤ t := hs.2.trans (hlt.trans ht.1)
    have e2 : (t : EReal) ≤ s := ht.2.trans (hlt.trans hs.1)
    exact le_antisymm (EReal.coe_le_coe_iff.1 e1) (EReal.coe_le_coe_iff.1 e2)

/-- non-vacuity of C08 -/
example : Clear ((⟨point 0 0 (-3), vector 0 0 1⟩ : Ray).d 0) ∧
    Clear ((⟨point 0 0 (-3), vector 0 0 1⟩ : Ray).d 1) ∧
    Clear ((⟨point 0 0 (-3), vector 0 0 1⟩ : Ray).d 2) := by
  simp [vector, Clear]; norm_num

theorem caps_ne_bot (lo hi oz dz : ℝ) : (sort2 (capHits lo hi oz dz)).2 ≠ ⊥ := by
  unfold capHits sort2
  simp only [ne_eq, max_eq_bot, not_and_or]
  right
  split <;> simp

theorem binomialRoot_ne_bot (a b c : ℝ) : (sort2 (binomialRoot a b c)).2 ≠ ⊥ := by
  unfold binomialRoot polyRoots sort2
  simp only [ne_eq, max_eq_bot, not_and_or]
  right
  split <;> (try split) <;> (try split) <;> simp

theorem parSide_ne_bot (f : ℝ) (r : Ray) : (sort2 (parSide f r)).2 ≠ ⊥ := by
  unfold parSide polyRoots sort2
  simp only [ne_eq, max_eq_bot, not_and_or]
  left
  split <;> (try split) <;> simp

/-- a reported interval without a real point is reported as `(inf, inf)` -/
theorem clip_miss {side caps : EReal × EReal} (h1 : (sort2 side).2 ≠ ⊥) (h2 : (sort2 caps).2 ≠ ⊥) :
    (∀ t : ℝ, ¬ ((clipHits side caps).1 ≤ t ∧ (t : EReal) ≤ (clipHits side caps).2)) ↔
      clipHits side caps = (⊤, ⊤) := by
  constructor
  · intro h
    have hle := clip_le side caps
    have hb : (clipHits side caps).2 ≠ ⊥ := by
      unfold clipHits
      simp only
      split
      · intro hc
        rcases min_eq_bot.1 hc with hc | hc
        · exact h1 hc
        · exact h2 hc
      · simp
    generalize clipHits side caps = x at *
    obtain ⟨a, b⟩ := x
    simp only at h hle hb
    induction a with
    | bot =>
      exfalso
      induction b with
      | bot => exact hb rfl
      | coe b => exact h b ⟨bot_le, le_rfl⟩
      | top => exact h 0 ⟨bot_le, le_top⟩
    | coe a => exact absurd ⟨le_rfl, hle⟩ (h a)
    | top => rw [top_le_iff] at hle; rw [hle]
  · intro h t
    rw [h]
    simp

/-- **C09 (partial).** `Cylinder.intersect` returns the exact entry and exit parameters for every ray whose
transverse direction is zero or has squared length above 1e-8, and `+inf` twice iff the line misses
the closed cylinder.  Missing from the full property: rays with `0 < dx²+dy² ≤ 1e-8`, for which it is
false (`C09_cylinder_near_axial_false`). -/
theorem C09_cylinder_partial (radius hMin hMax : ℝ) (hh : hMin ≤ hMax) (ray : Ray)
    (hxy : Clear (ray.d 0 * ray.d 0 + ray.d 1 * ray.d 1)) (hz : Clear (ray.d 2)) :
    let h := cylinderIntersect radius hMin hMax ray
    let inCyl := fun t : ℝ => (ray.at t 0) ^ 2 + (ray.at t 1) ^ 2 ≤ radius ^ 2 ∧
      hMin ≤ ray.at t 2 ∧ ray.at t 2 ≤ hMax
    (∀ t : ℝ, (h.1 ≤ t ∧ (t : EReal) ≤ h.2) ↔ inCyl t) ∧ h.1 ≤ h.2 ∧
    ((∀ t, ¬ inCyl t) ↔ h = (⊤, ⊤)) := by
  have key : ∀ t : ℝ, ((cylinderIntersect radius hMin hMax ray).1 ≤ t ∧
      (t : EReal) ≤ (cylinderIntersect radius hMin hMax ray).2) ↔
      ((ray.at t 0) ^ 2 + (ray.at t 1) ^ 2 ≤ radius ^ 2 ∧ hMin ≤ ray.at t 2 ∧ ray.at t 2 ≤ hMax) := by
    intro t
    have := cyl_btw (radius := radius) hh (r := ray) hxy hz t
    simpa only [Btw, Closed, min_eq_left hh, max_eq_right hh] using this
  refine ⟨key, clip_le _ _, ?_⟩
  simp only [← key]
  exact clip_miss (by rw [sort2_sort2]; exact binomialRoot_ne_bot _ _ _) (caps_ne_bot _ _ _ _)

/-- **C09 is false in the tolerance band.** A unit ray tilted by 5e-5 against the axis passes through the
centre region of the unit cylinder, yet `Cylinder.intersect` reports a miss. -/
theorem C09_cylinder_near_axial_false :
    ∃ ray : Ray, norm4 ray.d = 1 ∧
      (∃ t : ℝ, Interior (.cylinder 1 (-1) 1) (ray.at t)) ∧
      cylinderIntersect 1 (-1) 1 ray = (⊤, ⊤) := by
  refine ⟨⟨point 0.3 0 (-5), vector (80000 / 1600000001) 0 (1599999999 / 1600000001)⟩, ?_, ⟨5, ?_⟩, ?_⟩
  · simp only [norm4, vector, Matrix.cons_val]
    rw [show (1 : ℝ) = √1 by simp]
    congr 1
    norm_num
  · simp [Interior, Ray.at, point, vector]
    norm_num
  · have h1 : isclose0 ((80000 / 1600000001 : ℝ) * (80000 / 1600000001)) := by
      rw [isclose0, abs_of_pos (by norm_num)]; norm_num
    have h2 : ¬ isclose0 (2 * (80000 / 1600000001 * 0.3) : ℝ) := by
      apply not_isclose0; rw [abs_of_pos (by norm_num)]; norm_num
    have h3 : ¬ isclose0 (1599999999 / 1600000001 : ℝ) := by
      apply not_isclose0; rw [abs_of_pos (by norm_num)]; norm_num
    have h4 : ¬ ((2 * (80000 / 1600000001 * 0.3) : ℝ) = 0) := by norm_num
    simp only [cylinderIntersect, binomialRoot, capHits, clipHits, point, vector, Matrix.cons_val, mul_zero, add_zero,
      h1, h2, h3, h4, if_true, if_false, and_false, false_and, addMask_False, sort2, min_self,
      max_self]
    rw [if_neg]
    rw [not_le]
    refine lt_of_le_of_lt (min_le_right _ _) (lt_of_lt_of_le ?_ (le_max_left _ _))
    rw [max_lt_iff]
    constructor <;> rw [EReal.coe_lt_coe_iff] <;> norm_num

/-- non-vacuity of C09_cylinder_partial -/
example : Clear ((⟨point 0.3 0 (-5), vector 0 0.6 0.8⟩ : Ray).d 0 * (⟨point 0.3 0 (-5), vector 0 0.6 0.8⟩ : Ray).d 0 +
    (⟨point 0.3 0 (-5), vector 0 0.6 0.8⟩ : Ray).d 1 * (⟨point 0.3 0 (-5), vector 0 0.6 0.8⟩ : Ray).d 1) ∧
    Clear ((⟨point 0.3 0 (-5), vector 0 0.6 0.8⟩ : Ray).d 2) := by
  constructor
  · right; simp only [vector, Matrix.cons_val]; rw [abs_of_pos] <;> norm_num
  · right; simp only [vector, Matrix.cons_val]; rw [abs_of_pos] <;> norm_num

/-- **C10 (partial).** `Paraboloid.intersect` for every ray whose transverse direction has squared length
above 1e-8, or is exactly axial: exact entry and exit parameters of `{x²+y² ≤ 4fz, z ≤ height}`.
Missing: rays with `0 < dx²+dy² ≤ 1e-8`, where it is false (`C10_paraboloid_near_axial_false`). -/
theorem C10_paraboloid_partial (f height : ℝ) (hf : 0 < f) (hh : 0 < height) (ray : Ray)
    (hxy : 1e-8 < ray.d 0 * ray.d 0 + ray.d 1 * ray.d 1 ∨
      (ray.d 0 * ray.d 0 + ray.d 1 * ray.d 1 = 0 ∧ 1e-8 < |4 * f * ray.d 2|))
    (hz : Clear (ray.d 2)) :
    let h := paraboloidIntersect f height ray
    let inPar := fun t : ℝ => (ray.at t 0) ^ 2 + (ray.at t 1) ^ 2 ≤ 4 * f * (ray.at t 2) ∧
      ray.at t 2 ≤ height
    (∀ t : ℝ, (h.1 ≤ t ∧ (t : EReal) ≤ h.2) ↔ inPar t) ∧ h.1 ≤ h.2 ∧
    ((∀ t, ¬ inPar t) ↔ h = (⊤, ⊤)) := by
  have key : ∀ t : ℝ, ((paraboloidIntersect f height ray).1 ≤ t ∧
      (t : EReal) ≤ (paraboloidIntersect f height ray).2) ↔
      ((ray.at t 0) ^ 2 + (ray.at t 1) ^ 2 ≤ 4 * f * (ray.at t 2) ∧ ray.at t 2 ≤ height) :=
    fun t => par_btw hf hh hxy hz t
  refine ⟨key, clip_le _ _, ?_⟩
  simp only [← key]
  exact clip_miss (by rw [sort2_sort2]; exact parSide_ne_bot _ _) (caps_ne_bot _ _ _ _)

/-- **C10 is false in the tolerance band.** For a unit ray tilted by 5e-5, starting 1000 units away, the
exit parameter reported by `Paraboloid.intersect` is not in the paraboloid. -/
theorem C10_paraboloid_near_axial_false :
    ∃ (ray : Ray) (t : ℝ), norm4 ray.d = 1 ∧ (paraboloidIntersect 1 1 ray).2 = t ∧
      ¬ Closed (.paraboloid 1 1) (ray.at t) := by
  refine ⟨⟨point 0 0 1000, vector (80000 / 1600000001) 0 (-(1599999999 / 1600000001))⟩,
    4000 / (4 * (1599999999 / 1600000001)), ?_, ?_, ?_⟩
  · simp only [norm4, vector, Matrix.cons_val]
    rw [show (1 : ℝ) = √1 by simp]
    congr 1
    norm_num
  · have h1 : isclose0 ((80000 / 1600000001 : ℝ) * (80000 / 1600000001)) := by
      rw [isclose0, abs_of_pos (by norm_num)]; norm_num
    have h2 : ¬ isclose0 (0 - 4 * -(1599999999 / 1600000001) : ℝ) := by
      apply not_isclose0; rw [abs_of_pos (by norm_num)]; norm_num
    have h3 : ¬ isclose0 (-(1599999999 / 1600000001) : ℝ) := by
      apply not_isclose0; rw [abs_neg, abs_of_pos (by norm_num)]; norm_num
    have h4 : ¬ (-(1599999999 / 1600000001) : ℝ) ≥ 0 := by norm_num
    simp only [paraboloidIntersect, capHits, clipHits, point, vector, Matrix.cons_val, mul_zero, zero_mul, mul_one,
      add_zero, h1, h2, h3, h4, if_true, if_false, false_and, addMask_False]
    have e1 : (-(0 - 4 * 1000) / (0 - 4 * -(1599999999 / 1600000001)) : ℝ) = 4000 / (4 * (1599999999 / 1600000001)) := by
      norm_num
    have e2 : ((0 - 1000) / -(1599999999 / 1600000001) : ℝ) = 4000 / (4 * (1599999999 / 1600000001)) := by
      norm_num
    rw [e1, e2]
    have e3 : ((1 - 1000) / -(1599999999 / 1600000001) : ℝ) ≤ 4000 / (4 * (1599999999 / 1600000001)) := by
      norm_num
    have e3' := EReal.coe_le_coe_iff.2 e3
    simp only [sort2, bot_le, inf_of_le_right, sup_of_le_left, min_eq_right, max_eq_left, e3']
    rw [if_pos]
    · simp
    · simpa using e3
  · simp [Closed, Ray.at, point, vector]
    norm_num

/-- non-vacuity of C10_paraboloid_partial -/
example : let ray : Ray := ⟨point 0.3 0 5, vector 0 0 (-1)⟩
    (ray.d 0 * ray.d 0 + ray.d 1 * ray.d 1 = 0 ∧ 1e-8 < |4 * (1 : ℝ) * ray.d 2|) ∧ Clear (ray.d 2) := by
  refine ⟨⟨by simp [vector], ?_⟩, Or.inr ?_⟩ <;> simp only [vector, Matrix.cons_val] <;> norm_num

/-- **C11.** `Plane.intersect`: the same value twice; it is the parameter of the crossing with `z = 0` when
the ray is not parallel to the plane and crosses inside the closed rectangle, `+inf` otherwise. -/
theorem C11_plane (w l : ℝ) (hw : 0 ≤ w) (hl : 0 ≤ l) (ray : Ray)
    (h0 : Clear (ray.d 0)) (h1 : Clear (ray.d 1)) (h2 : Clear (ray.d 2)) :
    let h := planeIntersect w l ray
    h.1 = h.2 ∧
    (∀ t : ℝ, h.1 = t ↔ ray.d 2 ≠ 0 ∧ ray.at t 2 = 0 ∧ |ray.at t 0| ≤ w / 2 ∧ |ray.at t 1| ≤ l / 2) ∧
    (h.1 = ⊤ ∨ ∃ t : ℝ, h.1 = t) := by
  have e := plane_eq w l hw hl ray ⟨h0, h1, h2⟩
  simp only
  rw [e]
  by_cases hc : ray.d 2 ≠ 0 ∧ Spec.Closed (.plane w l) (ray.at (-(ray.o 2) / ray.d 2))
  · rw [if_pos hc]
    refine ⟨rfl, fun t => ?_, Or.inr ⟨_, rfl⟩⟩
    constructor
    · intro h
      rw [EReal.coe_eq_coe_iff] at h
      subst h
      exact ⟨hc.1, hc.2⟩
    · rintro ⟨hd, hz, -, -⟩
      rw [EReal.coe_eq_coe_iff, div_eq_iff hd]
      simp only [Ray.at] at hz
      linarith
  · rw [if_neg hc]
    refine ⟨rfl, fun t => ?_, Or.inl rfl⟩
    constructor
    · intro h; exact absurd h.symm (EReal.coe_ne_top t)
    · rintro ⟨hd, hz, hx⟩
      exfalso
      apply hc
      have : t = -(ray.o 2) / ray.d 2 := by
        rw [eq_div_iff hd]
        simp only [Ray.at] at hz
        linarith
      subst this
      exact ⟨hd, hz, hx⟩

/-- non-vacuity of C11 -/
example : planeIntersect 2 2 ⟨point 0.5 0 (-3), vector 0 0 1⟩ = (((3 : ℝ) : EReal), ((3 : ℝ) : EReal)) := by
  rw [plane_eq 2 2 (by norm_num) (by norm_num) _ ⟨by simp [Clear, vector], by simp [Clear, vector],
    by right; simp [vector]; norm_num⟩]
  rw [if_pos]
  · simp [point, vector]
  · refine ⟨by simp [vector], ?_⟩
    simp [Closed, Ray.at, point, vector, abs_of_pos]
    rw [abs_of_pos] <;> norm_num

end PyRayT
