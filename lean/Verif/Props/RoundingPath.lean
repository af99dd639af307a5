import Verif.Model.RoundingPath
import Verif.Props.RoundingMoved

/-!
# Property C113: how rounding errors add up along a path between flat mirrors
-/

namespace PyRayT

open Classical

variable {u : ℝ}

/-! ### The specification: images in planes -/

/-- The vector across the plane of the mirror, in the coordinates of the scene. -/
def Spec.across (M : Mat4) : Vec4 := vector (M 2 0) (M 2 1) (M 2 2)

/-- The mirror image of a place in the plane `z = 0` of the object with the matrix `M`. -/
noncomputable def Spec.imagePoint (M : Mat4) (p : Vec4) : Vec4 := p - (2 * Spec.seen M p 2 / norm4 (Spec.across M) ^ 2) • Spec.across M

/-- The mirror image of a direction. -/
noncomputable def Spec.imageDir (M : Mat4) (d : Vec4) : Vec4 := d - (2 * Spec.facing M d 2 / norm4 (Spec.across M) ^ 2) • Spec.across M

/-- The mirror image of a ray, in one mirror after the other. -/
noncomputable def Spec.imageRay : List FlatMirror → Ray → Ray
  | [], ray => ray
  | m :: ms, ray => Spec.imageRay ms ⟨Spec.imagePoint m.toObject ray.o, Spec.imageDir m.toObject ray.d⟩

/-- The mirror lies within the scene of size `L`. -/
structure Spec.InScene (L : ℝ) (m : FlatMirror) : Prop where
  placed : Spec.Placed L m.toObject
  extent : |m.width| / 2 + |m.length| / 2 + √(m.toObject 0 3 ^ 2 + m.toObject 1 3 ^ 2 + m.toObject 2 3 ^ 2) ≤ 0.99 * L

/-! ### Geometry -/

theorem dot4_across (M : Mat4) (v : Vec4) : dot4 (Spec.across M) v = Spec.facing M v 2 := by
  simp [dot4, Spec.across, Spec.facing, vector]

theorem dot4_self (v : Vec4) : dot4 v v = norm4 v ^ 2 := by
  rw [norm4, Real.sq_sqrt (by positivity)]; simp only [dot4]; ring

theorem dot4_comm' (v w : Vec4) : dot4 v w = dot4 w v := by simp only [dot4]; ring

theorem across_le {L : ℝ} {M : Mat4} (hM : Spec.Placed L M) : norm4 (Spec.across M) ≤ 1.0001 := hM.row 2

/-- lengths are not shrunk -/
theorem Spec.Placed.facing_ge {L : ℝ} {M : Mat4} (hM : Spec.Placed L M) (v : Vec4) : 0.9999 * norm4 (cut v) ≤ norm4 (Spec.facing M v) := by
  have h1 := (abs_le.1 (hM.facing_sq v)).1
  refine (abs_le_of_sq_le_sq' ?_ (norm4_nonneg _)).2
  rw [mul_pow]
  have := sq_nonneg (norm4 (cut v))
  norm_num at h1 ⊢
  linarith

theorem across_ge {L : ℝ} {M : Mat4} (hM : Spec.Placed L M) : 0.9998 ≤ norm4 (Spec.across M) := by
  -- the matrix is onto, since it keeps lengths
  let f : (Fin 3 → ℝ) →ₗ[ℝ] (Fin 3 → ℝ) :=
    { toFun := fun x => fun i => M i.castSucc 0 * x 0 + M i.castSucc 1 * x 1 + M i.castSucc 2 * x 2
      map_add' := fun x y => by funext i; simp only [Pi.add_apply]; ring
      map_smul' := fun c x => by funext i; simp only [Pi.smul_apply, smul_eq_mul, RingHom.id_apply]; ring }
  have hf : ∀ x i, f x i = M i.castSucc 0 * x 0 + M i.castSucc 1 * x 1 + M i.castSucc 2 * x 2 := fun _ _ => rfl
  have hfac : ∀ x : Fin 3 → ℝ, norm4 (Spec.facing M (vector (x 0) (x 1) (x 2))) ^ 2 = f x 0 ^ 2 + f x 1 ^ 2 + f x 2 ^ 2 := fun x => by
    rw [Spec.norm4_facing_sq]
    simp only [hf, vector, Matrix.cons_val_zero, Matrix.cons_val_one, Matrix.cons_val]
    rfl
  have hcut : ∀ x : Fin 3 → ℝ, norm4 (cut (vector (x 0) (x 1) (x 2))) ^ 2 = x 0 ^ 2 + x 1 ^ 2 + x 2 ^ 2 := fun x => by
    rw [norm4_cut_sq]; simp [dot3, vector]; ring
  have hinj : Function.Injective f := by
    rw [← LinearMap.ker_eq_bot, LinearMap.ker_eq_bot']
    intro x hx
    have h1 := hM.facing_ge (vector (x 0) (x 1) (x 2))
    have h2 : norm4 (Spec.facing M (vector (x 0) (x 1) (x 2))) = 0 := by
      have := hfac x
      rw [hx] at this
      simpa using this
    rw [h2] at h1
    have h3 : norm4 (cut (vector (x 0) (x 1) (x 2))) = 0 := le_antisymm (by norm_num at h1; linarith) (norm4_nonneg _)
    have h4 := hcut x
    rw [h3] at h4
    have a0 : x 0 = 0 := by nlinarith [sq_nonneg (x 0), sq_nonneg (x 1), sq_nonneg (x 2)]
    have a1 : x 1 = 0 := by nlinarith [sq_nonneg (x 0), sq_nonneg (x 1), sq_nonneg (x 2)]
    have a2 : x 2 = 0 := by nlinarith [sq_nonneg (x 0), sq_nonneg (x 1), sq_nonneg (x 2)]
    funext i; fin_cases i <;> assumption
  obtain ⟨x, hx⟩ := LinearMap.surjective_of_injective hinj ![0, 0, 1]
  have h1 := hM.facing_ge (vector (x 0) (x 1) (x 2))
  have h2 : norm4 (Spec.facing M (vector (x 0) (x 1) (x 2))) = 1 := by
    have := hfac x
    rw [hx] at this
    simp at this
    rcases this with h | h
    · exact h
    · have := norm4_nonneg (Spec.facing M (vector (x 0) (x 1) (x 2))); linarith
  have h3 : dot4 (Spec.across M) (vector (x 0) (x 1) (x 2)) = 1 := by
    rw [dot4_across]
    have := congrFun hx 2
    rw [hf] at this
    simpa [Spec.facing, vector] using this
  have h4 := abs_dot4_le (Spec.across M) (vector (x 0) (x 1) (x 2))
  have h5 : cut (vector (x 0) (x 1) (x 2)) = vector (x 0) (x 1) (x 2) := by funext i; fin_cases i <;> simp [cut, vector]
  rw [h3, abs_one] at h4
  rw [h2, h5] at h1
  have h6 := norm4_nonneg (vector (x 0) (x 1) (x 2))
  have h7 := norm4_nonneg (Spec.across M)
  norm_num at h1 ⊢
  nlinarith

/-- **C113 (1).** Images are mirror images: the middle between a place and its image lies in the plane, the image of the image is the place itself, lengths are kept, and places in the plane are their own images. -/
theorem C113_image {L : ℝ} {M : Mat4} (hM : Spec.Placed L M) (p q : Vec4) :
    Spec.seen M ((1 / 2 : ℝ) • (p + Spec.imagePoint M p)) 2 = 0 ∧ Spec.imagePoint M (Spec.imagePoint M p) = p ∧
    norm4 (Spec.imagePoint M p - Spec.imagePoint M q) = norm4 (p - q) ∧ (Spec.seen M p 2 = 0 → Spec.imagePoint M p = p) := by
  have hA : 0 < norm4 (Spec.across M) := lt_of_lt_of_le (by norm_num) (across_ge hM)
  set A := Spec.across M with hAd
  have hseen : ∀ x y : Vec4, Spec.seen M x 2 - Spec.seen M y 2 = dot4 A (x - y) := by
    intro x y
    rw [dot4_across, Spec.facing_sub, Spec.seen_eq, Spec.seen_eq]
    simp only [Pi.add_apply, Pi.sub_apply]; ring
  have hdot : ∀ (x : Vec4) (k : ℝ), dot4 A (x - k • A) = dot4 A x - k * norm4 A ^ 2 := by
    intro x k
    rw [← dot4_self]; simp only [dot4, Pi.sub_apply, Pi.smul_apply, smul_eq_mul]; ring
  have himg : ∀ x : Vec4, Spec.seen M (Spec.imagePoint M x) 2 = -Spec.seen M x 2 := by
    intro x
    have h1 := hseen (Spec.imagePoint M x) x
    rw [Spec.imagePoint, sub_sub_cancel_left, show -((2 * Spec.seen M x 2 / norm4 A ^ 2) • A) = 0 - (2 * Spec.seen M x 2 / norm4 A ^ 2) • A by rw [zero_sub], hdot,
      div_mul_cancel₀ _ (by positivity)] at h1
    have h2 : dot4 A 0 = 0 := by simp [dot4]
    rw [h2, ← Spec.imagePoint] at h1
    linarith
  refine ⟨?_, ?_, ?_, ?_⟩
  · have h1 := hseen ((1 / 2 : ℝ) • (p + Spec.imagePoint M p)) p
    have h2 := hseen (Spec.imagePoint M p) p
    rw [himg] at h2
    have h3 : (1 / 2 : ℝ) • (p + Spec.imagePoint M p) - p = (1 / 2 : ℝ) • (Spec.imagePoint M p - p) := by
      funext i; simp only [Pi.sub_apply, Pi.smul_apply, Pi.add_apply, smul_eq_mul]; ring
    have h4 : dot4 A ((1 / 2 : ℝ) • (Spec.imagePoint M p - p)) = 1 / 2 * dot4 A (Spec.imagePoint M p - p) := by
      simp only [dot4, Pi.smul_apply, smul_eq_mul]; ring
    rw [h3, h4, ← h2] at h1
    linarith
  · rw [Spec.imagePoint, himg, Spec.imagePoint, ← hAd]
    funext i; simp only [Pi.sub_apply, Pi.smul_apply, smul_eq_mul]; ring
  · have h1 : Spec.imagePoint M p - Spec.imagePoint M q = (p - q) - (2 * dot4 A (p - q) / norm4 A ^ 2) • A := by
      rw [← hseen, Spec.imagePoint, Spec.imagePoint, ← hAd]
      funext i; simp only [Pi.sub_apply, Pi.smul_apply, smul_eq_mul]; ring
    have h2 : ∀ x : Vec4, norm4 (x - (2 * dot4 A x / norm4 A ^ 2) • A) ^ 2 = norm4 x ^ 2 := by
      intro x
      have e : norm4 (x - (2 * dot4 A x / norm4 A ^ 2) • A) ^ 2 = norm4 x ^ 2 - 2 * (2 * dot4 A x / norm4 A ^ 2) * dot4 A x + (2 * dot4 A x / norm4 A ^ 2) ^ 2 * norm4 A ^ 2 := by
        rw [← dot4_self, ← dot4_self x, ← dot4_self A]; simp only [dot4, Pi.sub_apply, Pi.smul_apply, smul_eq_mul]; ring
      rw [e]
      field_simp
      ring
    rw [h1]
    exact (sq_eq_sq₀ (norm4_nonneg _) (norm4_nonneg _)).1 (h2 _)
  · intro h0
    rw [Spec.imagePoint, h0]
    simp

theorem imageDir_eq {L : ℝ} {M : Mat4} (hM : Spec.Placed L M) (d : Vec4) : Spec.imageDir M d = reflect d (normalize (Spec.across M)) := by
  have hA : 0 < norm4 (Spec.across M) := lt_of_lt_of_le (by norm_num) (across_ge hM)
  rw [Spec.imageDir, ← dot4_across, normalize_eq_smul]
  set A := Spec.across M
  set a := norm4 A
  have e : dot4 d (a⁻¹ • A) = a⁻¹ * dot4 A d := by simp only [dot4, Pi.smul_apply, smul_eq_mul]; ring
  funext i
  simp only [reflect, Pi.sub_apply, Pi.smul_apply, smul_eq_mul, e]
  field_simp

/-! ### The computed normal and direction -/

/-- normalisation of nearby vectors -/
theorem normalize_near {v w : Vec4} (hv : 0 < norm4 v) (hw : 0 < norm4 w) : norm4 (normalize v - normalize w) ≤ 2 * norm4 (v - w) / norm4 w := by
  rw [le_div_iff₀ hw]
  have e : norm4 w • (normalize v - normalize w) = (norm4 w - norm4 v) • normalize v + (v - w) := by
    rw [normalize_eq_smul, normalize_eq_smul, smul_sub, sub_smul, smul_smul, smul_smul, smul_smul, mul_inv_cancel₀ hv.ne', mul_inv_cancel₀ hw.ne', one_smul, one_smul]
    abel
  have h1 := norm4_add_le ((norm4 w - norm4 v) • normalize v) (v - w)
  rw [← e, norm4_smul, norm4_smul, norm4_normalize hv, abs_of_pos hw, mul_one] at h1
  have h2 := abs_norm4_sub_le w v
  rw [norm4_sub_comm] at h2
  linarith

theorem FlatNormalR.err (hu : 0 ≤ u) (hu6 : u ≤ 1e-6) {L : ℝ} {M : Mat4} {n : Vec4} (hM : Spec.Placed L M) (h : FlatNormalR u M n) :
    norm4 (n - normalize (Spec.across M)) ≤ 12.5 * u ∨ norm4 (-n - normalize (Spec.across M)) ≤ 12.5 * u := by
  obtain ⟨raw, unit, h1, h2, h3⟩ := h
  have hA1 := across_le hM
  have hA0 := across_ge hM
  have e1 : norm4 (vector (raw 0) (raw 1) (raw 2) - Spec.across M) ≤ 4.01 * u := by
    have key : ∀ i, |raw i - M 2 i| ≤ 4.00001 * u * |M 2 i| + 4.00001 * u * (4 * u) := by
      intro i
      have c1 := SumsTo.err hu (h1 i)
      have c2 := pow_four_le hu hu6
      simp only [sumProd, sumAbs, List.map_cons, List.map_nil, List.sum_cons, List.sum_nil, List.length_cons, List.length_nil, vector, Matrix.transpose_apply, Matrix.cons_val_zero,
        Matrix.cons_val_one, Matrix.cons_val, mul_zero, mul_one, abs_zero, zero_add, add_zero, Nat.reduceAdd, Nat.cast_ofNat] at c1
      have c3 : 0 ≤ |M 2 i| + 4 * u := by positivity
      have c4 := mul_le_mul_of_nonneg_right c2 c3
      linarith
    have c5 := norm4_le_of_le (v := vector (raw 0) (raw 1) (raw 2) - Spec.across M) (x := Spec.across M) (a := 4.00001 * u) (b := 4.00001 * u * (4 * u)) (by positivity) (by positivity) (fun i => by
      fin_cases i
      · exact key 0
      · exact key 1
      · exact key 2
      · simp [vector, Spec.across]; positivity)
    have c6 : 4.00001 * u * norm4 (Spec.across M) ≤ 4.00001 * u * 1.0001 := mul_le_mul_of_nonneg_left hA1 (by positivity)
    have c7 : u * u ≤ u * 1e-6 := mul_le_mul_of_nonneg_left hu6 hu
    norm_num at c5 c6 c7 ⊢
    nlinarith
  set r := vector (raw 0) (raw 1) (raw 2) with hr
  have hr0 := abs_le.1 ((abs_norm4_sub_le r (Spec.across M)).trans e1)
  have hr1 : 1 / 2 ≤ norm4 r := by norm_num at hu6 hA0 hr0 ⊢; linarith
  have hr2 : norm4 r ≤ 2 := by norm_num at hu6 hA1 hr0 ⊢; linarith
  have e2 := h2.err hu hu6 hr1 hr2
  have hApos : 0 < norm4 (Spec.across M) := lt_of_lt_of_le (by norm_num) hA0
  have e3 := normalize_near (v := r) (by linarith) hApos
  have e4 : 2 * norm4 (r - Spec.across M) / norm4 (Spec.across M) ≤ 8.1 * u := by
    rw [div_le_iff₀ hApos]
    have : 8.1 * u * 0.9998 ≤ 8.1 * u * norm4 (Spec.across M) := mul_le_mul_of_nonneg_left hA0 (by positivity)
    norm_num at e1 this ⊢
    linarith
  have e5 := norm4_sub_le unit (normalize r) (normalize (Spec.across M))
  have e6 : norm4 (unit - normalize (Spec.across M)) ≤ 12.5 * u := by linarith
  rcases h3 with rfl | rfl
  · exact Or.inl e6
  · right
    rwa [neg_neg]

/-- reflections at nearby normals -/
theorem reflect_near {v n m : Vec4} {e : ℝ} (hn : norm4 n ≤ 1.001) (hm : norm4 m ≤ 1.001) (h : norm4 (n - m) ≤ e) : norm4 (reflect v n - reflect v m) ≤ 4.004 * norm4 v * e := by
  have e0 : reflect v n - reflect v m = -((2 * dot4 v n) • (n - m) + (2 * dot4 v (n - m)) • m) := by
    funext i; simp only [reflect, dot4, Pi.sub_apply, Pi.smul_apply, Pi.neg_apply, Pi.add_apply, smul_eq_mul]; ring
  rw [e0, norm4_neg]
  have h1 := norm4_add_le ((2 * dot4 v n) • (n - m)) ((2 * dot4 v (n - m)) • m)
  rw [norm4_smul, norm4_smul, abs_mul, abs_mul, abs_two] at h1
  have h2 : |dot4 v n| ≤ norm4 v * 1.001 := (abs_dot4_le v n).trans (mul_le_mul_of_nonneg_left hn (norm4_nonneg _))
  have h3 : |dot4 v (n - m)| ≤ norm4 v * e := (abs_dot4_le v _).trans (mul_le_mul_of_nonneg_left h (norm4_nonneg _))
  have he : 0 ≤ e := (norm4_nonneg _).trans h
  have hv := norm4_nonneg v
  have h4 : |dot4 v n| * norm4 (n - m) ≤ norm4 v * 1.001 * e := mul_le_mul h2 h (norm4_nonneg _) (by positivity)
  have h5 : |dot4 v (n - m)| * norm4 m ≤ norm4 v * e * 1.001 := mul_le_mul h3 hm (norm4_nonneg _) (by positivity)
  linarith

theorem reflect_neg (v n : Vec4) : reflect v (-n) = reflect v n := by
  funext i; simp only [reflect, dot4, Pi.neg_apply]; ring

/-- the direction after a turn -/
theorem FlatStepR.dir (hu : 0 ≤ u) (hu6 : u ≤ 1e-6) {η L : ℝ} {m : FlatMirror} {ray next : Ray} (hM : Spec.Placed L m.toObject) (h : FlatStepR u η m ray next) (hd : norm4 ray.d ≤ 1.0001) :
    norm4 (next.d - Spec.imageDir m.toObject ray.d) ≤ 81 * u := by
  rw [imageDir_eq hM]
  have hApos : 0 < norm4 (Spec.across m.toObject) := lt_of_lt_of_le (by norm_num) (across_ge hM)
  set ν := normalize (Spec.across m.toObject) with hν
  have hν1 : norm4 ν = 1 := norm4_normalize hApos
  have near : ∀ n : Vec4, norm4 (n - ν) ≤ 12.5 * u → norm4 n ≤ 1.001 ∧ norm4 (reflect ray.d n - reflect ray.d ν) ≤ 50.5 * u := by
    intro n hn
    have h1 := abs_le.1 ((abs_norm4_sub_le n ν).trans hn)
    have h2 : norm4 n ≤ 1.001 := by norm_num at hu6 h1 ⊢; linarith
    refine ⟨h2, (reflect_near (v := ray.d) h2 (by rw [hν1]; norm_num) hn).trans ?_⟩
    have h3 : 4.004 * norm4 ray.d * (12.5 * u) ≤ 4.004 * 1.0001 * (12.5 * u) := by
      apply mul_le_mul_of_nonneg_right _ (by positivity)
      apply mul_le_mul_of_nonneg_left hd (by norm_num)
    norm_num at h3 ⊢
    linarith
  have hn : norm4 h.normal ≤ 1.001 ∧ norm4 (reflect ray.d h.normal - reflect ray.d ν) ≤ 50.5 * u := by
    rcases h.hnormal.err hu hu6 hM with h1 | h1
    · exact near _ h1
    · have := near _ h1
      rwa [norm4_neg, reflect_neg] at this
  have e1 := C107_reflect hu hu6 (hd.trans (by norm_num)) hn.1 h.hreflect
  have e2 := norm4_sub_le next.d (reflect ray.d h.normal) (reflect ray.d ν)
  linarith [hn.2]

/-! ### One turn -/

/-- The computed ray keeps to the straight line of the ideal one: it starts within `ε` of a place of that line, its direction is off by at most `δ`. -/
structure Spec.Tracks (ε δ : ℝ) (ray ideal : Ray) : Prop where
  place : ∃ τ : ℝ, norm4 (ray.o - (ideal.o + τ • ideal.d)) ≤ ε
  dir : norm4 (ray.d - ideal.d) ≤ δ

/-- A ray without any error: a place, a direction of length one. -/
structure Spec.Ideal (ideal : Ray) : Prop where
  length : norm4 ideal.d = 1
  isPoint : ideal.o 3 = 1
  isVector : ideal.d 3 = 0

/-- The mirror image of a ray in one mirror. -/
noncomputable def Spec.image (M : Mat4) (ray : Ray) : Ray := ⟨Spec.imagePoint M ray.o, Spec.imageDir M ray.d⟩

theorem imageRay_cons (m : FlatMirror) (ms : List FlatMirror) (ray : Ray) : Spec.imageRay (m :: ms) ray = Spec.imageRay ms (Spec.image m.toObject ray) := rfl

theorem imagePoint_step (M : Mat4) (o d : Vec4) (t : ℝ) : Spec.imagePoint M (o + t • d) = Spec.imagePoint M o + t • Spec.imageDir M d := by
  rw [Spec.imagePoint, Spec.imagePoint, Spec.imageDir, Spec.seen_step]
  funext i
  simp only [Pi.add_apply, Pi.sub_apply, Pi.smul_apply, smul_eq_mul]; ring

theorem imageDir_sub (M : Mat4) (v w : Vec4) : Spec.imageDir M v - Spec.imageDir M w = Spec.imageDir M (v - w) := by
  simp only [Spec.imageDir, Spec.facing_sub]
  funext i
  simp only [Pi.sub_apply, Pi.smul_apply, smul_eq_mul]; ring

theorem norm4_imageDir {L : ℝ} {M : Mat4} (hM : Spec.Placed L M) (d : Vec4) : norm4 (Spec.imageDir M d) = norm4 d := by
  have h := (C113_image hM (0 + (1 : ℝ) • d) 0).2.2.1
  rw [imagePoint_step] at h
  simpa using h

theorem across_three (M : Mat4) : Spec.across M 3 = 0 := rfl

theorem Spec.Ideal.image {L : ℝ} {M : Mat4} (hM : Spec.Placed L M) {ideal : Ray} (h : Spec.Ideal ideal) : Spec.Ideal (Spec.image M ideal) :=
  ⟨(norm4_imageDir hM _).trans h.length, by simp only [Spec.image, Spec.imagePoint, Pi.sub_apply, Pi.smul_apply, smul_eq_mul, across_three, h.isPoint]; ring,
    by simp only [Spec.image, Spec.imageDir, Pi.sub_apply, Pi.smul_apply, smul_eq_mul, across_three, h.isVector]; ring⟩

theorem norm4_sub_of_three {v w : Vec4} (h : v 3 = w 3) : norm4 (v - w) = norm4 (cut v - cut w) := by
  simp only [norm4, Pi.sub_apply, cut, vector]
  congr 1
  simp [h]

theorem cut_of_three {v : Vec4} (h : v 3 = 0) : cut v = v := by
  funext i; fin_cases i <;> simp [cut, vector, h]

/-- a direction close to one of length one -/
theorem unit_of_near {v w : Vec4} {δ : ℝ} (hw : norm4 w = 1) (hv : v 3 = 0) (h : norm4 (v - w) ≤ δ) (hδ : δ ≤ 4e-5) : |v 0 ^ 2 + v 1 ^ 2 + v 2 ^ 2 - 1| ≤ 0.0001 := by
  have h1 := abs_le.1 ((abs_norm4_sub_le v w).trans (h.trans hδ))
  have h2 : v 0 ^ 2 + v 1 ^ 2 + v 2 ^ 2 = norm4 v ^ 2 := by
    rw [norm4, Real.sq_sqrt (by positivity), hv]; ring
  rw [h2, abs_le]
  have h3 := norm4_nonneg v
  rw [hw] at h1
  norm_num at h1 ⊢
  constructor <;> nlinarith [h1.1, h1.2]

/-- Where the ray hits: close to the plane, within the scene, close to the line. -/
theorem FlatStepR.finish_near (hu : 0 ≤ u) (hu6 : u ≤ 1e-6) {η L ε δ : ℝ} {m : FlatMirror} {ray next ideal : Ray} (hs : Spec.Scene L ray) (hi : Spec.Ideal ideal) (hm : Spec.InScene L m)
    (h : FlatStepR u η m ray next) (hF : Spec.Tracks ε δ ray ideal) :
    |Spec.seen m.toObject h.finish 2| ≤ 60 * u * L ∧ norm4 (cut h.finish) ≤ 0.991 * L ∧
    ∃ τ : ℝ, norm4 (h.finish - (ideal.o + τ • ideal.d)) ≤ ε + 8.04 * L * δ + 17.1 * u * L := by
  have hL := hs.one_le
  have hL0 : 0 < L := by linarith
  have huL : 0 ≤ u * L := mul_nonneg hu hL0.le
  have hu6' : u * L ≤ 0.000001 * L := mul_le_mul_of_nonneg_right (hu6.trans (by norm_num)) hL0.le
  have hsh : norm4 (vector (m.toObject 0 3) (m.toObject 1 3) (m.toObject 2 3)) = √(m.toObject 0 3 ^ 2 + m.toObject 1 3 ^ 2 + m.toObject 2 3 ^ 2) := by
    simp [norm4, vector]
  have hext := hm.extent
  rw [← hsh] at hext
  have hsh0 := norm4_nonneg (vector (m.toObject 0 3) (m.toObject 1 3) (m.toObject 2 3))
  have hw0 := abs_nonneg m.width
  have hl0 := abs_nonneg m.length
  norm_num at hext
  obtain ⟨p2, p0, p1, ht⟩ := C112_plane hu hu6 hs hm.placed (by linarith) (by linarith) h.hloc h.hhits h.hdist h.hfinish
  refine ⟨p2, ?_, ?_⟩
  · have h1 : norm4 (Spec.seen m.toObject h.finish) ≤ |Spec.seen m.toObject h.finish 0| + |Spec.seen m.toObject h.finish 1| + |Spec.seen m.toObject h.finish 2| := by
      refine (abs_le_of_sq_le_sq' ?_ (by positivity)).2
      have a0 := abs_nonneg (Spec.seen m.toObject h.finish 0)
      have a1 := abs_nonneg (Spec.seen m.toObject h.finish 1)
      have a2 := abs_nonneg (Spec.seen m.toObject h.finish 2)
      have e : norm4 (Spec.seen m.toObject h.finish) ^ 2 = |Spec.seen m.toObject h.finish 0| ^ 2 + |Spec.seen m.toObject h.finish 1| ^ 2 + |Spec.seen m.toObject h.finish 2| ^ 2 := by
        rw [norm4, Real.sq_sqrt (by positivity), sq_abs, sq_abs, sq_abs]
        have : Spec.seen m.toObject h.finish 3 = 0 := rfl
        rw [this]; ring
      rw [e]
      nlinarith [mul_nonneg a0 a1, mul_nonneg a0 a2, mul_nonneg a1 a2]
    have h2 := hm.placed.facing_ge h.finish
    have h3 : Spec.facing m.toObject h.finish = Spec.seen m.toObject h.finish - vector (m.toObject 0 3) (m.toObject 1 3) (m.toObject 2 3) := by rw [Spec.seen_eq]; abel
    have h4 := norm4_add_le (Spec.seen m.toObject h.finish) (-vector (m.toObject 0 3) (m.toObject 1 3) (m.toObject 2 3))
    rw [← sub_eq_add_neg, ← h3, norm4_neg] at h4
    norm_num at h2 p0 p1 ⊢
    linarith
  · obtain ⟨τ, hτ⟩ := hF.place
    refine ⟨τ + h.dist, ?_⟩
    have hd : norm4 (cut (h.dist • ray.d)) ≤ 8.041 * L := by
      have e : cut (h.dist • ray.d) = h.dist • cut ray.d := by funext i; fin_cases i <;> simp [cut, vector]
      rw [e, norm4_smul]
      have := mul_le_mul ht (unit_le hs.length) (norm4_nonneg _) (by positivity)
      norm_num at this ⊢
      linarith
    have hB : norm4 (cut (ray.o + h.dist • ray.d)) ≤ 9.041 * L := by
      have e : cut (ray.o + h.dist • ray.d) = cut ray.o + cut (h.dist • ray.d) := by funext i; fin_cases i <;> simp [cut, vector]
      rw [e]
      have := norm4_add_le (cut ray.o) (cut (h.dist • ray.d))
      have := hs.start'
      norm_num at hd ⊢
      linarith
    have e1 := h.hfinish.err_scene hu hu6 hL hd (by norm_num) hB (by norm_num) (by norm_num)
    rw [← norm4_sub_of_three (by simp [h.finish3, hs.isPoint, hs.isVector])] at e1
    have e2 : h.finish - (ideal.o + (τ + h.dist) • ideal.d) = (h.finish - (ray.o + h.dist • ray.d)) + ((ray.o - (ideal.o + τ • ideal.d)) + h.dist • (ray.d - ideal.d)) := by
      funext i; simp only [Pi.add_apply, Pi.sub_apply, Pi.smul_apply, smul_eq_mul]; ring
    have e3 := norm4_add_le (h.finish - (ray.o + h.dist • ray.d)) ((ray.o - (ideal.o + τ • ideal.d)) + h.dist • (ray.d - ideal.d))
    have e4 := norm4_add_le (ray.o - (ideal.o + τ • ideal.d)) (h.dist • (ray.d - ideal.d))
    rw [norm4_smul] at e4
    have e5 : |h.dist| * norm4 (ray.d - ideal.d) ≤ 8.04 * L * δ := mul_le_mul ht hF.dir (norm4_nonneg _) (by positivity)
    rw [e2]
    norm_num at e1 e5 ⊢
    linarith

/-- One turn: the ray stays in the scene and follows the mirror image of the line. -/
theorem FlatStepR.follows (hu : 0 ≤ u) (hu6 : u ≤ 1e-6) {η L ε δ : ℝ} {m : FlatMirror} {ray next ideal : Ray} (hη : 0 ≤ η) (hη2 : η ≤ 0.001) (hs : Spec.Scene L ray) (hi : Spec.Ideal ideal)
    (hm : Spec.InScene L m) (h : FlatStepR u η m ray next) (hF : Spec.Tracks ε δ ray ideal) (hδ : δ + 81 * u ≤ 4e-5) :
    Spec.Scene L next ∧ Spec.Tracks (ε + 8.05 * L * δ + 140 * u * L) (δ + 81 * u) next (Spec.image m.toObject ideal) := by
  have hL := hs.one_le
  have hL0 : 0 < L := by linarith
  have huL : 0 ≤ u * L := mul_nonneg hu hL0.le
  have hu6' : u * L ≤ 0.000001 * L := mul_le_mul_of_nonneg_right (hu6.trans (by norm_num)) hL0.le
  have huuL : u ≤ u * L := by nlinarith
  have hδ0 : 0 ≤ δ := (norm4_nonneg _).trans hF.dir
  have hδL : δ ≤ L * δ := by nlinarith
  have hi' := hi.image hm.placed
  -- the direction
  have hdn : norm4 ray.d ≤ 1.0001 := by
    have := unit_le hs.length
    rwa [cut_of_three hs.isVector] at this
  have d1 := h.dir hu hu6 hm.placed hdn
  have d2 : norm4 (next.d - (Spec.image m.toObject ideal).d) ≤ δ + 81 * u := by
    have e1 := norm4_sub_le next.d (Spec.imageDir m.toObject ray.d) (Spec.imageDir m.toObject ideal.d)
    rw [imageDir_sub, norm4_imageDir hm.placed] at e1
    have := hF.dir
    show norm4 (next.d - Spec.imageDir m.toObject ideal.d) ≤ _
    linarith
  have d3 := unit_of_near hi'.length h.nextd3 d2 hδ
  have d4 : norm4 next.d ≤ 1.0001 := by
    have := unit_le d3
    rwa [cut_of_three h.nextd3] at this
  -- the place
  obtain ⟨p2, pL, τ, hτ⟩ := h.finish_near hu hu6 hs hi hm hF
  have q1 : norm4 (cut (η • next.d)) ≤ 0.0011 * L := by
    rw [cut_of_three (by simp [h.nextd3]), norm4_smul, abs_of_nonneg hη]
    have := mul_le_mul hη2 d4 (norm4_nonneg _) (by norm_num)
    norm_num at this ⊢
    linarith
  have q2 : norm4 (cut (h.finish + η • next.d)) ≤ 0.993 * L := by
    have e : cut (h.finish + η • next.d) = cut h.finish + cut (η • next.d) := by funext i; fin_cases i <;> simp [cut, vector]
    rw [e]
    have := norm4_add_le (cut h.finish) (cut (η • next.d))
    norm_num at q1 pL ⊢
    linarith
  have q3 := h.hnext.err_scene hu hu6 hL q1 (by norm_num) q2 (by norm_num) (by norm_num)
  dsimp only at q3
  have q4 : norm4 (cut next.o) ≤ L := by
    have := norm4_add_le (cut next.o - cut (h.finish + η • next.d)) (cut (h.finish + η • next.d))
    rw [sub_add_cancel] at this
    norm_num at q2 q3
    linarith
  refine ⟨⟨hL, ?_, d3, h.next3, h.nextd3⟩, ⟨τ + η, ?_⟩, d2⟩
  · have e : next.o 0 ^ 2 + next.o 1 ^ 2 + next.o 2 ^ 2 = norm4 (cut next.o) ^ 2 := by rw [norm4_cut_sq, dot3]; ring
    rw [e]
    exact pow_le_pow_left₀ (norm4_nonneg _) q4 2
  · rw [← norm4_sub_of_three (by simp [h.next3, h.finish3, h.nextd3])] at q3
    have r1 : norm4 (h.finish - Spec.imagePoint m.toObject h.finish) ≤ 120.1 * u * L := by
      rw [Spec.imagePoint, sub_sub_cancel, norm4_smul]
      have hA := across_ge hm.placed
      have hA0 : 0 < norm4 (Spec.across m.toObject) := lt_of_lt_of_le (by norm_num) hA
      rw [abs_div, abs_mul, abs_two, abs_of_pos (show 0 < norm4 (Spec.across m.toObject) ^ 2 by positivity), div_mul_eq_mul_div, div_le_iff₀ (by positivity), pow_two, ← mul_assoc]
      apply mul_le_mul_of_nonneg_right _ hA0.le
      have := mul_le_mul_of_nonneg_left hA (show 0 ≤ 120.1 * u * L by positivity)
      norm_num at this ⊢
      linarith
    have r2 := (C113_image hm.placed h.finish (ideal.o + τ • ideal.d)).2.2.1
    rw [imagePoint_step] at r2
    have e2 : next.o - ((Spec.image m.toObject ideal).o + (τ + η) • (Spec.image m.toObject ideal).d) = (next.o - (h.finish + η • next.d)) + ((h.finish - Spec.imagePoint m.toObject h.finish) +
        ((Spec.imagePoint m.toObject h.finish - (Spec.imagePoint m.toObject ideal.o + τ • Spec.imageDir m.toObject ideal.d)) + η • (next.d - (Spec.image m.toObject ideal).d))) := by
      funext i; simp only [Spec.image, Pi.add_apply, Pi.sub_apply, Pi.smul_apply, smul_eq_mul]; ring
    have e3 := norm4_add_le (next.o - (h.finish + η • next.d)) ((h.finish - Spec.imagePoint m.toObject h.finish) +
        ((Spec.imagePoint m.toObject h.finish - (Spec.imagePoint m.toObject ideal.o + τ • Spec.imageDir m.toObject ideal.d)) + η • (next.d - (Spec.image m.toObject ideal).d)))
    have e4 := norm4_add_le (h.finish - Spec.imagePoint m.toObject h.finish)
        ((Spec.imagePoint m.toObject h.finish - (Spec.imagePoint m.toObject ideal.o + τ • Spec.imageDir m.toObject ideal.d)) + η • (next.d - (Spec.image m.toObject ideal).d))
    have e5 := norm4_add_le (Spec.imagePoint m.toObject h.finish - (Spec.imagePoint m.toObject ideal.o + τ • Spec.imageDir m.toObject ideal.d)) (η • (next.d - (Spec.image m.toObject ideal).d))
    rw [norm4_smul, abs_of_nonneg hη, r2] at e5
    have e6 : η * norm4 (next.d - (Spec.image m.toObject ideal).d) ≤ 0.001 * (δ + 81 * u) := mul_le_mul hη2 d2 (norm4_nonneg _) (by norm_num)
    rw [e2]
    norm_num at q3 r1 hτ e6 ⊢
    linarith

/-! ### The whole path -/

/-- **C113 (2).** However many mirrors: the ray that the tracer computes keeps to the line of the ray reflected without errors, that is, of the mirror image of the ray in one mirror after the other. The error of
its direction grows linearly with the number of mirrors, its distance from the line quadratically, whatever the angles at which the mirrors are hit. -/
theorem C113_path (hu : 0 ≤ u) (hu6 : u ≤ 1e-6) {η L : ℝ} {ms : List FlatMirror} {ray last : Ray} (hη : 0 ≤ η) (hη2 : η ≤ 0.001) (hm : ∀ m ∈ ms, Spec.InScene L m)
    (h : FlatPathR u η ms ray last) : ∀ {ε δ : ℝ} {ideal : Ray}, Spec.Scene L ray → Spec.Ideal ideal → Spec.Tracks ε δ ray ideal → δ + 81 * ms.length * u ≤ 4e-5 →
    Spec.Scene L last ∧ Spec.Ideal (Spec.imageRay ms ideal) ∧
    Spec.Tracks (ε + 8.05 * ms.length * L * δ + (140 * ms.length + 330 * ms.length ^ 2) * u * L) (δ + 81 * ms.length * u) last (Spec.imageRay ms ideal) := by
  induction h with
  | nil ray =>
    intro ε δ ideal hs hi hF _
    refine ⟨hs, hi, ?_⟩
    simpa [Spec.imageRay] using hF
  | @cons m ms ray mid last h hs' ih =>
    intro ε δ ideal hs hi hF hδ
    have hL := hs.one_le
    have huL : 0 ≤ u * L := mul_nonneg hu (by linarith)
    have hn : (0 : ℝ) ≤ ms.length := Nat.cast_nonneg _
    have hnu : 0 ≤ ms.length * u := mul_nonneg hn hu
    have hnuL : 0 ≤ ms.length * (u * L) := mul_nonneg hn huL
    have hc : ((m :: ms).length : ℝ) = ms.length + 1 := by simp
    rw [hc] at hδ ⊢
    have hmm := hm m (by simp)
    obtain ⟨hs1, hF1⟩ := h.follows hu hu6 hη hη2 hs hi hmm hF (by norm_num at hδ ⊢; linarith)
    obtain ⟨hs2, hi2, hF2⟩ := ih (fun m' h' => hm m' (by simp [h'])) hs1 (hi.image hmm.placed) hF1 (by norm_num at hδ ⊢; linarith)
    refine ⟨hs2, hi2, ?_, ?_⟩
    · obtain ⟨τ, hτ⟩ := hF2.place
      refine ⟨τ, hτ.trans ?_⟩
      have : 0 ≤ (7.95 * ms.length * (u * L) + 330 * (u * L)) := by positivity
      norm_num at this ⊢
      linarith
    · refine hF2.dir.trans ?_
      linarith

/-- The bound on the distance from the ideal line of the place of the next hit after `n` mirrors, for a ray that starts on the line with an error `δ` of its direction. -/
noncomputable def Spec.pathError (u L δ : ℝ) (n : ℕ) : ℝ := 8.05 * (n + 1) * L * δ + (20 + 800 * n + 330 * n ^ 2) * u * L

/-- **C113 (3).** The place of the next hit after any number of mirrors lies close to the ideal line, and in the plane of the mirror up to `60 u L`. -/
theorem C113_end (hu : 0 ≤ u) (hu6 : u ≤ 1e-6) {η L δ : ℝ} {ms : List FlatMirror} {m : FlatMirror} {ray last next : Ray} (hη : 0 ≤ η) (hη2 : η ≤ 0.001) (hms : ∀ m ∈ ms, Spec.InScene L m)
    (hm : Spec.InScene L m) (h : FlatPathR u η ms ray last) (hend : FlatStepR u η m last next) (hs : Spec.Scene L ray) {d : Vec4} (hd : norm4 d = 1) (hd3 : d 3 = 0)
    (hδ : norm4 (ray.d - d) ≤ δ) (hδ2 : δ + 81 * ms.length * u ≤ 4e-5) :
    |Spec.seen m.toObject hend.finish 2| ≤ 60 * u * L ∧
    ∃ τ : ℝ, norm4 (hend.finish - ((Spec.imageRay ms ⟨ray.o, d⟩).o + τ • (Spec.imageRay ms ⟨ray.o, d⟩).d)) ≤ Spec.pathError u L δ ms.length := by
  have hF : Spec.Tracks 0 δ ray ⟨ray.o, d⟩ := ⟨⟨0, by simp [norm4]⟩, hδ⟩
  obtain ⟨h1, h2, h3⟩ := C113_path hu hu6 hη hη2 hms h (ideal := (⟨ray.o, d⟩ : Ray)) hs ⟨hd, hs.isPoint, hd3⟩ hF hδ2
  obtain ⟨p1, -, τ, hτ⟩ := hend.finish_near hu hu6 h1 h2 hm h3
  refine ⟨p1, τ, hτ.trans ?_⟩
  have hL := hs.one_le
  have huL : 0 ≤ u * L := mul_nonneg hu (by linarith)
  have hn : (0 : ℝ) ≤ ms.length := Nat.cast_nonneg _
  have hnuL : 0 ≤ ms.length * (u * L) := mul_nonneg hn huL
  have hδ0 : 0 ≤ δ := (norm4_nonneg _).trans hδ
  have hLδ : 0 ≤ L * δ := mul_nonneg (by linarith) hδ0
  rw [Spec.pathError]
  norm_num
  linarith

/-- **C113 (4).** The place of the next hit after any number of mirrors, against the place where the ideal ray meets the plane of that mirror: only the last mirror's angle counts. -/
theorem C113_hit (hu : 0 ≤ u) (hu6 : u ≤ 1e-6) {η L δ T : ℝ} {ms : List FlatMirror} {m : FlatMirror} {ray last next : Ray} (hη : 0 ≤ η) (hη2 : η ≤ 0.001) (hms : ∀ m ∈ ms, Spec.InScene L m)
    (hm : Spec.InScene L m) (h : FlatPathR u η ms ray last) (hend : FlatStepR u η m last next) (hs : Spec.Scene L ray) {d : Vec4} (hd : norm4 d = 1) (hd3 : d 3 = 0)
    (hδ : norm4 (ray.d - d) ≤ δ) (hδ2 : δ + 81 * ms.length * u ≤ 4e-5) (hslope : Spec.facing m.toObject (Spec.imageRay ms ⟨ray.o, d⟩).d 2 ≠ 0)
    (hT : Spec.seen m.toObject ((Spec.imageRay ms ⟨ray.o, d⟩).o + T • (Spec.imageRay ms ⟨ray.o, d⟩).d) 2 = 0) :
    norm4 (hend.finish - ((Spec.imageRay ms ⟨ray.o, d⟩).o + T • (Spec.imageRay ms ⟨ray.o, d⟩).d)) ≤
      Spec.pathError u L δ ms.length + (60 * u * L + 1.0001 * Spec.pathError u L δ ms.length) / |Spec.facing m.toObject (Spec.imageRay ms ⟨ray.o, d⟩).d 2| := by
  obtain ⟨h1, τ, h2⟩ := C113_end hu hu6 hη hη2 hms hm h hend hs hd hd3 hδ hδ2
  have hideal : Spec.Ideal (Spec.imageRay ms ⟨ray.o, d⟩) := (C113_path hu hu6 hη hη2 hms h (ε := 0) (ideal := (⟨ray.o, d⟩ : Ray)) hs ⟨hd, hs.isPoint, hd3⟩ ⟨⟨0, by simp [norm4]⟩, hδ⟩ hδ2).2.1
  set I := Spec.imageRay ms ⟨ray.o, d⟩ with hI
  set E := Spec.pathError u L δ ms.length with hE
  set k := Spec.facing m.toObject I.d 2 with hk
  have hkpos : 0 < |k| := abs_pos.2 hslope
  have a1 : |Spec.seen m.toObject hend.finish 2 - Spec.seen m.toObject (I.o + τ • I.d) 2| ≤ 1.0001 * E := by
    have e := congrFun (Spec.seen_sub m.toObject hend.finish (I.o + τ • I.d)) 2
    rw [Pi.sub_apply] at e
    rw [e]
    refine abs_facing_le hm.placed ?_ 2
    rw [cut_of_three (v := cut _ - cut _) (by simp [cut, vector]), ← norm4_sub_of_three (by simp [hend.finish3, hideal.isPoint, hideal.isVector])]
    exact h2
  have a2 : Spec.seen m.toObject (I.o + τ • I.d) 2 = (τ - T) * k := by
    rw [Spec.seen_step] at hT ⊢
    simp only [Pi.add_apply, Pi.smul_apply, smul_eq_mul] at hT ⊢
    rw [← hk] at hT ⊢
    linarith
  have a3 : |τ - T| * |k| ≤ 60 * u * L + 1.0001 * E := by
    rw [← abs_mul, ← a2]
    have := abs_sub_abs_le_abs_sub (Spec.seen m.toObject (I.o + τ • I.d) 2) (Spec.seen m.toObject hend.finish 2)
    rw [abs_sub_comm] at this
    linarith
  have a4 : |τ - T| ≤ (60 * u * L + 1.0001 * E) / |k| := (le_div_iff₀ hkpos).2 a3
  have e : hend.finish - (I.o + T • I.d) = (hend.finish - (I.o + τ • I.d)) + (τ - T) • I.d := by
    funext i; simp only [Pi.add_apply, Pi.sub_apply, Pi.smul_apply, smul_eq_mul]; ring
  rw [e]
  have := norm4_add_le (hend.finish - (I.o + τ • I.d)) ((τ - T) • I.d)
  rw [norm4_smul, hideal.length, mul_one] at this
  linarith

/-- **C113 (6).** In exact arithmetic, reflection after reflection is the same as mirror image after mirror image. -/
theorem C113_exact {η L : ℝ} {ms : List FlatMirror} {ray last : Ray} (hη : 0 ≤ η) (hη2 : η ≤ 0.001) (hms : ∀ m ∈ ms, Spec.InScene L m) (h : FlatPathR 0 η ms ray last) (hs : Spec.Scene L ray)
    (hd : norm4 ray.d = 1) : last.d = (Spec.imageRay ms ray).d ∧ ∃ τ : ℝ, last.o = (Spec.imageRay ms ray).o + τ • (Spec.imageRay ms ray).d := by
  have hF : Spec.Tracks 0 0 ray ray := ⟨⟨0, by simp [norm4]⟩, by simp [norm4]⟩
  obtain ⟨-, -, ⟨τ, h1⟩, h2⟩ := C113_path le_rfl (by norm_num) hη hη2 hms h hs ⟨hd, hs.isPoint, hs.isVector⟩ hF (by norm_num)
  have zero : ∀ v w : Vec4, norm4 (v - w) ≤ 0 → v = w := by
    intro v w hvw
    funext i
    have := abs_le_norm4 (v - w) i
    rw [Pi.sub_apply] at this
    exact sub_eq_zero.1 (abs_nonpos_iff.1 (this.trans hvw))
  simp only [mul_zero, zero_mul, add_zero] at h1 h2
  exact ⟨zero _ _ h2, τ, zero _ _ h1⟩

/-- **C113 (5).** In numbers: double precision, a scene of fifteen units, up to a hundred mirrors. -/
theorem C113_doubles {η T : ℝ} {ms : List FlatMirror} {m : FlatMirror} {ray last next : Ray} (hη : 0 ≤ η) (hη2 : η ≤ 0.001) (hms : ∀ m ∈ ms, Spec.InScene 15 m) (hn : ms.length ≤ 100)
    (hm : Spec.InScene 15 m) (h : FlatPathR (2 ^ (-53 : ℤ)) η ms ray last) (hend : FlatStepR (2 ^ (-53 : ℤ)) η m last next) (hs : Spec.Scene 15 ray) {d : Vec4} (hd : norm4 d = 1) (hd3 : d 3 = 0)
    (hδ : norm4 (ray.d - d) ≤ 5 * 2 ^ (-53 : ℤ)) (hslope : 0.1 ≤ |Spec.facing m.toObject (Spec.imageRay ms ⟨ray.o, d⟩).d 2|)
    (hT : Spec.seen m.toObject ((Spec.imageRay ms ⟨ray.o, d⟩).o + T • (Spec.imageRay ms ⟨ray.o, d⟩).d) 2 = 0) :
    norm4 (hend.finish - ((Spec.imageRay ms ⟨ray.o, d⟩).o + T • (Spec.imageRay ms ⟨ray.o, d⟩).d)) ≤ 7e-8 := by
  have hn' : (ms.length : ℝ) ≤ 100 := by exact_mod_cast hn
  have hn0 : (0 : ℝ) ≤ ms.length := Nat.cast_nonneg _
  have hpos : 0 < |Spec.facing m.toObject (Spec.imageRay ms ⟨ray.o, d⟩).d 2| := lt_of_lt_of_le (by norm_num) hslope
  refine (C113_hit (by positivity) (by norm_num) hη hη2 hms hm h hend hs hd hd3 hδ ?_ (abs_pos.1 hpos) hT).trans ?_
  · norm_num
    linarith
  · have hE : Spec.pathError (2 ^ (-53 : ℤ)) 15 (5 * 2 ^ (-53 : ℤ)) ms.length ≤ 6e-9 := by
      rw [Spec.pathError]
      have : (ms.length : ℝ) ^ 2 ≤ 100 ^ 2 := pow_le_pow_left₀ hn0 hn' 2
      norm_num at this ⊢
      linarith
    have hq : (60 * 2 ^ (-53 : ℤ) * 15 + 1.0001 * Spec.pathError (2 ^ (-53 : ℤ)) 15 (5 * 2 ^ (-53 : ℤ)) ms.length) / |Spec.facing m.toObject (Spec.imageRay ms ⟨ray.o, d⟩).d 2| ≤ 6.3e-8 := by
      rw [div_le_iff₀ hpos]
      norm_num at hE hslope ⊢
      linarith
    norm_num at hE hq ⊢
    linarith

/-! ### Paths that the hypotheses allow -/

theorem TransformR.exact (hu : 0 ≤ u) (M : Mat4) (v : Vec4) : TransformR u M v (M.mulVec v) := by
  intro i
  have e : M.mulVec v i = M i 0 * v 0 + M i 1 * v 1 + M i 2 * v 2 + M i 3 * v 3 := by simp [Matrix.mulVec, dotProduct, Fin.sum_univ_four]
  rw [e]
  exact sums4_exact hu _ _ _ _ _ _ _ _

theorem AdvanceR.exact (hu : 0 ≤ u) (ray : Ray) (t : ℝ) : AdvanceR u ray t (ray.o + t • ray.d) :=
  ⟨fun i => t * ray.d i, fun _ => Rounds.exact hu _, fun _ => by simpa using Rounds.exact hu _⟩

/-- The turn without rounding is among the turns with rounding. -/
noncomputable def FlatStepR.exact (hu : 0 ≤ u) (η t : ℝ) (m : FlatMirror) (ray : Ray) (ht : planeIntersect m.width m.length ⟨m.toObject.mulVec ray.o, m.toObject.mulVec ray.d⟩ = ((t : EReal), (t : EReal)))
    (h1 : ray.o 3 = 1) (h0 : ray.d 3 = 0) :
    FlatStepR u η m ray ⟨ray.o + t • ray.d + η • reflect ray.d (normalize (Spec.across m.toObject)), reflect ray.d (normalize (Spec.across m.toObject))⟩ where
  loc := ⟨m.toObject.mulVec ray.o, m.toObject.mulVec ray.d⟩
  hits := ((t : EReal), (t : EReal))
  dist := t
  hloc := ⟨TransformR.exact hu _ _, TransformR.exact hu _ _⟩
  hhits := ht ▸ PlaneR.exact hu _ _ _
  hdist := Or.inl rfl
  finish := ray.o + t • ray.d
  hfinish := AdvanceR.exact hu _ _
  normal := normalize (Spec.across m.toObject)
  hnormal := by
    refine ⟨_, _, TransformR.exact hu _ _, ?_, Or.inl rfl⟩
    have e : vector ((m.toObject.transpose).mulVec (vector 0 0 1) 0) ((m.toObject.transpose).mulVec (vector 0 0 1) 1) ((m.toObject.transpose).mulVec (vector 0 0 1) 2) = Spec.across m.toObject := by
      funext i; fin_cases i <;> simp [vector, Spec.across, Matrix.mulVec, dotProduct, Fin.sum_univ_four]
    rw [e]
    exact NormalizeR.exact hu _
  hreflect := (C107_exact hu _ _ 1 1 1).1
  hnext := AdvanceR.exact hu ⟨_, _⟩ _
  finish3 := by simp [h1, h0]
  next3 := by simp [h1, h0, reflect, normalize, across_three]
  nextd3 := by simp [h0, reflect, normalize, across_three]

/-- A second mirror, upright, in the way of the ray from the first. -/
noncomputable def uprightMatrix : Mat4 := !![0, 0, -1, 187 / 20; 0, 1, 0, -2; 1, 0, 0, 24 / 5; 0, 0, 0, 1]

theorem uprightMatrix_placed : Spec.Placed 15 uprightMatrix := by
  refine ⟨fun x y z => ?_, ?_⟩
  · have : ((uprightMatrix 0 0 * x + uprightMatrix 0 1 * y + uprightMatrix 0 2 * z) ^ 2 + (uprightMatrix 1 0 * x + uprightMatrix 1 1 * y + uprightMatrix 1 2 * z) ^ 2 +
        (uprightMatrix 2 0 * x + uprightMatrix 2 1 * y + uprightMatrix 2 2 * z) ^ 2) - (x ^ 2 + y ^ 2 + z ^ 2) = 0 := by
      simp [uprightMatrix]; ring
    rw [this, abs_zero]
    positivity
  · simp [uprightMatrix]; norm_num

theorem turned_inScene : Spec.InScene 15 ⟨turnedMatrix, 4, 4⟩ := by
  refine ⟨⟨turnedMatrix_placed.rigid, turnedMatrix_placed.shift.trans (by norm_num)⟩, ?_⟩
  have : √(turnedMatrix 0 3 ^ 2 + turnedMatrix 1 3 ^ 2 + turnedMatrix 2 3 ^ 2) ≤ 10.4 := by
    rw [Real.sqrt_le_left (by norm_num)]
    simp [turnedMatrix]; norm_num
  norm_num at this ⊢
  linarith

theorem upright_inScene : Spec.InScene 15 ⟨uprightMatrix, 2, 2⟩ := by
  refine ⟨uprightMatrix_placed, ?_⟩
  have : √(uprightMatrix 0 3 ^ 2 + uprightMatrix 1 3 ^ 2 + uprightMatrix 2 3 ^ 2) ≤ 10.8 := by
    rw [Real.sqrt_le_left (by norm_num)]
    simp [uprightMatrix]; norm_num
  norm_num at this ⊢
  linarith

/-- where a plane is hit, without rounding -/
theorem planeIntersect_found {L width length T : ℝ} {M : Mat4} {ray : Ray} (hs : Spec.Scene L ray) (hM : Spec.Placed L M) (hw : |width| ≤ 2 * L) (hl2 : |length| ≤ 2 * L)
    (hc : 0.001 ≤ |Spec.facing M ray.d 2|) (hT : Spec.seen M (ray.o + T • ray.d) 2 = 0) (h0 : |Spec.seen M (ray.o + T • ray.d) 0| ≤ width / 2 - 5e-8 * L)
    (h1 : |Spec.seen M (ray.o + T • ray.d) 1| ≤ length / 2 - 5e-8 * L) : planeIntersect width length ⟨M.mulVec ray.o, M.mulVec ray.d⟩ = ((T : EReal), (T : EReal)) := by
  obtain ⟨t, h2, h3⟩ := C112_plane_found le_rfl (by norm_num) hs hM hw hl2 ((C112_local_exact M ray _).2 rfl) (PlaneR.exact le_rfl _ _ _) hc hT (by simpa using h0) (by simpa using h1)
  simp only [mul_zero, zero_mul, zero_div, abs_nonpos_iff, sub_eq_zero] at h3
  rw [h2, h3]

theorem norm4_across_turned : norm4 (Spec.across turnedMatrix) = 1 := by
  rw [norm4, Real.sqrt_eq_one]; simp [Spec.across, turnedMatrix, vector]; norm_num

theorem turned_image : Spec.imageRay [⟨turnedMatrix, 4, 4⟩] ⟨point 0 2 0, vector 0 0 1⟩ = ⟨point (258 / 25) 2 (344 / 25), vector (-24 / 25) 0 (-7 / 25)⟩ := by
  simp only [Spec.imageRay, Spec.imagePoint, Spec.imageDir, norm4_across_turned, Ray.mk.injEq]
  constructor <;> funext i <;> fin_cases i <;> simp [Spec.seen, Spec.facing, Spec.across, turnedMatrix, point, vector] <;> norm_num

theorem turned_reflect : reflect (vector 0 0 1) (normalize (Spec.across turnedMatrix)) = vector (-24 / 25) 0 (-7 / 25) := by
  rw [normalize_eq_smul, norm4_across_turned]
  funext i; fin_cases i <;> simp [reflect, dot4, Spec.across, turnedMatrix, vector] <;> norm_num

theorem path_scene : Spec.Scene 15 ⟨point 0 2 0, vector 0 0 1⟩ := by
  refine ⟨by norm_num, ?_, ?_, by simp [point], by simp [vector]⟩ <;> simp [point, vector] <;> norm_num

/-- The path exists: a ray that is reflected by a turned mirror and then by an upright one. -/
theorem path_exists (hu : 0 ≤ u) : ∃ last next : Ray, FlatPathR u 1e-6 [⟨turnedMatrix, 4, 4⟩] ⟨point 0 2 0, vector 0 0 1⟩ last ∧ Nonempty (FlatStepR u 1e-6 ⟨uprightMatrix, 2, 2⟩ last next) := by
  have hm1 := turned_inScene
  have s1 := FlatStepR.exact hu 1e-6 (43 / 4) ⟨turnedMatrix, 4, 4⟩ ⟨point 0 2 0, vector 0 0 1⟩ (by
    refine planeIntersect_found path_scene hm1.placed (by norm_num) (by norm_num) ?_ ?_ ?_ ?_
    · have e : Spec.facing turnedMatrix (vector 0 0 1) 2 = 4 / 5 := by simp [Spec.facing, turnedMatrix, vector]
      show 0.001 ≤ |Spec.facing turnedMatrix (vector 0 0 1) 2|
      rw [e]; norm_num
    · simp [Spec.seen, turnedMatrix, vector, point]; norm_num
    · have e2 : Spec.seen turnedMatrix (point 0 2 0 + (43 / 4 : ℝ) • vector 0 0 1) 0 = -5 / 4 := by simp [Spec.seen, turnedMatrix, vector, point]; norm_num
      show |Spec.seen turnedMatrix (point 0 2 0 + (43 / 4 : ℝ) • vector 0 0 1) 0| ≤ 4 / 2 - _
      rw [e2]; norm_num
    · have e2 : Spec.seen turnedMatrix (point 0 2 0 + (43 / 4 : ℝ) • vector 0 0 1) 1 = 0 := by simp [Spec.seen, turnedMatrix, vector, point]
      show |Spec.seen turnedMatrix (point 0 2 0 + (43 / 4 : ℝ) • vector 0 0 1) 1| ≤ 4 / 2 - _
      rw [e2]; norm_num) (by simp [point]) (by simp [vector])
  have e : (⟨point 0 2 0 + (43 / 4 : ℝ) • vector 0 0 1 + (1e-6 : ℝ) • reflect (vector 0 0 1) (normalize (Spec.across turnedMatrix)), reflect (vector 0 0 1) (normalize (Spec.across turnedMatrix))⟩ : Ray) =
      ⟨point (-0.96e-6) 2 (43 / 4 - 0.28e-6), vector (-24 / 25) 0 (-7 / 25)⟩ := by
    rw [turned_reflect, Ray.mk.injEq]
    refine ⟨?_, rfl⟩
    funext i; fin_cases i <;> simp [point, vector] <;> norm_num
  dsimp only at s1
  rw [e] at s1
  refine ⟨_, _, FlatPathR.cons s1 (FlatPathR.nil _), ⟨FlatStepR.exact hu 1e-6 (5 - 1e-6) ⟨uprightMatrix, 2, 2⟩ _ ?_ (by simp [point]) (by simp [vector])⟩⟩
  refine planeIntersect_found (L := 15) ⟨by norm_num, ?_, ?_, by simp [point], by simp [vector]⟩ upright_inScene.placed (by norm_num) (by norm_num) ?_ ?_ ?_ ?_
  · simp [point]; norm_num
  · simp [vector]; norm_num
  · have e : Spec.facing uprightMatrix (vector (-24 / 25) 0 (-7 / 25)) 2 = -24 / 25 := by simp [Spec.facing, uprightMatrix, vector]
    show 0.001 ≤ |Spec.facing uprightMatrix (vector (-24 / 25) 0 (-7 / 25)) 2|
    rw [e]; norm_num
  · simp [Spec.seen, uprightMatrix, vector, point]; norm_num
  · have e2 : Spec.seen uprightMatrix (point (-0.96e-6) 2 (43 / 4 - 0.28e-6) + (5 - 1e-6 : ℝ) • vector (-24 / 25) 0 (-7 / 25)) 0 = 0 := by
      simp [Spec.seen, uprightMatrix, vector, point]; norm_num
    show |Spec.seen uprightMatrix (point (-0.96e-6) 2 (43 / 4 - 0.28e-6) + (5 - 1e-6 : ℝ) • vector (-24 / 25) 0 (-7 / 25)) 0| ≤ 2 / 2 - _
    rw [e2]; norm_num
  · have e2 : Spec.seen uprightMatrix (point (-0.96e-6) 2 (43 / 4 - 0.28e-6) + (5 - 1e-6 : ℝ) • vector (-24 / 25) 0 (-7 / 25)) 1 = 0 := by
      simp [Spec.seen, uprightMatrix, vector, point]
    show |Spec.seen uprightMatrix (point (-0.96e-6) 2 (43 / 4 - 0.28e-6) + (5 - 1e-6 : ℝ) • vector (-24 / 25) 0 (-7 / 25)) 1| ≤ 2 / 2 - _
    rw [e2]; norm_num

-- in double precision that ray hits the second mirror within `1e-11` of where it should
example {last next : Ray} (h : FlatPathR (2 ^ (-53 : ℤ)) 1e-6 [⟨turnedMatrix, 4, 4⟩] ⟨point 0 2 0, vector 0 0 1⟩ last) (hend : FlatStepR (2 ^ (-53 : ℤ)) 1e-6 ⟨uprightMatrix, 2, 2⟩ last next) :
    norm4 (hend.finish - point (-4.8) 2 9.35) ≤ 1e-11 := by
  have hd : norm4 (vector 0 0 1) = 1 := by simp [norm4, vector]
  have e : Spec.facing uprightMatrix (vector (-24 / 25) 0 (-7 / 25)) 2 = -24 / 25 := by simp [Spec.facing, uprightMatrix, vector]
  have h1 := C113_hit (T := 63 / 4) (δ := 0) (by positivity) (by norm_num) (by norm_num) (by norm_num) (fun m hm => by rw [List.mem_singleton] at hm; rw [hm]; exact turned_inScene) upright_inScene h hend
    path_scene (d := vector 0 0 1) hd (by simp [vector]) (by simp [norm4]) (by norm_num) (by rw [turned_image]; dsimp only; rw [e]; norm_num)
    (by rw [turned_image]; simp [Spec.seen, uprightMatrix, vector, point]; norm_num)
  dsimp only at h1
  rw [turned_image] at h1
  dsimp only at h1
  have e3 : point (258 / 25) 2 (344 / 25) + (63 / 4 : ℝ) • vector (-24 / 25) 0 (-7 / 25) = point (-4.8) 2 9.35 := by
    funext i; fin_cases i <;> simp [point, vector] <;> norm_num
  rw [e3, e] at h1
  refine h1.trans ?_
  simp only [Spec.pathError, List.length_singleton]
  norm_num [abs_of_neg]

-- the bound for a hundred mirrors holds for this one
example {last next : Ray} (h : FlatPathR (2 ^ (-53 : ℤ)) 1e-6 [⟨turnedMatrix, 4, 4⟩] ⟨point 0 2 0, vector 0 0 1⟩ last) (hend : FlatStepR (2 ^ (-53 : ℤ)) 1e-6 ⟨uprightMatrix, 2, 2⟩ last next) :
    ∃ X : Vec4, norm4 (hend.finish - X) ≤ 7e-8 := by
  have e : Spec.facing uprightMatrix (vector (-24 / 25) 0 (-7 / 25)) 2 = -24 / 25 := by simp [Spec.facing, uprightMatrix, vector]
  refine ⟨_, C113_doubles (T := 63 / 4) (by norm_num) (by norm_num) (fun m hm => by rw [List.mem_singleton] at hm; rw [hm]; exact turned_inScene) (by simp) upright_inScene h hend
    path_scene (d := vector 0 0 1) (by simp [norm4, vector]) (by simp [vector]) (by simp [norm4]) (by rw [turned_image]; dsimp only; rw [e]; norm_num [abs_of_neg]) ?_⟩
  rw [turned_image]; simp [Spec.seen, uprightMatrix, vector, point]; norm_num

-- without rounding the direction is exact
example : ∃ last : Ray, FlatPathR 0 1e-6 [⟨turnedMatrix, 4, 4⟩] ⟨point 0 2 0, vector 0 0 1⟩ last ∧ last.d = vector (-24 / 25) 0 (-7 / 25) := by
  obtain ⟨last, -, h, -⟩ := path_exists (u := 0) le_rfl
  refine ⟨last, h, ?_⟩
  have := (C113_exact (by norm_num) (by norm_num) (fun m hm => by rw [List.mem_singleton] at hm; rw [hm]; exact turned_inScene) h path_scene (by simp [norm4, vector])).1
  rwa [turned_image] at this

end PyRayT
