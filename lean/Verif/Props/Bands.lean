import Verif.Props.Boundary
import Verif.Props.Primitives

/-! # C61, C64, C72 cannot hold without their conditions

Witnesses against the unconditional properties: a paraboloid and a unit ray that is almost, but not exactly, parallel to its
axis, and a union of two separated parts. -/

namespace PyRayT

open Matrix Spec

variable (argsort : List EReal → List ℕ)

/-- a unit ray towards a paraboloid's bottom, tilted by 5e-5, from 100000 units away -/
noncomputable def tiltedRay : Ray := ⟨point 0 0 100000, vector (80000 / 1600000001) 0 (-(1599999999 / 1600000001))⟩

theorem tiltedRay_unit : norm4 tiltedRay.d = 1 := by
  simp only [tiltedRay, norm4, vector, Matrix.cons_val]
  rw [show (1 : ℝ) = √1 by simp]
  congr 1
  norm_num

theorem tiltedRay_hits :
    paraboloidIntersect 1 1 tiltedRay = ((((99999 / (1599999999 / 1600000001) : ℝ)) : EReal), ((100000 / (1599999999 / 1600000001) : ℝ) : EReal)) := by
  have h1 : isclose0 ((80000 / 1600000001 : ℝ) * (80000 / 1600000001)) := by
    rw [isclose0, abs_of_pos (by norm_num)]; norm_num
  have h2 : ¬ isclose0 (0 - 4 * -(1599999999 / 1600000001) : ℝ) := by
    apply not_isclose0; rw [abs_of_pos (by norm_num)]; norm_num
  have h3 : ¬ isclose0 (-(1599999999 / 1600000001) : ℝ) := by
    apply not_isclose0; rw [abs_neg, abs_of_pos (by norm_num)]; norm_num
  have h4 : ¬ (-(1599999999 / 1600000001) : ℝ) ≥ 0 := by norm_num
  simp only [paraboloidIntersect, tiltedRay, capHits, clipHits, point, vector, Matrix.cons_val, mul_zero, zero_mul, mul_one,
    add_zero, h1, h2, h3, h4, if_true, if_false, false_and, addMask_False]
  have e1 : (-(0 - 4 * 100000) / (0 - 4 * -(1599999999 / 1600000001)) : ℝ) = 100000 / (1599999999 / 1600000001) := by
    norm_num
  have e2 : ((0 - 100000) / -(1599999999 / 1600000001) : ℝ) = 100000 / (1599999999 / 1600000001) := by
    norm_num
  have e4 : ((1 - 100000) / -(1599999999 / 1600000001) : ℝ) = 99999 / (1599999999 / 1600000001) := by
    norm_num
  rw [e1, e2, e4]
  have e3 : (99999 / (1599999999 / 1600000001) : ℝ) ≤ 100000 / (1599999999 / 1600000001) := by
    norm_num
  have e3' := EReal.coe_le_coe_iff.2 e3
  simp only [sort2, bot_le, inf_of_le_right, sup_of_le_left, min_eq_right, max_eq_left, e3']
  rw [if_pos]
  · simp
  · simpa using e3

/-- **C61 and C72 are false for rays in the tolerance band.** A paraboloid of focal length 1 and height 1, just built and not moved, and
a unit ray tilted by 5e-5 to its axis: both reported distances are to points off the surface, outside the solid, and outside its
bounding box. -/
theorem C61_C72_band_false : ∃ (h : Heap) (ray : Ray) (t1 t2 : ℝ),
    (∀ fuel, TidyReaches argsort fuel Heap.empty h) ∧ (h.obj 0).kind = .prim (.paraboloid 1 1) ∧ (h.obj 0).world = 1 ∧
    norm4 ray.d = 1 ∧ (∀ depth, (intersectObj argsort (depth + 1) h 0 ray).1 = [(t1 : EReal), (t2 : EReal)]) ∧
    ∀ t, t = t1 ∨ t = t2 → ¬ Closed (.paraboloid 1 1) (ray.at t) ∧ ((h.obj 0).aobb 0).2 < (ray.at t 0 : ℝ) := by
  have t : ∀ fuel, TidyReaches argsort fuel Heap.empty (newPrim Heap.empty (.paraboloid 1 1)) := fun fuel =>
    .step (.newPrim (.paraboloid 1 1)) (.refl _) trivial trivial rfl
  have k0 : ((newPrim Heap.empty (.paraboloid 1 1)).obj 0).kind = .prim (.paraboloid 1 1) := by
    simp [newPrim, Heap.alloc, Heap.empty]
  have w0 : ((newPrim Heap.empty (.paraboloid 1 1)).obj 0).world = 1 := by
    simp [newPrim, Heap.alloc, Heap.empty]
  have hi := reaches_inv argsort empty_inv (TidyReaches.reaches argsort (t 0))
  have o0 := (hi.synced 0 (show 0 < 1 by omega)).2.1
  have b0 := hi.boxes 0 (show 0 < 1 by omega) _ k0
  rw [w0, primBox_one_eq] at b0
  rw [w0, inv_one] at o0
  refine ⟨_, tiltedRay, 99999 / (1599999999 / 1600000001), 100000 / (1599999999 / 1600000001), t, k0, w0, tiltedRay_unit, fun depth => ?_, fun t ht => ?_⟩
  · have hm : tiltedRay.map (1 : Mat4) = tiltedRay := by simp [Ray.map]
    simp only [intersectObj, k0, leafIntersect, o0, hm, Prim.intersect, tiltedRay_hits]
    rw [sort2_of_le]
    exact EReal.coe_le_coe_iff.2 (by norm_num)
  · have hx : 4.9 < tiltedRay.at t 0 := by
      rcases ht with rfl | rfl <;> (simp [tiltedRay, Ray.at, point, vector]; norm_num)
    have hz : tiltedRay.at t 2 ≤ 1 := by
      rcases ht with rfl | rfl <;> (simp only [tiltedRay, Ray.at, point, vector, Pi.add_apply, Pi.smul_apply, smul_eq_mul, Matrix.cons_val]; norm_num)
    refine ⟨fun hc => ?_, ?_⟩
    · simp only [Closed] at hc
      nlinarith [hc.1, sq_nonneg (tiltedRay.at t 1)]
    · rw [b0]
      have hs : √(4 * 1 * 1 : ℝ) = 2 := by rw [show (4 * 1 * 1 : ℝ) = 2 ^ 2 by norm_num]; exact Real.sqrt_sq (by norm_num)
      simp only [toBox, Prim.boundSpans, cubeSpans, cons_val_zero, hs]
      rw [max_eq_right (by norm_num)]
      exact EReal.coe_lt_coe_iff.2 (by linarith)

/-- **C64 is false for a union of separated parts.** A composite, just built, and a unit ray parallel to an axis: the ray has points inside
and points outside the solid, but no finite hit is reported. -/
theorem C64_separated_false (ha : IsArgsort argsort) : ∃ (h : Heap) (ray : Ray) (s : Solid) (t u : ℝ),
    (∀ fuel, TidyReaches argsort fuel Heap.empty h) ∧ (h.obj 2).kind = .csg .union 0 1 ∧ Represents h 2 s ∧ GoodRay ray ∧
    norm4 ray.d = 1 ∧ s.Interior (ray.at t) ∧ s.Outside (ray.at u) ∧
    ∀ x ∈ (intersectObj argsort 2 h 2 ray).1, x = ⊤ := by
  obtain ⟨h, ray, s, t, h1, h2, h3, h4, h5, -, h6, h7, -, h8⟩ := C06_separated_union_false argsort ha
  refine ⟨h, ray, s, t, 0, h1, h2, h3, h4, h5, h6, h7, fun x hx => ?_⟩
  rw [h8] at hx
  simpa using hx

end PyRayT
