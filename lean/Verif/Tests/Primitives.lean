import Verif.Model.Normals
import Mathlib.Tactic.NormNum.RealSqrt
import Mathlib.Tactic.NormNum.Abs

/-!
# The tests of the project, run on the model: primitives

Not proofs of properties: a check of the model. The calls and expected values of `test/test_tinygfx/test_g3d/test_primitives.py` are repeated with the definitions of the model, except lines 295-297 and 386-390 (sloping rays of length one). Comments give the lines of the tests. `np.allclose` became equality: the model computes with exact reals.
-/

namespace PyRayT

/-- evaluates hits -/
macro "hits" : tactic => `(tactic| (
  simp only [Prim.intersect, sphereIntersect, paraboloidIntersect, planeIntersect, planeBound, boxIntersect, slab, toBox, cubeSpans, cylinderIntersect, binomialRoot, clipHits, capHits, polyRoots, addMask, sort2,
    point, vector, isclose0, Matrix.cons_val_zero, Matrix.cons_val_one, Matrix.cons_val, max_def, min_def, ge_iff_le, gt_iff_lt]
  norm_num only [if_true, if_false, ite_true, ite_false, EReal.coe_le_coe_iff, EReal.coe_lt_coe_iff, le_top, bot_le, top_le_iff, le_bot_iff, EReal.coe_ne_top, EReal.coe_ne_bot, bot_ne_top, top_ne_bot, and_true, true_and,
    and_false, false_and, not_true, not_false_iff, bot_lt_top, EReal.bot_lt_coe, EReal.coe_lt_top, not_top_lt, lt_self_iff_false, le_refl, ← EReal.coe_sub, ← EReal.coe_mul]))

/-! ### `TestSphere` -/

-- lines 127-132
example : (Prim.sphere 1 : Prim).intersect ⟨point (0) (0) (0), vector (1) (0) (0)⟩ = (((1 : ℝ) : EReal), ((-1 : ℝ) : EReal)) := by
  hits

-- lines 135-137
example : (Prim.sphere 1 : Prim).intersect ⟨point (0) (0) (2), vector (1) (0) (0)⟩ = (⊤, ⊤) := by
  hits

-- lines 139-145
example : (Prim.sphere 1 : Prim).intersect ⟨point (100) (0) (0), vector (1) (0) (0)⟩ = (((-99 : ℝ) : EReal), ((-101 : ℝ) : EReal)) := by
  hits

-- lines 160-163
example : (Prim.sphere 1 : Prim).intersect ⟨point (-1) (0) (1), vector (1) (0) (0)⟩ = (((1 : ℝ) : EReal), ((1 : ℝ) : EReal)) := by
  hits


/-! ### `TestParaboloid` -/

-- lines 195-196
example : (Prim.paraboloid 1 3 : Prim).intersect ⟨point (0) (0) (0), vector (0) (1) (0)⟩ = (((0 : ℝ) : EReal), ((0 : ℝ) : EReal)) := by
  hits

-- lines 198-199
example : (Prim.paraboloid 1 3 : Prim).intersect ⟨point (0) (0) (0), vector (0) (0) (1)⟩ = (((0 : ℝ) : EReal), ((3 : ℝ) : EReal)) := by
  hits

-- lines 201-202
example : (Prim.paraboloid 1 3 : Prim).intersect ⟨point (0) (0) (0), vector (1) (0) (0)⟩ = (((0 : ℝ) : EReal), ((0 : ℝ) : EReal)) := by
  hits

-- lines 205-207
example : (Prim.paraboloid 1 3 : Prim).intersect ⟨point (0) (0) (-1), vector (0) (0) (1)⟩ = (((1 : ℝ) : EReal), ((4 : ℝ) : EReal)) := by
  hits

-- lines 209-210
example : (Prim.paraboloid 1 3 : Prim).intersect ⟨point (2) (0) (0), vector (0) (0) (-1)⟩ = (((-3 : ℝ) : EReal), ((-1 : ℝ) : EReal)) := by
  hits

-- lines 213-215
example : (Prim.paraboloid 1 3 : Prim).intersect ⟨point (0) (-2) (1), vector (0) (1) (0)⟩ = (((0 : ℝ) : EReal), ((4 : ℝ) : EReal)) := by
  hits

-- lines 217-218
example : (Prim.paraboloid 1 3 : Prim).intersect ⟨point (0) (0) (1), vector (0) (1) (0)⟩ = (((-2 : ℝ) : EReal), ((2 : ℝ) : EReal)) := by
  hits

-- lines 221-222
example : (Prim.paraboloid 1 3 : Prim).intersect ⟨point (-1) (0) (0), vector (0) (1) (0)⟩ = (⊤, ⊤) := by
  hits

-- lines 224-225
example : (Prim.paraboloid 1 3 : Prim).intersect ⟨point (-10) (0) (0), vector (0) (0) (1)⟩ = (⊤, ⊤) := by
  hits

-- lines 227-229
example : (Prim.paraboloid 1 3 : Prim).intersect ⟨point (0) (0) (63/20), vector (1) (1) (0)⟩ = (⊤, ⊤) := by
  hits
  split_ifs <;> simp_all

-- lines 231-245
example : (Prim.paraboloid 1 3 : Prim).intersect ⟨point (0) (0) (1), vector (0) (1) (0)⟩ = (((-2 : ℝ) : EReal), ((2 : ℝ) : EReal)) := by
  hits

-- lines 231-245
example : (Prim.paraboloid 1 3 : Prim).intersect ⟨point (0) (0) (1), vector (0) (0) (1)⟩ = (((-1 : ℝ) : EReal), ((2 : ℝ) : EReal)) := by
  hits


/-! ### `TestPlane` -/

-- lines 291-293
example : (Prim.plane 2 2 : Prim).intersect ⟨point (0) (0) (1), vector (0) (0) (-1)⟩ = (((1 : ℝ) : EReal), ((1 : ℝ) : EReal)) := by
  hits


/-! ### `TestCube` -/

-- lines 365-373
example : (Prim.cube ![-1, -1, -1] ![1, 1, 1] : Prim).intersect ⟨point (0) (0) (0), vector (1) (0) (0)⟩ = (((-1 : ℝ) : EReal), ((1 : ℝ) : EReal)) := by
  hits

-- lines 365-373
example : (Prim.cube ![-1, -1, -1] ![1, 1, 1] : Prim).intersect ⟨point (0) (0) (0), vector (0) (1) (0)⟩ = (((-1 : ℝ) : EReal), ((1 : ℝ) : EReal)) := by
  hits

-- lines 365-373
example : (Prim.cube ![-1, -1, -1] ![1, 1, 1] : Prim).intersect ⟨point (0) (0) (0), vector (0) (0) (1)⟩ = (((-1 : ℝ) : EReal), ((1 : ℝ) : EReal)) := by
  hits

-- lines 375-384
example : (Prim.cube ![-1, -1, -1] ![1, 1, 1] : Prim).intersect ⟨point (-2) (0) (0), vector (1) (0) (0)⟩ = (((1 : ℝ) : EReal), ((3 : ℝ) : EReal)) := by
  hits

-- lines 375-384
example : (Prim.cube ![-1, -1, -1] ![1, 1, 1] : Prim).intersect ⟨point (0) (-2) (0), vector (0) (1) (0)⟩ = (((1 : ℝ) : EReal), ((3 : ℝ) : EReal)) := by
  hits

-- lines 375-384
example : (Prim.cube ![-1, -1, -1] ![1, 1, 1] : Prim).intersect ⟨point (0) (0) (-2), vector (0) (0) (1)⟩ = (((1 : ℝ) : EReal), ((3 : ℝ) : EReal)) := by
  hits

-- lines 392-395
example : (Prim.cube ![-1, -1, -1] ![1, 1, 1] : Prim).intersect ⟨point (-2) (0) (0), vector (0) (1) (0)⟩ = (⊤, ⊤) := by
  hits

-- lines 397-408
example : (Prim.cube ![-1, -1, -1] ![1, 2, 5] : Prim).intersect ⟨point (0) (0) (0), vector (1) (0) (0)⟩ = (((-1 : ℝ) : EReal), ((1 : ℝ) : EReal)) := by
  hits

-- lines 397-408
example : (Prim.cube ![-1, -1, -1] ![1, 2, 5] : Prim).intersect ⟨point (0) (0) (0), vector (0) (1) (0)⟩ = (((-1 : ℝ) : EReal), ((2 : ℝ) : EReal)) := by
  hits

-- lines 397-408
example : (Prim.cube ![-1, -1, -1] ![1, 2, 5] : Prim).intersect ⟨point (0) (0) (0), vector (0) (0) (1)⟩ = (((-1 : ℝ) : EReal), ((5 : ℝ) : EReal)) := by
  hits

-- lines 410-428
example : (Prim.cube ![-1, -1, -1] ![1, 1, 1] : Prim).intersect ⟨point (-1/2) (0) (0), vector (1) (0) (0)⟩ = (((-1/2 : ℝ) : EReal), ((3/2 : ℝ) : EReal)) := by
  hits

-- lines 410-428
example : (Prim.cube ![-1, -1, -1] ![1, 1, 1] : Prim).intersect ⟨point (-2) (0) (0), vector (0) (-1) (0)⟩ = (⊤, ⊤) := by
  hits


/-! ### `TestCylinder` -/

-- lines 504-513
example : (Prim.cylinder 1 (-1) 1 : Prim).intersect ⟨point (-2) (0) (0), vector (1) (0) (0)⟩ = (((1 : ℝ) : EReal), ((3 : ℝ) : EReal)) := by
  hits

-- lines 504-513
example : (Prim.cylinder 1 (-1) 1 : Prim).intersect ⟨point (-2) (0) (1/2), vector (1) (0) (0)⟩ = (((1 : ℝ) : EReal), ((3 : ℝ) : EReal)) := by
  hits

-- lines 504-513
example : (Prim.cylinder 1 (-1) 1 : Prim).intersect ⟨point (-2) (0) (-1/2), vector (1) (0) (0)⟩ = (((1 : ℝ) : EReal), ((3 : ℝ) : EReal)) := by
  hits

-- lines 515-522
example : (Prim.cylinder 1 (-1) 1 : Prim).intersect ⟨point (0) (0) (0), vector (0) (0) (1)⟩ = (((-1 : ℝ) : EReal), ((1 : ℝ) : EReal)) := by
  hits

-- lines 524-531
example : (Prim.cylinder 1 (-1) 1 : Prim).intersect ⟨point (-2) (0) (-1), vector (1) (0) (1)⟩ = (((1 : ℝ) : EReal), ((2 : ℝ) : EReal)) := by
  hits

-- lines 533-538
example : (Prim.cylinder 2 0 4 : Prim).intersect ⟨point (0) (0) (-1), vector (1) (0) (0)⟩ = (⊤, ⊤) := by
  hits

-- lines 540-542
example : (Prim.cylinder 2 0 4 : Prim).intersect ⟨point (0) (0) (3), vector (1) (0) (0)⟩ = (((-2 : ℝ) : EReal), ((2 : ℝ) : EReal)) := by
  hits

-- lines 544-546
example : (Prim.cylinder 2 0 4 : Prim).intersect ⟨point (0) (0) (0), vector (0) (0) (1)⟩ = (((0 : ℝ) : EReal), ((4 : ℝ) : EReal)) := by
  hits

-- lines 548-560
example : (Prim.cylinder 1 (-1) 1 : Prim).intersect ⟨point (2) (0) (0), vector (0) (0) (1)⟩ = (⊤, ⊤) := by
  hits

-- lines 562-576
example : (Prim.cylinder 1 (-1) 1 : Prim).intersect ⟨point (0) (0) (0), vector (1) (0) (0)⟩ = (((-1 : ℝ) : EReal), ((1 : ℝ) : EReal)) := by
  hits

/-! ### `TestPlane`, continued: sloping rays, edges -/

-- lines 299-302
example : (Prim.plane 2 2 : Prim).intersect ⟨point 0 0 1, vector 0 0 1⟩ = (((-1 : ℝ) : EReal), ((-1 : ℝ) : EReal)) := by
  hits

-- lines 304-307
example : (Prim.plane 2 2 : Prim).intersect ⟨point 0 0 1, vector 1 0 0⟩ = (⊤, ⊤) := by
  hits

-- lines 309-313
example : (Prim.plane 2 2 : Prim).intersect ⟨point 2 0 1, vector 0 0 (-1)⟩ = (⊤, ⊤) := by
  hits

-- lines 319-322
example : (Prim.plane 3 2 : Prim).intersect ⟨point 1.49 0.99 1, vector 0 0 (-1)⟩ = (((1 : ℝ) : EReal), ((1 : ℝ) : EReal)) := by
  hits

-- lines 324-327
example : (Prim.plane 3 2 : Prim).intersect ⟨point 1.51 1.01 1, vector 0 0 (-1)⟩ = (⊤, ⊤) := by
  hits

-- lines 329-343
example : (Prim.plane 2 2 : Prim).intersect ⟨point 0 0 (-1), vector 0 1 1⟩ = (((1 : ℝ) : EReal), ((1 : ℝ) : EReal)) := by
  hits

-- lines 329-343
example : (Prim.plane 2 2 : Prim).intersect ⟨point 0 0 (-1), vector 0 1 0⟩ = (⊤, ⊤) := by
  hits

/-! ### Normals -/

/-- evaluates normals -/
macro "normals" : tactic => `(tactic| (
  simp only [Prim.normal, cubeNormalComp, cubeSpans, isclose, point, vector, max_def, min_def, Matrix.cons_val_zero, Matrix.cons_val_one, Matrix.cons_val]
  norm_num only [if_true, if_false, ite_true, ite_false]
  funext i
  fin_cases i <;> simp [normalize, norm4, Matrix.cons_val] <;> norm_num))

-- lines 165-171
example : (Prim.sphere 1 : Prim).normal (point 0 0 (-1)) = vector 0 0 (-1) := by
  normals

-- lines 165-171
example : (Prim.sphere 1 : Prim).normal (point 0 0 1) = vector 0 0 1 := by
  normals

-- lines 165-171
example : (Prim.sphere 1 : Prim).normal (point 0 1 0) = vector 0 1 0 := by
  normals

-- lines 165-171
example : (Prim.sphere 1 : Prim).normal (point 0 (-1) 0) = vector 0 (-1) 0 := by
  normals

-- lines 165-171
example : (Prim.sphere 1 : Prim).normal (point 1 0 0) = vector 1 0 0 := by
  normals

-- lines 165-171
example : (Prim.sphere 1 : Prim).normal (point (-1) 0 0) = vector (-1) 0 0 := by
  normals

-- lines 267-268
example : (Prim.paraboloid 1 3 : Prim).normal (point 0 0 0) = vector 0 0 (-1) := by
  normals

-- lines 430-442
example : (Prim.cube ![-1, -1, -1] ![1, 1, 1] : Prim).normal (point (-1) 0 0) = vector (-1) 0 0 := by
  normals

-- lines 430-442
example : (Prim.cube ![-1, -1, -1] ![1, 1, 1] : Prim).normal (point 1 0 0) = vector 1 0 0 := by
  normals

-- lines 430-442
example : (Prim.cube ![-1, -1, -1] ![1, 1, 1] : Prim).normal (point 0 (-1) 0) = vector 0 (-1) 0 := by
  normals

-- lines 430-442
example : (Prim.cube ![-1, -1, -1] ![1, 1, 1] : Prim).normal (point 0 1 0) = vector 0 1 0 := by
  normals

-- lines 430-442
example : (Prim.cube ![-1, -1, -1] ![1, 1, 1] : Prim).normal (point 0 0 (-1)) = vector 0 0 (-1) := by
  normals

-- lines 430-442
example : (Prim.cube ![-1, -1, -1] ![1, 1, 1] : Prim).normal (point 0 0 1) = vector 0 0 1 := by
  normals

-- lines 444-458
example : (Prim.cube ![-2, -3, -4] ![5, 6, 7] : Prim).normal (point (-2) 0 0) = vector (-1) 0 0 := by
  normals

-- lines 444-458
example : (Prim.cube ![-2, -3, -4] ![5, 6, 7] : Prim).normal (point 5 0 0) = vector 1 0 0 := by
  normals

-- lines 444-458
example : (Prim.cube ![-2, -3, -4] ![5, 6, 7] : Prim).normal (point 0 (-3) 0) = vector 0 (-1) 0 := by
  normals

-- lines 444-458
example : (Prim.cube ![-2, -3, -4] ![5, 6, 7] : Prim).normal (point 0 6 0) = vector 0 1 0 := by
  normals

-- lines 444-458
example : (Prim.cube ![-2, -3, -4] ![5, 6, 7] : Prim).normal (point 0 0 (-4)) = vector 0 0 (-1) := by
  normals

-- lines 444-458
example : (Prim.cube ![-2, -3, -4] ![5, 6, 7] : Prim).normal (point 0 0 7) = vector 0 0 1 := by
  normals

-- lines 460-466
example : (Prim.cube ![-1, -1, -1] ![1, 1, 1] : Prim).normal (point (-1 + 1e-8) 0.3 0.7) = vector (-1) 0 0 := by
  normals

-- lines 578-590
example : (Prim.cylinder 1 (-1) 1 : Prim).normal (point (-1) 0 0) = vector (-1) 0 0 := by
  normals

-- lines 578-590
example : (Prim.cylinder 1 (-1) 1 : Prim).normal (point 1 0 0) = vector 1 0 0 := by
  normals

-- lines 578-590
example : (Prim.cylinder 1 (-1) 1 : Prim).normal (point 0 (-1) 0) = vector 0 (-1) 0 := by
  normals

-- lines 578-590
example : (Prim.cylinder 1 (-1) 1 : Prim).normal (point 0 1 0) = vector 0 1 0 := by
  normals

-- lines 578-590
example : (Prim.cylinder 1 (-1) 1 : Prim).normal (point 0 0 (-1)) = vector 0 0 (-1) := by
  normals

-- lines 578-590
example : (Prim.cylinder 1 (-1) 1 : Prim).normal (point 0 0 1) = vector 0 0 1 := by
  normals

-- lines 592-605
example : (Prim.cylinder 3 (-5) 7 : Prim).normal (point (-3) 0 0) = vector (-1) 0 0 := by
  normals

-- lines 592-605
example : (Prim.cylinder 3 (-5) 7 : Prim).normal (point 3 0 0) = vector 1 0 0 := by
  normals

-- lines 592-605
example : (Prim.cylinder 3 (-5) 7 : Prim).normal (point 0 (-3) 0) = vector 0 (-1) 0 := by
  normals

-- lines 592-605
example : (Prim.cylinder 3 (-5) 7 : Prim).normal (point 0 3 0) = vector 0 1 0 := by
  normals

-- lines 592-605
example : (Prim.cylinder 3 (-5) 7 : Prim).normal (point 0 0 (-5)) = vector 0 0 (-1) := by
  normals

-- lines 592-605
example : (Prim.cylinder 3 (-5) 7 : Prim).normal (point 0 0 7) = vector 0 0 1 := by
  normals

-- lines 270-271
example : (Prim.paraboloid 1 3).normal (point 0 2 1) = (√2)⁻¹ • vector 0 1 (-1) := by
  have e : √8 = 2 * √2 := by rw [show (8 : ℝ) = 2 ^ 2 * 2 by norm_num, Real.sqrt_mul (by norm_num), Real.sqrt_sq (by norm_num)]
  simp only [Prim.normal, isclose, point, vector, Matrix.cons_val]
  norm_num only [if_false]
  funext i
  fin_cases i <;> simp [normalize, norm4, Matrix.cons_val] <;> norm_num [e] <;> field_simp

-- lines 468-477
example : (Prim.cube ![-1, -1, -1] ![1, 1, 1]).normal (point 1 1 1) = normalize (vector 1 1 1) := by
  simp only [Prim.normal, cubeNormalComp, cubeSpans, isclose, point, vector, max_def, min_def, Matrix.cons_val_zero, Matrix.cons_val_one, Matrix.cons_val]
  norm_num only [if_true, if_false, ite_true, ite_false]

/-! ### Corners -/

-- lines 111-124
example : cornerPoints (Prim.boundSpans (.sphere 3)) = [point (-3) (-3) (-3), point (-3) (-3) 3, point (-3) 3 (-3), point (-3) 3 3, point 3 (-3) (-3), point 3 (-3) 3, point 3 3 (-3), point 3 3 3] := by
  simp [cornerPoints, Prim.boundSpans, cubeSpans, Matrix.cons_val]

-- lines 350-363
example : cornerPoints (Prim.boundSpans (.cube ![-1, -1, -1] ![1, 2, 3])) =
    [point (-1) (-1) (-1), point (-1) (-1) 3, point (-1) 2 (-1), point (-1) 2 3, point 1 (-1) (-1), point 1 (-1) 3, point 1 2 (-1), point 1 2 3] := by
  simp [cornerPoints, Prim.boundSpans, cubeSpans, Matrix.cons_val]
  norm_num

end PyRayT
