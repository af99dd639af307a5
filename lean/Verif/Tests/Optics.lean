import Verif.Model.Render
import Verif.Model.Defaults
import Verif.Props.Optics
import Verif.Props.Sources
import Verif.Model.Components
import Verif.Model.Utils
import Mathlib.Analysis.SpecialFunctions.Trigonometric.Arctan
import Mathlib.Analysis.Real.Pi.Bounds
import Mathlib.Analysis.SpecialFunctions.Trigonometric.Bounds
import Mathlib.Tactic.NormNum.RealSqrt
import Mathlib.Tactic.NormNum.Abs

/-!
# The tests of the project, run on the model: materials, sources, lenses, colours, camera

Not proofs of properties: a check of the model. Comments give the lines in `test/`. A test with a bundle of equal columns is repeated for one column.
-/

namespace PyRayT

open Matrix Classical

/-! ### `test_pyrayt/test_pyrayt_materials.py` -/

/-- `cg.XYPlane()` in a new program -/
noncomputable def xyPlane : Heap := newPrim Heap.empty (planeCall none none)

theorem xyPlane_normal (p : Vec4) : surfaceNormal xyPlane 0 p = vector 0 0 1 := by
  simp [surfaceNormal, xyPlane, newPrim, Heap.alloc, Heap.empty, planeCall, worldNormal, Prim.normal]
  funext i; fin_cases i <;> simp [normalize, norm4, vector, zeroW]

/-- a column of `pyrayt.RaySet(n)` with the direction (0, dy, dz) -/
noncomputable def testCol (dy dz index wavelength : ℝ) : Col :=
  { ray := ⟨point 0 0 0, vector 0 dy dz⟩, generation := 0, intensity := 100, wavelength := wavelength, index := index, id := 0 }

-- lines 15-21
example : (Material.absorber.trace (surfaceNormal xyPlane 0) (testCol 0 0 1 0.633)).ray.d = 0 := rfl

-- lines 29-36
example : (Material.mirror.trace (surfaceNormal xyPlane 0) (testCol 0 1 1 0.633)).ray.d 2 = -1 := by
  simp [Material.trace, xyPlane_normal, testCol, vector, dot4]; norm_num

-- lines 38-46
example : (Material.mirror.trace (surfaceNormal xyPlane 0) (testCol 1 1 1 0.633)).ray.d 2 = -1 ∧
    (Material.mirror.trace (surfaceNormal xyPlane 0) (testCol 1 1 1 0.633)).ray.d 1 = 1 := by
  simp [Material.trace, xyPlane_normal, testCol, vector, dot4]; norm_num

-- lines 56-62
example : ((Material.glass (.basic 1.6)).trace (surfaceNormal xyPlane 0) (testCol 0 (-1) 1 0.633)).index = 1.6 := by
  simp [Material.trace, xyPlane_normal, testCol, vector, dot4, refract, refractIndex, normalize, norm4, IndexModel.indexAt]

-- lines 64-71: the index 20 of the ray is not that of the glass
example : ((Material.glass (.basic 1.6)).trace (surfaceNormal xyPlane 0) (testCol 0 1 20 0.633)).index = 1 := by
  simp [Material.trace, xyPlane_normal, testCol, vector, dot4, refract, refractIndex, normalize, norm4]

/-- the angle that the tests compute -/
theorem test_angle {w : Vec4} (h : norm4 w = 1) (h0 : w 0 = 0) (h3 : w 3 = 0) (h1 : 0 ≤ w 1) (h2 : w 2 ≠ 0) : Real.arctan |w 1 / w 2| = Real.arcsin (w 1) := by
  have hs : w 1 ^ 2 + w 2 ^ 2 = 1 := by
    have := norm4_eq_one.1 h
    simp only [dot4, h0, h3] at this
    linarith
  have hlt : w 1 < 1 := by
    have := sq_pos_of_ne_zero h2
    nlinarith
  rw [Real.arcsin_eq_arctan ⟨by linarith, hlt⟩, abs_div, abs_of_nonneg h1, show 1 - w 1 ^ 2 = w 2 ^ 2 by linarith, Real.sqrt_sq_eq_abs]

/-- Snell's law for the plane of the tests -/
theorem test_snell {dy dz n1 far : ℝ} {m : IndexModel} {wl : ℝ} (hm : 0 < m.indexAt wl) (hdz : dz ≠ 0) (hdy : 0 ≤ dy) (h1 : 0 < n1)
    (hf : far = if 0 < dz then 1 else m.indexAt wl) (hlt : n1 * (dy / √(dy ^ 2 + dz ^ 2)) < far) :
    Real.arctan |((Material.glass m).trace (surfaceNormal xyPlane 0) (testCol dy dz n1 wl)).ray.d 1 /
      ((Material.glass m).trace (surfaceNormal xyPlane 0) (testCol dy dz n1 wl)).ray.d 2| = Real.arcsin (n1 * (dy / √(dy ^ 2 + dz ^ 2)) / far) := by
  have hv0 : vector 0 dy dz ≠ 0 := fun h => hdz (by simpa [vector] using congrFun h 2)
  have hnv : norm4 (vector 0 dy dz) = √(dy ^ 2 + dz ^ 2) := by simp [norm4, vector]
  have hp : 0 < dy ^ 2 + dz ^ 2 := by positivity
  have hq : √(dy ^ 2 + dz ^ 2) ^ 2 = dy ^ 2 + dz ^ 2 := Real.sq_sqrt hp.le
  have hq0 : 0 < √(dy ^ 2 + dz ^ 2) := Real.sqrt_pos.2 hp
  have hdot : dot4 (vector 0 dy dz) (vector 0 0 1) = dz := by simp [dot4, vector]
  have hfar : Spec.farIndex (vector 0 dy dz) (vector 0 0 1) (m.indexAt wl) 1 = far := by rw [hf, Spec.farIndex, hdot]
  have hfp : 0 < far := by rw [hf]; split <;> [exact one_pos; exact hm]
  have a := C22_snell (vector 0 dy dz) (vector 0 0 1) n1 (m.indexAt wl) 1 hv0 (by simp [norm4, vector]) h1 hm one_pos
  simp only [hfar] at a
  have hsin : Spec.sinTo (fun i => vector 0 dy dz i / norm4 (vector 0 dy dz)) (vector 0 0 1) = dy / √(dy ^ 2 + dz ^ 2) := by
    rw [hnv, Spec.sinTo]
    have : 1 - dot4 (fun i => vector 0 dy dz i / √(dy ^ 2 + dz ^ 2)) (vector 0 0 1) ^ 2 = (dy / √(dy ^ 2 + dz ^ 2)) ^ 2 := by
      simp [dot4, vector]
      field_simp
      rw [hq]; ring
    rw [this, Real.sqrt_sq (by positivity)]
  obtain ⟨b1, b2, -, b4, b5, -⟩ := a (by rw [hsin]; exact hlt)
  have e : ((Material.glass m).trace (surfaceNormal xyPlane 0) (testCol dy dz n1 wl)).ray.d = (refract (vector 0 dy dz) (vector 0 0 1) n1 (m.indexAt wl) 1).2.1 := by
    simp only [Material.trace, xyPlane_normal, testCol]
  rw [e]
  set w := (refract (vector 0 dy dz) (vector 0 0 1) n1 (m.indexAt wl) 1).2.1
  have w0 := b2 0
  have w1 := b2 1
  have w3 := b2 3
  rw [hnv] at w0 w1 w3
  simp [vector] at w0 w1 w3
  have w0' : w 0 = 0 := w0.resolve_left hfp.ne'
  have w3' : w 3 = 0 := w3.resolve_left hfp.ne'
  have e1 : w 1 = n1 * (dy / √(dy ^ 2 + dz ^ 2)) / far := by rw [w1]; field_simp
  have e2 : dot4 w (vector 0 0 1) = w 2 := by simp [dot4, vector]
  rw [hdot, e2] at b4 b5
  have h2 : w 2 ≠ 0 := by
    rcases lt_or_gt_of_ne hdz with h | h
    · exact (b5 h.le).ne
    · exact (b4 h).ne'
  rw [test_angle b1 w0' w3' (by rw [e1]; positivity) h2, e1]

-- lines 73-82
example : Real.arctan |((Material.glass (.basic 1.6)).trace (surfaceNormal xyPlane 0) (testCol 1 (-1) 1 0.633)).ray.d 1 /
    ((Material.glass (.basic 1.6)).trace (surfaceNormal xyPlane 0) (testCol 1 (-1) 1 0.633)).ray.d 2| = Real.arcsin (Real.sin (Real.pi / 4) / 1.6) := by
  rw [test_snell (far := 1.6) (by norm_num [IndexModel.indexAt]) (by norm_num) (by norm_num) one_pos (by norm_num [IndexModel.indexAt])]
  · congr 2
    rw [Real.sin_pi_div_four]; norm_num
    rw [inv_eq_one_div, div_eq_div_iff (by positivity) (by norm_num)]; norm_num
  · have h : (1 : ℝ) ≤ √(1 ^ 2 + (-1) ^ 2) := Real.le_sqrt_of_sq_le (by norm_num)
    have : (1 : ℝ) / √(1 ^ 2 + (-1) ^ 2) ≤ 1 := (div_le_one (by linarith)).2 h
    linarith

-- lines 84-95
example : Real.arctan |((Material.glass (.basic 1.6)).trace (surfaceNormal xyPlane 0) (testCol (Real.sin 0.1) (Real.cos 0.1) 1.6 0.633)).ray.d 1 /
    ((Material.glass (.basic 1.6)).trace (surfaceNormal xyPlane 0) (testCol (Real.sin 0.1) (Real.cos 0.1) 1.6 0.633)).ray.d 2| = Real.arcsin (Real.sin 0.1 * 1.6) := by
  have hc : 0 < Real.cos 0.1 := Real.cos_pos_of_mem_Ioo ⟨by linarith [Real.pi_gt_three], by linarith [Real.pi_gt_three]⟩
  have hs : 0 ≤ Real.sin 0.1 := Real.sin_nonneg_of_nonneg_of_le_pi (by norm_num) (by linarith [Real.pi_gt_three])
  have h1 : √(Real.sin 0.1 ^ 2 + Real.cos 0.1 ^ 2) = 1 := by rw [Real.sin_sq_add_cos_sq, Real.sqrt_one]
  rw [test_snell (far := 1) (by norm_num [IndexModel.indexAt]) hc.ne' hs (by norm_num) (by rw [if_pos hc])]
  · rw [h1]; congr 1; ring
  · rw [h1]
    have := Real.sin_lt (show (0 : ℝ) < 0.1 by norm_num)
    linarith

-- lines 97-110
example : ((Material.glass (.basic 1.6)).trace (surfaceNormal xyPlane 0) (testCol 1 1 1.6 0.633)).index = 1.6 ∧
    Real.arctan |((Material.glass (.basic 1.6)).trace (surfaceNormal xyPlane 0) (testCol 1 1 1.6 0.633)).ray.d 1 /
    ((Material.glass (.basic 1.6)).trace (surfaceNormal xyPlane 0) (testCol 1 1 1.6 0.633)).ray.d 2| = Real.pi / 4 := by
  have hv0 : vector 0 1 1 ≠ 0 := fun h => by simpa [vector] using congrFun h 2
  have hdot : dot4 (vector 0 1 1) (vector 0 0 1) = 1 := by simp [dot4, vector]
  have hnv : norm4 (vector 0 1 1) = √2 := by simp [norm4, vector]; norm_num
  have a := (C23_total_internal_reflection (vector 0 1 1) (vector 0 0 1) 1.6 1.6 1 hv0 (by simp [norm4, vector]) (by norm_num) (by norm_num) one_pos).1
  simp only [Spec.farIndex, hdot, hnv] at a
  have hsin : Spec.sinTo (fun i => vector 0 1 1 i / √2) (vector 0 0 1) = √(1 / 2) := by
    rw [Spec.sinTo]
    congr 1
    simp [dot4, vector]; norm_num
  have hle : (1 / 1.6 : ℝ) ≤ √(1 / 2) := Real.le_sqrt_of_sq_le (by norm_num)
  obtain ⟨b, c⟩ := a (by rw [hsin]; norm_num at hle ⊢; linarith)
  simp only [Material.trace, xyPlane_normal, testCol, IndexModel.indexAt]
  refine ⟨c, ?_⟩
  rw [b 1, b 2]
  have h2 : √2 ≠ 0 := by positivity
  have : |(vector 0 1 1 1 / √2 - 2 * dot4 (fun i => vector 0 1 1 i / √2) (vector 0 0 1) * vector 0 0 1 1) /
      (vector 0 1 1 2 / √2 - 2 * dot4 (fun i => vector 0 1 1 i / √2) (vector 0 0 1) * vector 0 0 1 2)| = 1 := by
    have : (vector 0 1 1 1 / √2 - 2 * dot4 (fun i => vector 0 1 1 i / √2) (vector 0 0 1) * vector 0 0 1 1) /
      (vector 0 1 1 2 / √2 - 2 * dot4 (fun i => vector 0 1 1 i / √2) (vector 0 0 1) * vector 0 0 1 2) = -1 := by
      simp [dot4, vector]
      field_simp
      norm_num
    rw [this]; norm_num
  rw [this, Real.arctan_one]

-- lines 114-133
example : (IndexModel.sellmeier 1 0 0 1 0 0).indexAt 2 = √(7 / 3) ∧ (IndexModel.sellmeier 0 1 0 0 1 0).indexAt 2 = √(7 / 3) ∧
    (IndexModel.sellmeier 0 0 1 0 0 1).indexAt 2 = √(7 / 3) := by
  simp only [IndexModel.indexAt]
  refine ⟨?_, ?_, ?_⟩ <;> congr 1 <;> norm_num

/-- the glass of the next two tests -/
noncomputable def testGlass : IndexModel := .sellmeier 1 0 0 1 0 0

theorem testGlass_at : testGlass.indexAt 2 = √(7 / 3) := by
  simp only [testGlass, IndexModel.indexAt]
  congr 1; norm_num

-- lines 136-150
example : ((Material.glass testGlass).trace (surfaceNormal xyPlane 0) (testCol 0 (-1) 1 2)).index = √(7 / 3) := by
  simp [Material.trace, xyPlane_normal, testCol, vector, dot4, refract, refractIndex, normalize, norm4, testGlass_at]

-- lines 152-168
example : Real.arctan |((Material.glass testGlass).trace (surfaceNormal xyPlane 0) (testCol 1 (-1) 1 2)).ray.d 1 /
    ((Material.glass testGlass).trace (surfaceNormal xyPlane 0) (testCol 1 (-1) 1 2)).ray.d 2| = Real.arcsin (√(3 / 7) * √2 / 2) := by
  have h2 : √(1 ^ 2 + (-1) ^ 2) = √2 := by norm_num
  have h22 : √2 * √2 = 2 := Real.mul_self_sqrt (by norm_num)
  have h37 : √(7 / 3) * √(3 / 7) = 1 := by rw [← Real.sqrt_mul (by norm_num)]; norm_num
  have p2 : (0 : ℝ) < √2 := by positivity
  have p7 : (0 : ℝ) < √(7 / 3) := by positivity
  rw [test_snell (far := √(7 / 3)) (by rw [testGlass_at]; positivity) (by norm_num) (by norm_num) one_pos (by rw [testGlass_at]; norm_num)]
  · rw [h2]
    congr 1
    rw [div_eq_iff p7.ne', one_mul, div_eq_iff p2.ne']
    linear_combination (-1 : ℝ) * h37 - √(3 / 7) * √(7 / 3) / 2 * h22
  · rw [h2, one_mul, div_lt_iff₀ p2]
    have a : (1 : ℝ) < √2 := Real.lt_sqrt_of_sq_lt (by norm_num)
    have b : (1 : ℝ) < √(7 / 3) := Real.lt_sqrt_of_sq_lt (by norm_num)
    nlinarith

/-! ### `test_pyrayt/test_components/test_sources.py` -/

theorem testLine (wl : ℝ) (w : Mat4) (n : ℕ) (j : Fin n) : ((SourceKind.line 1).generate wl w n).col j =
    freshCol ⟨w *ᵥ point 0 (if 1 < n then linspace (-1 / 2) (1 / 2) n j else 0) 0, normalize (w *ᵥ vector 1 0 0)⟩ 100 wl j := by
  unfold SourceKind.generate
  rw [place_col, line_col]
  rfl

-- lines 13-19
example : (((SourceKind.line 1).generate 0.633 (rotYMatrix (Real.sin (-90 * Real.pi / 180)) (Real.cos (-90 * Real.pi / 180))) 1).col 0).ray.d = vector 0 0 1 := by
  have h : -90 * Real.pi / 180 = -(Real.pi / 2) := by ring
  rw [testLine, h, Real.sin_neg, Real.cos_neg, Real.sin_pi_div_two, Real.cos_pi_div_two]
  funext i
  fin_cases i <;> simp [freshCol, normalize, rotYMatrix, dotProduct, Fin.sum_univ_four, norm4, vector]

-- lines 21-30
example : (((SourceKind.line 1).generate 0.633 (moveMatrix 0 0 5) 1).col 0).ray = ⟨point 0 0 5, vector 1 0 0⟩ := by
  rw [testLine]
  simp only [freshCol, Ray.mk.injEq]
  constructor <;> (funext i; fin_cases i) <;> simp [normalize, moveMatrix, Matrix.mulVec, dotProduct, Fin.sum_univ_four, norm4, vector, point]

-- lines 37-46
example : (((SourceKind.line 1).generate 0.633 1 1).col 0).ray = ⟨point 0 0 0, vector 1 0 0⟩ := by
  rw [testLine]
  simp only [freshCol, Ray.mk.injEq, Matrix.one_mulVec]
  constructor <;> (funext i; fin_cases i) <;> simp [normalize, norm4, vector, point]

-- lines 48-58
example : ((SourceKind.line 1).generate 0.633 1 3).cols.map (·.ray) =
    [⟨point 0 (-0.5) 0, vector 1 0 0⟩, ⟨point 0 0 0, vector 1 0 0⟩, ⟨point 0 0.5 0, vector 1 0 0⟩] := by
  have hv : normalize (vector 1 0 0) = vector 1 0 0 := by funext i; fin_cases i <;> simp [normalize, norm4, vector]
  simp only [RayTable.cols, List.ofFn_succ, List.ofFn_zero, List.map, testLine, freshCol, Matrix.one_mulVec, hv]
  simp [linspace]
  norm_num

-- lines 60-64
example : (((SourceKind.line 1).generate 1.5 1 1).col 0).wavelength = 1.5 := by
  rw [testLine]; rfl

/-! ### `test_pyrayt/test_components/test_components.py`; `assertAlmostEqual` rounds to seven places -/

-- lines 10-17
example : lensFullThickness (some 1) (some (-1)) 1 (.scalar 1) = (1, 0) := by
  simp [lensFullThickness]; norm_num

-- lines 19-27
example : |(lensFullThickness (some (-100)) (some 100) 0.1 (.scalar 1)).1 - (0.1 + (1 / 2) ^ 2 / 100)| < 5e-8 ∧
    (lensFullThickness (some (-100)) (some 100) 0.1 (.scalar 1)).2 = 0 := by
  have h : √(100 ^ 2 - (1 / 2) ^ 2) ^ 2 = 100 ^ 2 - (1 / 2) ^ 2 := Real.sq_sqrt (by norm_num)
  have h1 : 99.99874998 < √(100 ^ 2 - (1 / 2) ^ 2) := Real.lt_sqrt_of_sq_lt (by norm_num)
  have h2 : √(100 ^ 2 - (1 / 2) ^ 2) < 99.99875002 := (Real.sqrt_lt' (by norm_num)).2 (by norm_num)
  have a : |(-100 : ℝ)| = 100 := by norm_num
  have b : |(100 : ℝ)| = 100 := by norm_num
  simp only [lensFullThickness, Aperture.maxHeight, a, b, show (-100 : ℝ) < 0 by norm_num, show (100 : ℝ) > 0 by norm_num, if_true, sub_self, and_true]
  rw [abs_lt]
  constructor <;> linarith

/-- `np.isclose(a, b, rtol=1E-3)` -/
def closeBy (a b : ℝ) : Prop := |a - b| ≤ 1e-8 + 1e-3 * |b|

-- lines 29-38
example : closeBy (lensFullThickness (some (-100)) (some 50) 0.1 (.scalar 1)).1 (0.1 + 0.5 * (1 / 2) ^ 2 / 100 + 0.5 * (1 / 2) ^ 2 / 50) ∧
    closeBy (lensFullThickness (some (-100)) (some 50) 0.1 (.scalar 1)).2 (0.5 * (1 / 2) ^ 2 / 50 - 0.5 * (1 / 2) ^ 2 / 100) := by
  have h1 : 99.99874998 < √(100 ^ 2 - (1 / 2) ^ 2) := Real.lt_sqrt_of_sq_lt (by norm_num)
  have h2 : √(100 ^ 2 - (1 / 2) ^ 2) < 99.99875002 := (Real.sqrt_lt' (by norm_num)).2 (by norm_num)
  have h3 : 49.9974998 < √(50 ^ 2 - (1 / 2) ^ 2) := Real.lt_sqrt_of_sq_lt (by norm_num)
  have h4 : √(50 ^ 2 - (1 / 2) ^ 2) < 49.9975002 := (Real.sqrt_lt' (by norm_num)).2 (by norm_num)
  have a : |(-100 : ℝ)| = 100 := by norm_num
  have b : |(50 : ℝ)| = 50 := by norm_num
  simp only [closeBy, lensFullThickness, Aperture.maxHeight, a, b, show (-100 : ℝ) < 0 by norm_num, show (50 : ℝ) > 0 by norm_num, if_true]
  rw [abs_le, abs_le, abs_of_pos (show (0 : ℝ) < 0.1 + 0.5 * (1 / 2) ^ 2 / 100 + 0.5 * (1 / 2) ^ 2 / 50 by norm_num),
    abs_of_pos (show (0 : ℝ) < 0.5 * (1 / 2) ^ 2 / 50 - 0.5 * (1 / 2) ^ 2 / 100 by norm_num)]
  refine ⟨⟨?_, ?_⟩, ?_, ?_⟩ <;> linarith

/-! ### `test_pyrayt/test_utils.py` -/

-- lines 6-23
example : [0.44, 0.49, 0.51, 0.58, 0.645].map (wavelengthToRgb 1) = [some ![0, 0, 1], some ![0, 1, 1], some ![0, 1, 0], some ![1, 1, 0], some ![1, 0, 0]] := by
  simp only [List.map, wavelengthToRgb, paint]
  norm_num

/-! ### `test_tinygfx/test_g3d/test_cameras.py` -/

/-- `OrthographicCamera(10, 1, 0.5)` -/
noncomputable def testCamera : Camera := ⟨10, 1, 0.5, 1⟩

theorem testCamera_v : testCamera.vPixels = 5 := by
  have : (0.5 : ℝ) * 10 = (5 : ℤ) := by norm_num
  simp only [Camera.vPixels, truncInt, testCamera, Nat.cast_ofNat, this, Int.floor_intCast]
  norm_num

-- lines 15-17
example : (testCamera.generateRays.map List.length) = some 50 := by
  simp [Camera.generateRays, testCamera_v, Camera.localRays]
  simp [testCamera]

-- lines 19-23
example : ∃ l, testCamera.generateRays = some l ∧ ∀ r ∈ l, r.d = vector 1 0 0 := by
  refine ⟨_, by rw [Camera.generateRays, if_neg (by rw [testCamera_v]; norm_num)], ?_⟩
  simp only [Camera.localRays, List.mem_map, List.mem_flatMap]
  rintro r ⟨a, ⟨i, -, j, -, rfl⟩, rfl⟩
  simp only [Camera.localRay, testCamera, Matrix.one_mulVec]
  funext k; fin_cases k <;> simp [normalize, norm4, vector]

-- lines 25-27
example : ∃ l, ({ testCamera with world := rotYMatrix (Real.sin (90 * Real.pi / 180)) (Real.cos (90 * Real.pi / 180)) } : Camera).generateRays = some l ∧
    ∀ r ∈ l, r.d = vector 0 0 (-1) := by
  have h : 90 * Real.pi / 180 = Real.pi / 2 := by ring
  rw [h, Real.sin_pi_div_two, Real.cos_pi_div_two]
  refine ⟨_, by rw [Camera.generateRays, if_neg (by show ¬ testCamera.vPixels < 0; rw [testCamera_v]; norm_num)], ?_⟩
  simp only [Camera.localRays, List.mem_map, List.mem_flatMap]
  rintro r ⟨a, ⟨i, -, j, -, rfl⟩, rfl⟩
  simp only [Camera.localRay]
  funext k; fin_cases k <;> simp [normalize, norm4, vector, rotYMatrix, Matrix.mulVec, dotProduct, Fin.sum_univ_four]

-- lines 29-38
example (i j : ℕ) : (testCamera.localRay i j).o = point 0 (linspace 0.5 (-0.5) 10 j) (linspace 0.25 (-0.25) 5 i) := by
  have : testCamera.vPixels.toNat = 5 := by rw [testCamera_v]; rfl
  simp only [Camera.localRay, this, Camera.vWidth]
  simp only [testCamera]
  norm_num

/-! ### `test_tinygfx/test_g3d/test_materials.py` -/

/-- lines 12-16 -/
noncomputable def testGooch : Gooch := ⟨rgb 1 1 1, rgb 1 1 0, rgb 0 0 1, 0, 0⟩

-- lines 22-31 and 33-56
example : testGooch.shade (point 0 0 0) (vector 0 0 1) (point 0 0 10) = rgb 1 1 0 ∧
    testGooch.shade (point 0 0 0) (vector 0 0 (-1)) (point 0 0 10) = rgb 0 0 1 ∧
    testGooch.shade (point 0 0 0) (vector 0 1 0) (point 0 0 10) = rgb 0.5 0.5 0.5 := by
  refine ⟨?_, ?_, ?_⟩ <;> funext i <;> fin_cases i <;>
    simp [Gooch.shade, Gooch.mix, Gooch.warmShade, Gooch.coolShade, testGooch, rgb, vector, point, norm3] <;> norm_num

end PyRayT
