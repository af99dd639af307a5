import Verif.Model.Csg
import Verif.Tests.Primitives

/-!
# The tests of the project, run on the model: operations and `array_csg`

Not proofs of properties: a check of the model. Comments give the lines in `test/test_tinygfx/test_g3d`. Left out: `TestRefraction` (its angles are general theorems, see `Verif/Props/Refraction*.lean`) and the tests that build bundles of a thousand equal columns.
-/

namespace PyRayT

/-! ### `test_operations.py`, `TestSmallestPositiveRoot` -/

-- lines 33-39
example : smallestPositiveRoot 1 (-2) 1 = ((1 : ℝ) : EReal) := by
  norm_num [smallestPositiveRoot, addMask, isclose0]

-- lines 49-55
example : smallestPositiveRoot 1 2 1 = ⊤ := by
  norm_num [smallestPositiveRoot, addMask, isclose0]

-- lines 66-72
example : smallestPositiveRoot 1 1 1 = ⊤ := by
  norm_num [smallestPositiveRoot, addMask, isclose0]

-- lines 83-89
example : smallestPositiveRoot 1 0 (-4) = ((2 : ℝ) : EReal) := by
  norm_num [smallestPositiveRoot, addMask, isclose0]

/-! ### `test_operations.py`, `TestBinomialRoot` -/

-- lines 102-108
example : binomialRoot 1 (-2) 1 = (((1 : ℝ) : EReal), ((1 : ℝ) : EReal)) := by
  hits

-- lines 118-124
example : binomialRoot 1 2 1 = (((-1 : ℝ) : EReal), ((-1 : ℝ) : EReal)) := by
  hits

-- lines 134-140
example : binomialRoot 1 1 1 = (⊤, ⊤) := by
  hits

-- lines 142-148
example : binomialRoot 1 0 (-4) = (((2 : ℝ) : EReal), ((-2 : ℝ) : EReal)) := by
  hits

-- lines 150-156
example : binomialRoot 0 2 (-4) = (((2 : ℝ) : EReal), ((2 : ℝ) : EReal)) := by
  hits

-- lines 158-164
example : binomialRoot 0 0 (-4) = (⊥, ⊤) := by
  hits

-- lines 166-178, the second half of the columns
example : binomialRoot 0 0 1 = (⊤, ⊤) := by
  hits

/-! ### `test_operations.py`, `TestReflections` -/

-- lines 181-185
example : reflect (vector 1 (-1) 0) (vector 0 1 0) = vector 1 1 0 := by
  funext i
  fin_cases i <;> simp [reflect, dot4, vector, Fin.sum_univ_four, Matrix.cons_val] <;> norm_num

-- lines 187-190
example : reflect (vector 0 (-1) 0) (vector (1 / √2) (1 / √2) 0) = vector 1 0 0 := by
  have h : √2 * √2 = 2 := Real.mul_self_sqrt (by norm_num)
  have h0 : √2 ≠ 0 := by positivity
  funext i
  fin_cases i <;> simp [reflect, dot4, vector, Fin.sum_univ_four, Matrix.cons_val] <;> field_simp <;> nlinarith

-- lines 192-202, two columns
example : reflectSingle [vector 1 (-1) 0, vector 1 (-1) 0] (vector 0 1 0) = [vector 1 1 0, vector 1 1 0] := by
  have h : (fun i => vector 1 (-1) 0 i - 2 * vector 0 1 0 i * dot4 (vector 1 (-1) 0) (vector 0 1 0)) = vector 1 1 0 := by
    funext i
    fin_cases i <;> simp [dot4, vector, Fin.sum_univ_four, Matrix.cons_val] <;> norm_num
  simp only [reflectSingle, List.map, h]

-- lines 204-216, two columns
example : reflectColumns [vector 1 (-1) 0, vector 1 (-1) 0] [vector 0 1 0, vector 0 1 0] = [vector 1 1 0, vector 1 1 0] := by
  have h : (fun i => vector 1 (-1) 0 i - 2 * vector 0 1 0 i * dot4 (vector 1 (-1) 0) (vector 0 1 0)) = vector 1 1 0 := by
    funext i
    fin_cases i <;> simp [dot4, vector, Fin.sum_univ_four, Matrix.cons_val] <;> norm_num
  simp only [reflectColumns, List.zipWith, h]

/-! ### `test_csg.py`, `TestArrayCSGOperation` (lines 212-231); `Fin 14` with top `13` for `inf` -/

/-- `array1` -/
def testArray1 : List (Fin 14) := [1, 4, 5, 10]

/-- `array2` -/
def testArray2 : List (Fin 14) := [0, 2, 3, 5, 6, 7, 8, 9, 11, 12]

-- lines 218-221
example : arrayCsg insertionArgsort testArray1 testArray2 .union = [0, 10, 11, 12] ++ List.replicate 10 ⊤ := by decide

-- lines 223-226
example : arrayCsg insertionArgsort testArray1 testArray2 .intersect = [1, 2, 3, 4, 5, 5, 6, 7, 8, 9] ++ List.replicate 4 ⊤ := by decide

-- lines 228-231
example : arrayCsg insertionArgsort testArray1 testArray2 .difference = [2, 3, 5, 6, 7, 8, 9, 10] ++ List.replicate 6 ⊤ := by decide

end PyRayT
