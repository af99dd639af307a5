import Mathlib.Data.EReal.Basic
import Mathlib.Data.EReal.Operations
import Mathlib.Analysis.Real.Sqrt
import Mathlib.LinearAlgebra.Matrix.NonsingularInverse

/-!
# Numbers, vectors and rays

floats are modelled by exact reals; `np.inf`/`-np.inf` by `⊤`/`⊥` of `EReal`.
-/

namespace PyRayT

/-- homogeneous coordinates, `primitives.py` lines 35-94 (`HomogeneousCoordinate`, `Point`,
`Vector`): arrays of four floats. -/
abbrev Vec4 := Fin 4 → ℝ

/-- 4x4 transform matrices, `world_objects.py` lines 94-97. -/
abbrev Mat4 := Matrix (Fin 4) (Fin 4) ℝ

/-- `primitives.py` lines 85-89: `Point(x, y, z)`. -/
def point (x y z : ℝ) : Vec4 := ![x, y, z, 1]

/-- `primitives.py` lines 92-94: `Vector(x, y, z)`. -/
def vector (x y z : ℝ) : Vec4 := ![x, y, z, 0]

/-- One column of the 2x4xn ray arrays, `primitives.py` lines 18-32 and 97-122: origin and direction. -/
@[ext] structure Ray where
  o : Vec4
  d : Vec4

/-- the point `o + t*d` (docstring `primitives.py` lines 136-138). -/
def Ray.at (r : Ray) (t : ℝ) : Vec4 := fun i => r.o i + t * r.d i

/-- `np.isclose(a, b)` with the numpy default tolerances rtol=1e-5, atol=1e-8. -/
def isclose (a b : ℝ) : Prop := |a - b| ≤ 1e-8 + 1e-5 * |b|

/-- `np.isclose(a, 0)`. -/
def isclose0 (a : ℝ) : Prop := |a| ≤ 1e-8

theorem isclose_zero (a : ℝ) : isclose a 0 ↔ isclose0 a := by simp [isclose, isclose0]

/-- a boolean numpy array added to a float array: `x + mask`. -/
noncomputable def addMask (x : ℝ) (p : Prop) [Decidable p] : ℝ := x + if p then 1 else 0

/-- Euclidean norm of the four components, `np.linalg.norm(v)` / `norm(vs, axis=0)`. -/
noncomputable def norm4 (v : Vec4) : ℝ := √(v 0 ^ 2 + v 1 ^ 2 + v 2 ^ 2 + v 3 ^ 2)

/-- `operations.py` lines 66-83, `element_wise_dot` (one column). -/
def dot4 (u v : Vec4) : ℝ := u 0 * v 0 + u 1 * v 1 + u 2 * v 2 + u 3 * v 3

/-- `np.sort` of a column of two entries. -/
noncomputable def sort2 (h : EReal × EReal) : EReal × EReal := (min h.1 h.2, max h.1 h.2)

end PyRayT
