import Verif.Model.World

/-!
# Model of `WorldObject.get_quaternion`

`tinygfx/g3d/world_objects.py` lines 156-160. The method hands the upper left 3x3 block of the world matrix to scipy's
`Rotation.from_matrix` and returns `as_quat()`, with the scalar last. scipy is not part of /repo; its algorithm is modelled as it is in version
1.6.3, which `poetry.lock` pins: it takes the largest of the diagonal entries and the trace, builds a quaternion from it and divides by its norm.
Simplified: a zero quaternion is returned where numpy would divide 0 by 0.
-/

namespace PyRayT

open Classical Matrix

/-- trace of the 3x3 block -/
def quatTrace (m : Mat4) : ℝ := m 0 0 + m 1 1 + m 2 2

/-- `decision.argmax()`: the first of the largest among the diagonal entries and the trace -/
noncomputable def quatChoice (m : Mat4) : Fin 4 :=
  if m 1 1 ≤ m 0 0 ∧ m 2 2 ≤ m 0 0 ∧ quatTrace m ≤ m 0 0 then 0
  else if m 2 2 ≤ m 1 1 ∧ quatTrace m ≤ m 1 1 then 1
  else if quatTrace m ≤ m 2 2 then 2
  else 3

/-- the quaternion (x, y, z, w) before the division by its norm -/
def quatRaw (m : Mat4) : Fin 4 → Vec4
  | 0 => ![1 - quatTrace m + 2 * m 0 0, m 1 0 + m 0 1, m 2 0 + m 0 2, m 2 1 - m 1 2]
  | 1 => ![m 0 1 + m 1 0, 1 - quatTrace m + 2 * m 1 1, m 2 1 + m 1 2, m 0 2 - m 2 0]
  | 2 => ![m 0 2 + m 2 0, m 1 2 + m 2 1, 1 - quatTrace m + 2 * m 2 2, m 1 0 - m 0 1]
  | 3 => ![m 2 1 - m 1 2, m 0 2 - m 2 0, m 1 0 - m 0 1, 1 + quatTrace m]

/-- lines 156-160 `get_quaternion` -/
noncomputable def getQuaternion (h : Heap) (a : ℕ) : Vec4 :=
  let q := quatRaw (h.obj a).world (quatChoice (h.obj a).world)
  fun i => q i / norm4 q

end PyRayT
