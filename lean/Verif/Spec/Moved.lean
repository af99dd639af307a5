import Verif.Model.Scene
import Verif.Spec.CsgTree

/-!
# Carrying a whole optical system to another place

Isometries of space, and what it means that a ray, a row of the result or a system has been carried along by one.
-/

namespace PyRayT.Spec

open Matrix

/-- An isometry of space as a 4x4 matrix: movements, rotations, mirror images and their products. -/
def Isometry (m : Mat4) : Prop := m 3 = ![0, 0, 0, 1] ∧ ∀ v : Vec4, v 3 = 0 → norm4 (m *ᵥ v) = norm4 v

/-- the ray carried along, all other fields kept -/
noncomputable def carried (m : Mat4) (c : Col) : Col := { c with ray := ⟨m *ᵥ c.ray.o, m *ᵥ c.ray.d⟩ }

/-- the row of the carried ray: start and end are carried as points, the tilt as a direction -/
noncomputable def carriedRow (m : Mat4) (r : Row) : Row :=
  { r with
    start := fun i => (m *ᵥ point (r.start 0) (r.start 1) (r.start 2)) i.castSucc
    stop := fun i => (m *ᵥ point (r.stop 0) (r.stop 1) (r.stop 2)) i.castSucc
    tilt := fun i => (m *ᵥ vector (r.tilt 0) (r.tilt 1) (r.tilt 2)) i.castSucc }

/-- the operands of every union have a common interior point -/
def Joined : Solid → Prop
  | .leaf _ _ => True
  | .node op l r => Joined l ∧ Joined r ∧ (op = .union → ∃ q : Vec4, q 3 = 1 ∧ l.Interior q ∧ r.Interior q)

/-- The line of the ray does not merely touch the solid or one of the composites it is made of: it goes through the interior of
each, or stays outside of it. -/
def Decided (ray : Ray) : Solid → Prop
  | .leaf _ _ => True
  | .node op l r => Decided ray l ∧ Decided ray r ∧
      ((∃ t, (Solid.node op l r).Interior (ray.at t)) ∨ ∀ t, (Solid.node op l r).Outside (ray.at t))

end PyRayT.Spec
