import Verif.Model.Primitives

/-!
# Model of the 2D shapes and of small helpers of `primitives.py` and `world_objects.py`
-/

namespace PyRayT

open Classical

/-- The argument of `point_in_shape`: one point (a 1-d array) or the columns of a 2 x n array. Arrays with another number of rows are
not modelled. -/
inductive Points where
  | one (x y : ℝ)
  | many (ps : List (ℝ × ℝ))

/-- a scalar or an array of booleans -/
inductive Mask where
  | scalar (b : Prop)
  | array (bs : List Prop)

/-- `primitives.py` lines 193-195 (`Disk.point_in_shape`): `np.linalg.norm(points, axis=0) <= radius` -/
noncomputable def diskContains (radius : ℝ) : Points → Mask
  | .one x y => .scalar (√(x ^ 2 + y ^ 2) ≤ radius)
  | .many ps => .array (ps.map fun p => √(p.1 ^ 2 + p.2 ^ 2) ≤ radius)

/-- lines 184-191 `Disk.from_diameter`: the radius of the disk -/
noncomputable def diskFromDiameter (d : ℝ) : ℝ := d / 2

/-- lines 204-218 `Rectangle.point_in_shape`: a single point is made a column and the first entry of the result taken -/
noncomputable def rectangleContains (xl yl : ℝ) : Points → Mask
  | .one x y =>
    match [(x, y)].map (fun p => |p.1| ≤ xl / 2 ∧ |p.2| ≤ yl / 2) with
    | b :: _ => .scalar b
    | [] => .array []
  | .many ps => .array (ps.map fun p => |p.1| ≤ xl / 2 ∧ |p.2| ≤ yl / 2)

/-- `np.min` of a non-empty array -/
noncomputable def npMin (x : ℝ) (xs : List ℝ) : ℝ := xs.foldl min x

/-- `np.max` of a non-empty array -/
noncomputable def npMax (x : ℝ) (xs : List ℝ) : ℝ := xs.foldl max x

/-- What `overlap` returns: a pair of arrays, `None`, or a `ValueError`. -/
inductive OverlapResult where
  | arrays (a b : List ℝ)
  | none
  | valueError

/-- `primitives.py` lines 605-619 `overlap`. `oneDim`: whether the first array has one axis (else the function falls off its end and
returns `None`); the second array is given by its entries in row-major order, which is what masking makes of it. -/
noncomputable def overlap (oneDim : Bool) (a b : List ℝ) : OverlapResult :=
  if oneDim then
    match a, b with
    | x :: xs, y :: ys =>
      let minOfMax := min (npMax x xs) (npMax y ys)
      let maxOfMin := max (npMin x xs) (npMin y ys)
      .arrays ((x :: xs).filter fun v => maxOfMin ≤ v ∧ v ≤ minOfMax) ((y :: ys).filter fun v => maxOfMin ≤ v ∧ v ≤ minOfMax)
    | _, _ => .valueError
  else .none

/-- `world_objects.py` lines 474-477 `Cuboid.from_sides`: the corners handed to the constructor -/
noncomputable def cuboidSides (x y z : ℝ) : Prim :=
  .cube ![-0.5 * x, -0.5 * y, -0.5 * z] ![0.5 * x, 0.5 * y, 0.5 * z]

/-- `world_objects.py` lines 479-482 `Cuboid.from_length` -/
noncomputable def cuboidLength (l : ℝ) : Prim :=
  .cube ![l * -0.5, l * -0.5, l * -0.5] ![l * 0.5, l * 0.5, l * 0.5]

end PyRayT
