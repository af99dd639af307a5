import Verif.Model.Solid

/-!
# Model of surface normals

`primitives.py`: `Sphere.normal` (273-295), `Paraboloid.normal` (401-418), `Plane.normal` (494-498), `Cube.normal` (583-602),
`Cylinder.normal` (714-743); `world_objects.py`: `TracerSurface.get_world_normals` (401-420). One point (column) at a time.
-/

namespace PyRayT

open Classical Matrix

/-- one component of `Cube.normal` before normalisation (lines 593-596) -/
noncomputable def cubeNormalComp (span : ℝ × ℝ) (x : ℝ) : ℝ :=
  if isclose x span.2 then 1 else if isclose x span.1 then -1 else 0

/-- `SurfacePrimitive.normal` of each primitive, at a point in object coordinates. Simplification: the `capped` flag of
`Cylinder` (lines 726-736) is always true, as it is for every cylinder made by `world_objects.Cylinder`; a division by a zero
norm gives 0 here and nan in numpy. -/
noncomputable def Prim.normal : Prim → Vec4 → Vec4
  | .sphere _, x => normalize ![x 0, x 1, x 2, 0]
  | .paraboloid f h, x => if isclose (x 2) h then normalize ![0, 0, 1, 0] else normalize ![x 0, x 1, -2 * f, 0]
  | .plane _ _, _ => ![0, 0, 1, 0]
  | .cube a b, x => normalize ![cubeNormalComp (cubeSpans a b 0) (x 0), cubeNormalComp (cubeSpans a b 1) (x 1),
      cubeNormalComp (cubeSpans a b 2) (x 2), 0]
  | .cylinder _ lo hi, x =>
    if isclose (x 2) hi then normalize ![0, 0, 1, 0]
    else if isclose (x 2) lo then normalize ![0, 0, -1, 0]
    else normalize ![x 0, x 1, 0, 0]

/-- `w` component set to zero (lines 413-415) -/
def zeroW (v : Vec4) : Vec4 := ![v 0, v 1, v 2, 0]

/-- `world_objects.py` lines 401-420 `get_world_normals` of a surface at a world position. -/
noncomputable def worldNormal (o : Obj) (p : Prim) (pos : Vec4) : Vec4 :=
  o.nscale • normalize (zeroW (o.objTᵀ *ᵥ p.normal (o.objT *ᵥ pos)))

end PyRayT
