import Verif.Model.RoundingPlane

/-!
# Rounded arithmetic: paths of rays between flat mirrors

One turn of the tracer for one ray that hits a flat mirror, with every operation rounded, and sequences of such turns.
-/

namespace PyRayT

open Classical

/-- A surface with the primitive `Plane` (`primitives.py` lines 422-498) and the material `mirror`, given by its matrix to object coordinates, width and length. -/
structure FlatMirror where
  toObject : Mat4
  width : ℝ
  length : ℝ

/-- `TracerSurface.get_world_normals` (`world_objects.py` lines 401-418, one column) for the primitive `Plane`, whose normal is `(0, 0, 1, 0)` everywhere (`primitives.py` lines 494-498), rounded:
product with the transposed matrix, last component set to zero, normalisation, change of sign (exact). -/
def FlatNormalR (u : ℝ) (M : Mat4) (n : Vec4) : Prop :=
  ∃ raw unit : Vec4, TransformR u (M.transpose) (vector 0 0 1) raw ∧ NormalizeR u (vector (raw 0) (raw 1) (raw 2)) unit ∧ (n = unit ∨ n = -unit)

/-- One turn of the tracer (`_pyrayt.py` lines 370-452) for one ray that hits the flat mirror `m`, rounded. The last components of points and directions are exact, as in floating point
arithmetic: they are results of operations with zeros and ones. -/
structure FlatStepR (u η : ℝ) (m : FlatMirror) (ray next : Ray) where
  /-- `world_objects.py` lines 367-372: the hits, one of which is the distance of the ray -/
  loc : Ray
  hits : EReal × EReal
  dist : ℝ
  hloc : LocalR u m.toObject ray loc
  hhits : PlaneR u m.width m.length loc hits
  hdist : hits.1 = (dist : EReal) ∨ hits.2 = (dist : EReal)
  /-- `_pyrayt.py` lines 404-407: where it hits, the end of its row in the results -/
  finish : Vec4
  hfinish : AdvanceR u ray dist finish
  /-- `materials.py` lines 58-62 with `world_objects.py` lines 401-418 and `operations.py` lines 104-107 -/
  normal : Vec4
  hnormal : FlatNormalR u m.toObject normal
  hreflect : ReflectR u ray.d normal next.d
  /-- `_pyrayt.py` line 449: moved off -/
  hnext : AdvanceR u ⟨finish, next.d⟩ η next.o
  finish3 : finish 3 = 1
  next3 : next.o 3 = 1
  nextd3 : next.d 3 = 0

/-- The turns of the tracer (`_pyrayt.py` lines 370-452) for one ray that hits the flat mirrors of the list one after the other. -/
inductive FlatPathR (u η : ℝ) : List FlatMirror → Ray → Ray → Prop
  | nil (ray : Ray) : FlatPathR u η [] ray ray
  | cons {m : FlatMirror} {ms : List FlatMirror} {ray mid last : Ray} (h : FlatStepR u η m ray mid) (hs : FlatPathR u η ms mid last) : FlatPathR u η (m :: ms) ray last

end PyRayT
