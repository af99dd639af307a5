import Verif.Model.Normals

/-!
# Model of the public `invert_normals` / `reset_normals` calls

`world_objects.py` 304-323 and `csg.py` 162-168. `invertNormals` is in `Model/World.lean` because the constructor of
`CSGSurface` calls it.
-/

namespace PyRayT

/-- `csg.py` lines 166-168 and `world_objects.py` lines 322-323 `reset_normals`; `fuel` as in `invertNormals`. -/
noncomputable def resetNormals : ℕ → Heap → ℕ → Heap
  | 0, h, _ => h
  | fuel + 1, h, a =>
    match (h.obj a).kind with
    | .csg _ l r => resetNormals fuel (resetNormals fuel h l) r
    | _ => h.set a { h.obj a with nscale := 1 }

/-- A call of one of the two methods by the user on the object at an address. -/
inductive FlipCall where
  | invert (a : ℕ)
  | reset (a : ℕ)

/-- the object the method is called on -/
def FlipCall.target : FlipCall → ℕ
  | .invert a => a
  | .reset a => a

/-- Executing one call (both methods are defined for surfaces and composites only). -/
noncomputable def FlipCall.run (h : Heap) : FlipCall → Heap
  | .invert a => invertNormals h.size h a
  | .reset a => resetNormals h.size h a

/-- Executing calls one after the other. -/
noncomputable def flipAll (h : Heap) (calls : List FlipCall) : Heap := calls.foldl FlipCall.run h

end PyRayT
