import Verif.Model.World

/-!
# Model of ray / object intersection: `TracerSurface.intersect` and `CSGSurface.intersect`

One ray (column) at a time. numpy selects the columns that pass the bounding box test, intersects the
children with these columns only and writes the result back; column by column this is an `if`.
-/

namespace PyRayT

open Classical Matrix

/-- `np.matmul(T, rays)` for one ray (`world_objects.py` lines 367-369). -/
noncomputable def Ray.map (m : Mat4) (r : Ray) : Ray := ⟨m *ᵥ r.o, m *ᵥ r.d⟩

/-- `csg.py` lines 126-128: `np.any(np.isfinite(self._aobb.intersect(rays)), axis=0)`. -/
def boxPasses (box : Box) (ray : Ray) : Prop :=
  let h := boxIntersect box ray
  (h.1 ≠ ⊤ ∧ h.1 ≠ ⊥) ∨ (h.2 ≠ ⊤ ∧ h.2 ≠ ⊥)

/-- `world_objects.py` lines 360-384 `TracerSurface.intersect`: hits in increasing order and the id of the surface for
each of them. -/
noncomputable def leafIntersect (objT : Mat4) (oid : ℕ) (p : Prim) (ray : Ray) : List EReal × List ℤ :=
  let h := sort2 (p.intersect (ray.map objT))
  ([h.1, h.2], [(oid : ℤ), (oid : ℤ)])

/-- `intersect` of the object at an address: `TracerSurface.intersect` (`world_objects.py` 360-384) and
`CSGSurface.intersect` (`csg.py` 118-160). `fuel` is the recursion depth; with too little fuel (a
`RecursionError` in Python), or on an object that is not an `Intersectable` (an `AttributeError`), the model
returns empty lists. The children of a culled ray are intersected here only to know the number of rows. -/
noncomputable def intersectObj (argsort : List EReal → List ℕ) : ℕ → Heap → ℕ → Ray → List EReal × List ℤ
  | 0, _, _, _ => ([], [])
  | fuel + 1, h, a, ray =>
    match (h.obj a).kind with
    | .prim p => leafIntersect (h.obj a).objT (h.obj a).oid p ray
    | .csg op l r =>
      let lh := intersectObj argsort fuel h l ray
      let rh := intersectObj argsort fuel h r ray
      if boxPasses (h.obj a).aobb ray then csgCombine argsort (-1) op lh.1 lh.2 rh.1 rh.2
      else (List.replicate (lh.1.length + rh.1.length) ⊤, List.replicate (lh.1.length + rh.1.length) (-1))
    | _ => ([], [])

/-- `surface_ids` (`world_objects.py` 322-328, `csg.py` 170-173): the leaf surfaces, left to right, each with its id. The
surface itself is its address. -/
noncomputable def surfaceIds : ℕ → Heap → ℕ → List (ℕ × ℕ)
  | 0, _, _ => []
  | fuel + 1, h, a =>
    match (h.obj a).kind with
    | .prim _ => [((h.obj a).oid, a)]
    | .csg _ l r => surfaceIds fuel h l ++ surfaceIds fuel h r
    | _ => []

end PyRayT
