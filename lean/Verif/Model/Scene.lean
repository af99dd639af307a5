import Verif.Model.Tracer
import Verif.Model.Normals

/-!
# Model of the materials (`pyrayt/materials.py`) and of components made from the objects of a heap

The tracer of `Model/Tracer.lean` works on any components; here they are the objects of `Model/World.lean` with the
built-in materials.
-/

namespace PyRayT

open Classical

/-- The materials of `pyrayt/materials.py`: `_AbsorbingMaterial` (lines 40-50), `_ReflectingMaterial` (lines 53-62), `Glass`
(lines 65-75) with one of the index models (lines 102-148). The rendering materials (`gooch.Material`), which surfaces have by
default, cannot be traced (`AttributeError`): `Model/Bare.lean`. -/
inductive Material where
  | absorber
  | mirror
  | glass (m : IndexModel)

/-- `trace(surface, ray_set)` of each material, for one column; `normalAt` is `surface.get_world_normals`. Lines 47-50 (absorber:
the direction becomes 0), 58-62 (mirror: `reflect` of arrays, as in `reflectColumns`), 70-75 (glass: `refract` with the default
`n_global` 1, whatever the world index of the tracer; direction and index are assigned). -/
noncomputable def Material.trace (normalAt : Vec4 → Vec4) (c : Col) : Material → Col
  | .absorber => { c with ray := ⟨c.ray.o, 0⟩ }
  | .mirror =>
    let n := normalAt c.ray.o
    { c with ray := ⟨c.ray.o, fun i => c.ray.d i - 2 * n i * dot4 c.ray.d n⟩ }
  | .glass m =>
    let r := refract c.ray.d (normalAt c.ray.o) c.index (m.indexAt c.wavelength) 1
    { c with ray := ⟨c.ray.o, r.2.1⟩, index := r.2.2 }

/-- The surface at an address: its normal function (`get_world_normals`); for an object that is not a surface there is none,
and the model takes 0. -/
noncomputable def surfaceNormal (h : Heap) (x : ℕ) (pos : Vec4) : Vec4 :=
  match (h.obj x).kind with
  | .prim p => worldNormal (h.obj x) p pos
  | _ => 0

/-- A heap together with the `material` attribute of every surface (`world_objects.py` lines 343-358). -/
structure Scene where
  heap : Heap
  material : ℕ → Material

/-- The object at address `a` as a component of a tracer: `intersect` and `surface_ids`. -/
noncomputable def Scene.component (argsort : List EReal → List ℕ) (depth : ℕ) (s : Scene) (a : ℕ) : Component :=
  { intersect := intersectObj argsort depth s.heap a
    surfaces := (surfaceIds depth s.heap a).map fun e =>
      ((e.1 : ℤ), fun c => (s.material e.2).trace (surfaceNormal s.heap e.2) c) }

end PyRayT
