import Verif.Model.World

/-!
# Model of the context manager `pin` (`pyrayt/_pyrayt.py` lines 539-575)
-/

namespace PyRayT

open Classical Matrix

variable (argsort : List EReal → List ℕ)

/-- lines 563-567 `__enter__`: copies of the world transforms -/
def pinEnter (h : Heap) (objs : List ℕ) : List Mat4 := objs.map fun a => (h.obj a).world

/-- lines 573-575: one iteration of the loop of `__exit__` -/
noncomputable def pinRestore (fuel : ℕ) (h : Heap) (a : ℕ) (start : Mat4) : Res :=
  if start.det = 0 then (h, some .singular)
  else
    let change := (h.obj a).world * start⁻¹
    if change.det = 0 then (h, some .singular)
    else transform argsort fuel h a change⁻¹

/-- lines 570-575 `__exit__` -/
noncomputable def pinExit (fuel : ℕ) (h : Heap) (pairs : List (ℕ × Mat4)) : Res :=
  pairs.foldl (fun (res : Res) p => res.andThen fun h => pinRestore argsort fuel h p.1 p.2) (h, none)

/-- `with pin(*objs): body`; the body is any state change, and `__exit__` runs whether or not the body raised
(it does not return `True`, so the body's exception is re-raised afterwards). -/
noncomputable def withPin (fuel : ℕ) (objs : List ℕ) (body : Heap → Res) (h : Heap) : Res :=
  let mats := pinEnter h objs
  let r := body h
  let x := pinExit argsort fuel r.1 (objs.zip mats)
  (x.1, match x.2 with
    | some e => some e
    | none => r.2)

end PyRayT
