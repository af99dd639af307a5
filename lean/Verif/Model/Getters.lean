import Verif.Model.World

/-!
# Model of the getters of `WorldObject` with the arrays they return

`tinygfx/g3d/world_objects.py` lines 80-187. `Model/World.lean` stores the attributes as values; here they are references to arrays, because
the getters differ in what they hand out: `get_position` and `get_orientation` return the attribute itself, the getters of the
matrices return a copy.
-/

namespace PyRayT

open Classical Matrix

/-- One object: the arrays made so far and which of them are its attributes. Arrays are numbered in the order they are made. -/
structure GetState where
  vecs : ℕ → Vec4
  nextV : ℕ
  mats : ℕ → Mat4
  nextM : ℕ
  /-- `_world_coordinate_transform` -/
  world : ℕ
  /-- `_object_coordinate_transform` -/
  objT : ℕ
  /-- `_world_origin` -/
  pos : ℕ
  /-- `_world_direction` -/
  dir : ℕ

/-- lines 80-104 `__init__` -/
def GetState.init : GetState :=
  { vecs := fun i => if i = 0 then point 0 0 0 else vector 0 0 1
    nextV := 2
    mats := fun _ => 1
    nextM := 2
    world := 0
    objT := 1
    pos := 0
    dir := 1 }

/-- What a program does with the object. -/
inductive GetOp where
  /-- a movement with this matrix -/
  | move (m : Mat4)
  | getPosition
  | getOrientation
  | getWorldTransform
  | getObjectTransform
  /-- overwriting (part of) the array `i` that a getter returned -/
  | editVec (i : ℕ) (v : Vec4)
  | editMat (i : ℕ) (m : Mat4)

/-- lines 106-124 and 126-131: a movement makes new arrays for all attributes; `none` is an exception (the checks of lines 113-117, and
`np.linalg.inv` of a singular matrix). -/
noncomputable def GetState.move (s : GetState) (m : Mat4) : Option GetState :=
  let w := m * s.mats s.world
  let d := w *ᵥ vector 0 0 1
  if norm4 d < 1e-7 ∨ w.det = 0 then none
  else some { s with
    mats := Function.update (Function.update s.mats s.nextM w) (s.nextM + 1) w⁻¹
    nextM := s.nextM + 2
    world := s.nextM
    objT := s.nextM + 1
    vecs := Function.update (Function.update s.vecs s.nextV (w *ᵥ point 0 0 0)) (s.nextV + 1) (fun i => d i / norm4 d)
    nextV := s.nextV + 2
    pos := s.nextV
    dir := s.nextV + 1 }

/-- lines 133-140 `get_position`: the reference itself (the validity flags are never cleared) -/
def GetState.getPosition (s : GetState) : ℕ := s.pos

/-- lines 142-154 `get_orientation` -/
def GetState.getOrientation (s : GetState) : ℕ := s.dir

/-- lines 162-169 `get_world_transform`: `copy.copy` -/
noncomputable def GetState.getWorldTransform (s : GetState) : GetState × ℕ :=
  ({ s with mats := Function.update s.mats s.nextM (s.mats s.world), nextM := s.nextM + 1 }, s.nextM)

/-- lines 171-187 `get_object_transform` -/
noncomputable def GetState.getObjectTransform (s : GetState) : GetState × ℕ :=
  ({ s with mats := Function.update s.mats s.nextM (s.mats s.objT), nextM := s.nextM + 1 }, s.nextM)

/-- A program, with the arrays it has got from the getters; it can only edit those. `none`: an exception or an edit of an array the
program does not hold. -/
structure GetProg where
  state : GetState
  heldV : List ℕ
  heldM : List ℕ

/-- one step of the program -/
noncomputable def GetProg.step (p : GetProg) : GetOp → Option GetProg
  | .move m => (p.state.move m).map fun s => { p with state := s }
  | .getPosition => some { p with heldV := p.state.getPosition :: p.heldV }
  | .getOrientation => some { p with heldV := p.state.getOrientation :: p.heldV }
  | .getWorldTransform => some { p with state := p.state.getWorldTransform.1, heldM := p.state.getWorldTransform.2 :: p.heldM }
  | .getObjectTransform => some { p with state := p.state.getObjectTransform.1, heldM := p.state.getObjectTransform.2 :: p.heldM }
  | .editVec i v => if i ∈ p.heldV then some { p with state := { p.state with vecs := Function.update p.state.vecs i v } } else none
  | .editMat i m => if i ∈ p.heldM then some { p with state := { p.state with mats := Function.update p.state.mats i m } } else none

/-- several steps, none of which raises -/
inductive GetProg.Runs : GetProg → List GetOp → GetProg → Prop where
  | nil (p : GetProg) : Runs p [] p
  | cons {p p' p'' : GetProg} {o : GetOp} {os : List GetOp} : p.step o = some p' → Runs p' os p'' → Runs p (o :: os) p''

/-- a program that has just made an object -/
def GetProg.init : GetProg := ⟨.init, [], []⟩

end PyRayT
