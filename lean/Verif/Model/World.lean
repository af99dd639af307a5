import Verif.Model.Operations
import Verif.Model.Csg
import Mathlib.Analysis.SpecialFunctions.Trigonometric.Basic

/-!
# Model of `tinygfx/g3d/world_objects.py` (placement of objects) and of the stateful part of `csg.py`

Python objects live in a heap: an address is the Python reference. Operations return the new heap and
possibly an exception; the heap returned together with an exception is the partially updated state
Python leaves behind.
-/

namespace PyRayT

open Classical Matrix

/-- What an address holds: `TracerSurface` (lines 338-496), `CSGSurface` (`csg.py` 64-179),
`ObjectGroup` (lines 283-295), any other `WorldObject` (camera, ray source). -/
inductive Kind where
  | prim (p : Prim)
  | csg (op : Operation) (l r : ℕ)
  | group (members : List ℕ)
  | plain

/-- The bound methods stored in `var_watchlist` (lines 104, 317, 350, `csg.py` 77). -/
inductive Handler where
  /-- `_world_matrix_update_handler` of the object at an address -/
  | matrix (a : ℕ)
  /-- `_boundary_box_update_fn` / `_update_bounding_box` of the object at an address -/
  | box (a : ℕ)
  deriving DecidableEq

/-- The attributes of a `WorldObject` (lines 80-104, 303-305, 343-350). The validity flags of lines 93-95
are never cleared by any code, so the getters always return the stored attributes and the flags
are not modelled. -/
structure Obj where
  kind : Kind
  /-- `_id` -/
  oid : ℕ
  /-- `_world_coordinate_transform` -/
  world : Mat4
  /-- `_object_coordinate_transform` -/
  objT : Mat4
  /-- `_world_origin` -/
  origin : Vec4
  /-- `_world_direction` -/
  dir : Vec4
  /-- `_aobb` (meaningless for groups and plain objects) -/
  aobb : Box
  /-- `_normal_scale` -/
  nscale : ℝ
  /-- `var_watchlist` -/
  watch : List Handler

/-- All objects ever created; `counter` is the next value of `CountedObject._ids` (line 27). -/
structure Heap where
  size : ℕ
  obj : ℕ → Obj
  counter : ℕ

/-- attribute assignment(s) on one object -/
noncomputable def Heap.set (h : Heap) (a : ℕ) (o : Obj) : Heap := { h with obj := Function.update h.obj a o }

/-- Exceptions. -/
inductive Err where
  /-- `ValueError` of lines 114-117 -/
  | zeroNorm
  /-- `LinAlgError` of `np.linalg.inv` -/
  | singular
  /-- `ValueError` of line 219 -/
  | negativeScale
  /-- `ValueError` of line 76 -/
  | badUnits
  /-- `RecursionError` (cyclic groups) -/
  | recursion
  deriving DecidableEq

/-- State after a call, and the exception it raised, if any. -/
abbrev Res := Heap × Option Err

/-- statement sequencing: an exception aborts the rest -/
noncomputable def Res.andThen (r : Res) (f : Heap → Res) : Res :=
  match r with
  | (h, none) => f h
  | (h, some e) => (h, some e)

/-- lines 15-23 `bounding_box(point_set)`. -/
noncomputable def boundingBox (pts : List Vec4) : Box := fun i =>
  sort2 (pts.foldr (fun p acc => min ((p i.castSucc : ℝ) : EReal) acc) ⊤,
    pts.foldr (fun p acc => max ((p i.castSucc : ℝ) : EReal) acc) ⊥)

/-- lines 352-358 `TracerSurface._boundary_box_update_fn` -/
noncomputable def primBox (world : Mat4) (p : Prim) : Box :=
  boundingBox ((cornerPoints p.boundSpans).map fun q => world *ᵥ q)

/-- `csg.py` lines 93-116 `_update_bounding_box`, as a function of the children's boxes. The 2x3 arrays
`axis_spans.T` are combined column by column, i.e. axis by axis; `Cube(*new_spans[:2])` keeps (and
sorts) the first two rows. -/
noncomputable def csgBox (argsort : List EReal → List ℕ) (op : Operation) (l r : Box) : Box :=
  match op with
  | .difference => l
  | _ => fun i =>
    let spans := arrayCsg argsort [(l i).1, (l i).2] [(r i).1, (r i).2] op
    sort2 (spans.getD 0 ⊤, spans.getD 1 ⊤)

variable (argsort : List EReal → List ℕ)

/-- One entry of `var_watchlist` being called. `matrix`: lines 106-124; `box`: lines 352-358 and
`csg.py` 93-116. -/
noncomputable def runHandler (h : Heap) : Handler → Res
  | .matrix a =>
    let o := h.obj a
    let h1 := h.set a { o with origin := o.world *ᵥ point 0 0 0 }
    let worldDir := o.world *ᵥ vector 0 0 1
    if norm4 worldDir < 1e-7 then (h1, some .zeroNorm)
    else
      let h2 := h1.set a { h1.obj a with dir := normalize worldDir }
      if o.world.det = 0 then (h2, some .singular)
      else (h2.set a { h2.obj a with objT := o.world⁻¹ }, none)
  | .box a =>
    let o := h.obj a
    match o.kind with
    | .prim p => (h.set a { o with aobb := primBox o.world p }, none)
    | .csg op l r => (h.set a { o with aobb := csgBox argsort op (h.obj l).aobb (h.obj r).aobb }, none)
    | _ => (h, none)

/-- line 131: `[fn() for fn in self.var_watchlist]` -/
noncomputable def runHandlers (h : Heap) : List Handler → Res
  | [] => (h, none)
  | hd :: tl => (runHandler argsort h hd).andThen fun h => runHandlers h tl

/-- lines 126-131 `WorldObject._append_world_transform`. The list comprehension iterates over the watch list
of the object as it is (the handlers do not change it). -/
noncomputable def appendOwn (h : Heap) (a : ℕ) (m : Mat4) : Res :=
  let o := h.obj a
  let h := h.set a { o with world := m * o.world }
  runHandlers argsort h (h.obj a).watch

/-- `transform` of an object (lines 271-280) with the overrides of `_append_world_transform` in
`ObjectGroup` (lines 288-295) and `CSGSurface` (`csg.py` 175-179). `fuel` is the Python recursion
limit: running out of it is a `RecursionError`. -/
noncomputable def transform : ℕ → Heap → ℕ → Mat4 → Res
  | 0, h, _, _ => (h, some .recursion)
  | fuel + 1, h, a, m =>
    (appendOwn argsort h a m).andThen fun h =>
      match (h.obj a).kind with
      | .csg _ l r => (transform fuel h l m).andThen fun h => transform fuel h r m
      | .group members => members.foldl (fun (res : Res) b => res.andThen fun h => transform fuel h b m) (h, none)
      | _ => (h, none)

/-- angle units, line 59: `"deg"`, `"rad"`, anything else -/
inductive Units where
  | deg
  | rad
  | other

/-- lines 58-78 `_sin_cos` -/
noncomputable def sinCos (angle : ℝ) : Units → Option (ℝ × ℝ)
  | .deg => some (Real.sin (angle * Real.pi / 180), Real.cos (angle * Real.pi / 180))
  | .rad => some (Real.sin angle, Real.cos angle)
  | .other => none

/-- lines 196-199: the matrix of `move` -/
def moveMatrix (x y z : ℝ) : Mat4 := !![1, 0, 0, x; 0, 1, 0, y; 0, 0, 1, z; 0, 0, 0, 1]
/-- line 221: the matrix of `scale` -/
def scaleMatrix (x y z : ℝ) : Mat4 := !![x, 0, 0, 0; 0, y, 0, 0; 0, 0, z, 0; 0, 0, 0, 1]
/-- lines 239-244: the matrix of `rotate_x` -/
def rotXMatrix (s c : ℝ) : Mat4 := !![1, 0, 0, 0; 0, c, -s, 0; 0, s, c, 0; 0, 0, 0, 1]
/-- lines 250-255: the matrix of `rotate_y` -/
def rotYMatrix (s c : ℝ) : Mat4 := !![c, 0, s, 0; 0, 1, 0, 0; -s, 0, c, 0; 0, 0, 0, 1]
/-- lines 261-266: the matrix of `rotate_z` -/
def rotZMatrix (s c : ℝ) : Mat4 := !![c, -s, 0, 0; s, c, 0, 0; 0, 0, 1, 0; 0, 0, 0, 1]

/-- The movement methods of `WorldObject` (lines 196-280). `move_x`, `move_y`, `move_z`, `scale_x`, `scale_y`,
`scale_z`, `scale_all` are calls of `move`/`scale` with some arguments fixed. -/
inductive Movement where
  | move (x y z : ℝ)
  | scale (x y z : ℝ)
  | rotateX (angle : ℝ) (units : Units)
  | rotateY (angle : ℝ) (units : Units)
  | rotateZ (angle : ℝ) (units : Units)
  | transform (m : Mat4)

/-- The transfer matrix a movement computes, or the exception raised before anything is changed. -/
noncomputable def Movement.matrix : Movement → Except Err Mat4
  | .move x y z => .ok (moveMatrix x y z)
  | .scale x y z => if x < 0 ∨ y < 0 ∨ z < 0 then .error .negativeScale else .ok (scaleMatrix x y z)
  | .rotateX t u => match sinCos t u with
    | some (s, c) => .ok (rotXMatrix s c)
    | none => .error .badUnits
  | .rotateY t u => match sinCos t u with
    | some (s, c) => .ok (rotYMatrix s c)
    | none => .error .badUnits
  | .rotateZ t u => match sinCos t u with
    | some (s, c) => .ok (rotZMatrix s c)
    | none => .error .badUnits
  | .transform m => .ok m

/-- calling a movement method on the object at `a` -/
noncomputable def callMovement (fuel : ℕ) (h : Heap) (a : ℕ) (mv : Movement) : Res :=
  match mv.matrix with
  | .error e => (h, some e)
  | .ok m => transform argsort fuel h a m

/-! ### construction -/

/-- lines 80-104 `WorldObject.__init__` (with `CountedObject.__init__`, lines 29-31): a fresh object at
address `h.size`. -/
noncomputable def Heap.alloc (h : Heap) (kind : Kind) (aobb : Box) (extra : List Handler) : Heap :=
  { size := h.size + 1
    counter := h.counter + 1
    obj := Function.update h.obj h.size
      { kind, oid := h.counter, world := 1, objT := 1, origin := point 0 0 0, dir := vector 0 0 1,
        aobb, nscale := 1, watch := .matrix h.size :: extra } }

/-- lines 341-350 `TracerSurface.__init__` -/
noncomputable def newPrim (h : Heap) (p : Prim) : Heap :=
  h.alloc (.prim p) (boundingBox (cornerPoints p.boundSpans)) [.box h.size]

/-- a camera, ray source or other `WorldObject` -/
noncomputable def newPlain (h : Heap) : Heap := h.alloc .plain (fun _ => (0, 0)) []

/-- lines 283-286 `ObjectGroup(initlist)` -/
noncomputable def newGroup (h : Heap) (members : List ℕ) : Heap := h.alloc (.group members) (fun _ => (0, 0)) []

/-- `UserList.append` on a group (no effect on other kinds: they have no `append`) -/
noncomputable def groupAppend (h : Heap) (g m : ℕ) : Heap :=
  match (h.obj g).kind with
  | .group ms => h.set g { h.obj g with kind := .group (ms ++ [m]) }
  | _ => h

/-- lines 315-317 `attach_to` -/
noncomputable def attachTo (h : Heap) (child parent : ℕ) : Heap :=
  h.set child { h.obj child with watch := (h.obj child).watch ++ (h.obj parent).watch }

/-- `csg.py` lines 162-164 and lines 319-320 `invert_normals`; `fuel` as in `transform`, but silently stopping
(the trees are finite and children are older than their parents). -/
noncomputable def invertNormals : ℕ → Heap → ℕ → Heap
  | 0, h, _ => h
  | fuel + 1, h, a =>
    match (h.obj a).kind with
    | .csg _ l r => invertNormals fuel (invertNormals fuel h l) r
    | _ => h.set a { h.obj a with nscale := -1 }

/-- `csg.py` lines 65-91 `CSGSurface.__init__`. (`Box` of the new object before line 91 is unset; the
placeholder is overwritten by the last step.) -/
noncomputable def newCsg (h : Heap) (op : Operation) (l r : ℕ) : Heap :=
  let a := h.size
  let h := h.alloc (.csg op l r) (fun _ => (0, 0)) [.box a]
  let h := attachTo h l a
  let h := attachTo h r a
  let h := if op = .difference then invertNormals h.size h r else h
  (runHandler argsort h (.box a)).1

/-- The heap of a fresh interpreter. -/
noncomputable def Heap.empty : Heap :=
  { size := 0
    counter := 0
    obj := fun _ => ⟨.plain, 0, 1, 1, point 0 0 0, vector 0 0 1, fun _ => (0, 0), 1, []⟩ }

/-- The public operations on placed objects. -/
inductive Cmd where
  | newPrim (p : Prim)
  | newPlain
  | newGroup (members : List ℕ)
  | append (g m : ℕ)
  | newCsg (op : Operation) (l r : ℕ)
  | movement (a : ℕ) (mv : Movement)

/-- Can an address be a child of a CSG object / is it an `Intersectable`. -/
def Kind.intersectable : Kind → Bool
  | .prim _ => true
  | .csg _ _ _ => true
  | _ => false

/-- A command only refers to existing objects, CSG children are `Intersectable`. -/
def Cmd.valid (h : Heap) : Cmd → Prop
  | .newPrim _ => True
  | .newPlain => True
  | .newGroup ms => ∀ m ∈ ms, m < h.size
  | .append g m => g < h.size ∧ m < h.size
  | .newCsg _ l r => l < h.size ∧ r < h.size ∧ (h.obj l).kind.intersectable ∧ (h.obj r).kind.intersectable
  | .movement a _ => a < h.size

/-- Executing a command. -/
noncomputable def exec (fuel : ℕ) (h : Heap) : Cmd → Res
  | .newPrim p => (PyRayT.newPrim h p, none)
  | .newPlain => (PyRayT.newPlain h, none)
  | .newGroup ms => (PyRayT.newGroup h ms, none)
  | .append g m => (groupAppend h g m, none)
  | .newCsg op l r => (PyRayT.newCsg argsort h op l r, none)
  | .movement a mv => callMovement argsort fuel h a mv

/-- A history in which every command is valid and none raises. -/
inductive Reaches (fuel : ℕ) : Heap → Heap → Prop where
  | refl (h : Heap) : Reaches fuel h h
  | step {h h' h'' : Heap} (c : Cmd) : Reaches fuel h h' → c.valid h' → exec argsort fuel h' c = (h'', none) →
      Reaches fuel h h''

/-- A history in which commands are valid but may raise (and the caller carries on). -/
inductive ReachesAny (fuel : ℕ) : Heap → Heap → Prop where
  | refl (h : Heap) : ReachesAny fuel h h
  | step {h h' h'' : Heap} {e : Option Err} (c : Cmd) : ReachesAny fuel h h' → c.valid h' →
      exec argsort fuel h' c = (h'', e) → ReachesAny fuel h h''

end PyRayT
