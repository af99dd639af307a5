import Verif.Model.Num

/-!
# Model of the array classes of `primitives.py` (lines 18-122) with their memory

`HomogeneousCoordinate`, `Point`, `Vector` and `Ray` are numpy arrays: a Python reference is an address, and `ray.origin` is
a view, i.e. an address inside the array of the ray. Memory is a sequence of cells that is handed out from one end (the garbage
collector is not modelled).
-/

namespace PyRayT

/-- float memory; `next` is the first unused cell -/
structure Mem where
  cell : ℕ → ℝ
  next : ℕ

/-- the four numbers from an address on -/
def Mem.load (m : Mem) (a : ℕ) : Vec4 := fun i => m.cell (a + i)

/-- `self[i] = v` (also the setters `x`, `y`, `z`, `w`, lines 50-82) -/
def Mem.setCell (m : Mem) (c : ℕ) (v : ℝ) : Mem := { m with cell := Function.update m.cell c v }

/-- `self[0] = other` for a row of four cells: copies the four numbers (numpy reads the right side before it writes) -/
def Mem.store (m : Mem) (a : ℕ) (v : Vec4) : Mem :=
  (((m.setCell a (v 0)).setCell (a + 1) (v 1)).setCell (a + 2) (v 2)).setCell (a + 3) (v 3)

/-- `np.zeros` -/
def Mem.zeros (m : Mem) (n : ℕ) : Mem :=
  { cell := fun c => if m.next ≤ c ∧ c < m.next + n then 0 else m.cell c, next := m.next + n }

/-- lines 36-46: `HomogeneousCoordinate(x, y, z, w)`; `Point` and `Vector` (lines 85-94) fix `w`. -/
def Mem.newCoord (m : Mem) (v : Vec4) : Mem := (m.zeros 4).store m.next v

/-- lines 48-50 `normalize`: the first three numbers are divided by their norm, in place. A zero vector becomes nan in numpy and
stays zero here. -/
noncomputable def Mem.normalize (m : Mem) (a : ℕ) : Mem :=
  let n := √(m.cell a ^ 2 + m.cell (a + 1) ^ 2 + m.cell (a + 2) ^ 2)
  ((m.setCell a (m.cell a / n)).setCell (a + 1) (m.cell (a + 1) / n)).setCell (a + 2) (m.cell (a + 2) / n)

/-- lines 98-106: `Ray(origin, direction)` from the addresses of two coordinates -/
def Mem.newRay (m : Mem) (o d : ℕ) : Mem :=
  let a := m.next
  let m := m.zeros 8
  let m := m.store a (m.load o)
  m.store (a + 4) (m.load d)

/-- lines 31-32 `bundle_rays`: `np.stack` along a new last axis makes an array of shape (2, 4, n), so entry `[k, r, j]` is in
cell `(4 * k + r) * n + j`; `rays` are the addresses of the rays. -/
def Mem.bundle (m : Mem) (rays : List ℕ) : Mem :=
  { cell := fun c => if m.next ≤ c ∧ c < m.next + 8 * rays.length then
        m.cell (rays.getD ((c - m.next) % rays.length) 0 + (c - m.next) / rays.length) else m.cell c
    next := m.next + 8 * rays.length }

/-- the shapes of the arrays a program holds -/
inductive ArrShape where
  | coord
  | ray
  | bundle (n : ℕ)

/-- number of cells -/
def ArrShape.cells : ArrShape → ℕ
  | .coord => 4
  | .ray => 8
  | .bundle n => 8 * n

/-- The arrays made so far with their addresses. The default arguments of `Ray.__init__` (line 103) are made once, when the class is
defined: they are at addresses 0 and 4. -/
structure ArrState where
  mem : Mem
  objs : List (ℕ × ArrShape)

/-- a program that has just imported the module -/
def ArrState.init : ArrState :=
  { mem := ((({ cell := fun _ => 0, next := 0 } : Mem).newCoord (point 0 0 0)).newCoord (vector 1 0 0)), objs := [] }

/-- An expression that denotes four numbers: the `i`-th array (a point or vector), or `origin`/`direction` of it (a ray). -/
inductive Ref where
  | whole (i : ℕ)
  | origin (i : ℕ)
  | direction (i : ℕ)

/-- The address an expression evaluates to: lines 108-122 for the views. -/
def ArrState.addr (s : ArrState) : Ref → Option ℕ
  | .whole i => match s.objs[i]? with
    | some (a, .coord) => some a
    | _ => none
  | .origin i => match s.objs[i]? with
    | some (a, .ray) => some a
    | _ => none
  | .direction i => match s.objs[i]? with
    | some (a, .ray) => some (a + 4)
    | _ => none

/-- What a program does with the arrays. -/
inductive ArrOp where
  | newPoint (x y z : ℝ)
  | newVector (x y z : ℝ)
  /-- `Ray(...)`, an argument may be left out -/
  | newRay (o d : Option Ref)
  /-- `ref.x = v` etc. -/
  | setComp (r : Ref) (k : Fin 4) (v : ℝ)
  /-- `ref.normalize()` -/
  | normalize (r : Ref)
  /-- `ray.origin = ref` -/
  | setOrigin (i : ℕ) (r : Ref)
  /-- `ray.direction = ref` -/
  | setDirection (i : ℕ) (r : Ref)
  /-- `bundle_rays([...])` -/
  | bundle (is : List ℕ)
  /-- `bundle[k, r, j] = v` -/
  | setBundle (i : ℕ) (k : Fin 2) (r : Fin 4) (j : ℕ) (v : ℝ)

/-- address of a ray -/
def ArrState.rayAddr (s : ArrState) (i : ℕ) : Option ℕ := s.addr (.origin i)

/-- an omitted argument is the default array at address `a` -/
def ArrState.argAddr (s : ArrState) (a : ℕ) : Option Ref → Option ℕ
  | none => some a
  | some r => s.addr r

/-- Executing one of them; `none` is an exception (`np.stack` of an empty list raises `ValueError`) or a program that uses an array that
is not there or has another shape. -/
noncomputable def ArrState.step (s : ArrState) : ArrOp → Option ArrState
  | .newPoint x y z => some { mem := s.mem.newCoord (point x y z), objs := s.objs ++ [(s.mem.next, .coord)] }
  | .newVector x y z => some { mem := s.mem.newCoord (vector x y z), objs := s.objs ++ [(s.mem.next, .coord)] }
  | .newRay o d => do
    let o ← s.argAddr 0 o
    let d ← s.argAddr 4 d
    return { mem := s.mem.newRay o d, objs := s.objs ++ [(s.mem.next, .ray)] }
  | .setComp r k v => do
    let a ← s.addr r
    return { s with mem := s.mem.setCell (a + k) v }
  | .normalize r => do
    let a ← s.addr r
    return { s with mem := s.mem.normalize a }
  | .setOrigin i r => do
    let a ← s.addr (.origin i)
    let b ← s.addr r
    return { s with mem := s.mem.store a (s.mem.load b) }
  | .setDirection i r => do
    let a ← s.addr (.direction i)
    let b ← s.addr r
    return { s with mem := s.mem.store a (s.mem.load b) }
  | .bundle is => do
    let as ← is.mapM s.rayAddr
    if as = [] then none else
    return { mem := s.mem.bundle as, objs := s.objs ++ [(s.mem.next, .bundle as.length)] }
  | .setBundle i k r j v => match s.objs[i]? with
    | some (a, .bundle n) => if j < n then some { s with mem := s.mem.setCell (a + ((4 * k + r) * n + j)) v } else none
    | _ => none

/-- A program: operations that raise have no effect (the caller carries on). -/
noncomputable def ArrState.run (s : ArrState) (ops : List ArrOp) : ArrState :=
  ops.foldl (fun s o => (s.step o).getD s) s

/-- the four numbers an expression evaluates to -/
def ArrState.read (s : ArrState) (r : Ref) : Option Vec4 := (s.addr r).map s.mem.load

/-- `bundle[k, r, j]` -/
def ArrState.readBundle (s : ArrState) (i : ℕ) (k : Fin 2) (r : Fin 4) (j : ℕ) : Option ℝ :=
  match s.objs[i]? with
  | some (a, .bundle n) => if j < n then some (s.mem.cell (a + ((4 * k + r) * n + j))) else none
  | _ => none

end PyRayT
