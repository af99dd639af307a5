import Verif.Model.Arrays

/-!
# Specification of the array classes: independent values (C78)

No memory: a point or vector is four numbers, a ray is an origin and a direction, a bundle is a list of rays.
-/

namespace PyRayT.Spec

/-- a value held by a variable -/
inductive Val where
  | coord (v : Vec4)
  | ray (o d : Vec4)
  | bundle (rays : List (Vec4 × Vec4))

/-- reading an expression -/
def read (vs : List Val) : Ref → Option Vec4
  | .whole i => match vs[i]? with
    | some (.coord v) => some v
    | _ => none
  | .origin i => match vs[i]? with
    | some (.ray o _) => some o
    | _ => none
  | .direction i => match vs[i]? with
    | some (.ray _ d) => some d
    | _ => none

/-- assigning to an expression: only that part of that variable changes -/
def write (vs : List Val) (r : Ref) (v : Vec4) : List Val :=
  match r with
  | .whole i => vs.set i (.coord v)
  | .origin i => match vs[i]? with
    | some (.ray _ d) => vs.set i (.ray v d)
    | _ => vs
  | .direction i => match vs[i]? with
    | some (.ray o _) => vs.set i (.ray o v)
    | _ => vs

/-- the vector with its first three components scaled to length one -/
noncomputable def unit3 (v : Vec4) : Vec4 :=
  let n := √(v 0 ^ 2 + v 1 ^ 2 + v 2 ^ 2)
  ![v 0 / n, v 1 / n, v 2 / n, v 3]

/-- an argument that may be left out -/
def arg (vs : List Val) (dflt : Vec4) : Option Ref → Option Vec4
  | none => some dflt
  | some r => read vs r

/-- the rays with the given indices -/
def rays (vs : List Val) : List ℕ → Option (List (Vec4 × Vec4))
  | [] => some []
  | i :: is => match vs[i]?, rays vs is with
    | some (.ray o d), some rs => some ((o, d) :: rs)
    | _, _ => none

/-- one component of a ray -/
def comp (p : Vec4 × Vec4) (k : Fin 2) (r : Fin 4) : ℝ := if k = 0 then p.1 r else p.2 r

/-- a ray with one component replaced -/
def setCompOf (p : Vec4 × Vec4) (k : Fin 2) (r : Fin 4) (v : ℝ) : Vec4 × Vec4 :=
  if k = 0 then (Function.update p.1 r v, p.2) else (p.1, Function.update p.2 r v)

/-- what an operation does to the values; `none`: it raises -/
noncomputable def step (vs : List Val) : ArrOp → Option (List Val)
  | .newPoint x y z => some (vs ++ [.coord (point x y z)])
  | .newVector x y z => some (vs ++ [.coord (vector x y z)])
  | .newRay o d => match arg vs (point 0 0 0) o, arg vs (vector 1 0 0) d with
    | some o, some d => some (vs ++ [.ray o d])
    | _, _ => none
  | .setComp r k v => (read vs r).map fun u => write vs r (Function.update u k v)
  | .normalize r => (read vs r).map fun u => write vs r (unit3 u)
  | .setOrigin i r => match read vs (.origin i), read vs r with
    | some _, some v => some (write vs (.origin i) v)
    | _, _ => none
  | .setDirection i r => match read vs (.direction i), read vs r with
    | some _, some v => some (write vs (.direction i) v)
    | _, _ => none
  | .bundle is => match rays vs is with
    | some (p :: ps) => some (vs ++ [.bundle (p :: ps)])
    | _ => none
  | .setBundle i k r j v => match vs[i]? with
    | some (.bundle ps) => match ps[j]? with
      | some p => some (vs.set i (.bundle (ps.set j (setCompOf p k r v))))
      | none => none
    | _ => none

/-- a sequence of operations -/
noncomputable def run (vs : List Val) (ops : List ArrOp) : List Val := ops.foldl (fun vs o => (step vs o).getD vs) vs

/-- reading an entry of a bundle -/
def readBundle (vs : List Val) (i : ℕ) (k : Fin 2) (r : Fin 4) (j : ℕ) : Option ℝ :=
  match vs[i]? with
  | some (.bundle ps) => (ps[j]?).map fun p => comp p k r
  | _ => none

end PyRayT.Spec
