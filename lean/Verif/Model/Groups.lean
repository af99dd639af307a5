import Verif.Model.World

/-!
# `ObjectGroup` as a list

`ObjectGroup` (`tinygfx/g3d/world_objects.py` lines 283-295) inherits the list methods of `collections.UserList`, which pass them on to
the list `data`. The methods that make a new group (`+`, `*`, slices, `copy()`) are `ObjectGroup(list)`: `newGroup`. `sort` is not
modelled (objects cannot be compared), nor is `copy.copy` of an object.
-/

namespace PyRayT

/-- what a list method can raise -/
inductive ListErr where
  | index
  | value
  | recursion
  | attribute

/-- `==` of two lists of the same length: item by item, up to the first difference; `eq` is `==` of two items, `none` a `RecursionError` -/
def eqList (eq : ℕ → ℕ → Option Bool) : List ℕ → List ℕ → Option Bool
  | a :: as, b :: bs =>
    match eq a b with
    | some true => eqList eq as bs
    | other => other
  | _, _ => some true

/-- `a is b or a == b` of two objects. `WorldObject` defines no `__eq__` (line 43), so that for two groups the `__eq__` of `UserList` applies
(line 283): they are equal if their lists are. All other objects are equal only to themselves. -/
noncomputable def eqObj : ℕ → Heap → ℕ → ℕ → Option Bool
  | 0, _, a, b => if a = b then some true else none
  | fuel + 1, h, a, b =>
    if a = b then some true
    else match (h.obj a).kind, (h.obj b).kind with
      | .group ms, .group ms' => if ms.length = ms'.length then eqList (eqObj fuel h) ms ms' else some false
      | _, _ => some false

/-- `list.remove`: the first item that is the object or equal to it -/
def removeFirst (eq : ℕ → Option Bool) : List ℕ → Except ListErr (List ℕ)
  | [] => .error .value
  | a :: as =>
    match eq a with
    | none => .error .recursion
    | some true => .ok as
    | some false => (removeFirst eq as).map (a :: ·)

/-- the position that an index means in a list of length `n`; negative indices count from the end -/
def position (n : ℕ) (i : ℤ) : Option ℕ :=
  let j := if i < 0 then i + n else i
  if 0 ≤ j ∧ j < n then some j.toNat else none

/-- the position at which `insert` inserts: indices out of range are moved into it -/
def insertPosition (n : ℕ) (i : ℤ) : ℕ := min (if i < 0 then i + n else i).toNat n

/-- the methods that change a group in place -/
inductive ListEdit where
  | append (m : ℕ)
  | insert (i : ℤ) (m : ℕ)
  | extend (ms : List ℕ)
  | setItem (i : ℤ) (m : ℕ)
  | pop (i : ℤ)
  | remove (m : ℕ)
  | clear
  | reverse
  | imul (n : ℤ)

/-- the objects that an edit puts into the group -/
def ListEdit.added : ListEdit → List ℕ
  | .append m => [m]
  | .insert _ m => [m]
  | .extend ms => ms
  | .setItem _ m => [m]
  | _ => []

/-- the list after the edit. `del group[i]` is `pop` without its value, `group += other` is `extend`. -/
noncomputable def ListEdit.run (fuel : ℕ) (h : Heap) (ms : List ℕ) : ListEdit → Except ListErr (List ℕ)
  | .append m => .ok (ms ++ [m])
  | .insert i m => .ok (ms.insertIdx (insertPosition ms.length i) m)
  | .extend ms' => .ok (ms ++ ms')
  | .setItem i m =>
    match position ms.length i with
    | some k => .ok (ms.set k m)
    | none => .error .index
  | .pop i =>
    match position ms.length i with
    | some k => .ok (ms.eraseIdx k)
    | none => .error .index
  | .remove m => removeFirst (fun a => eqObj fuel h a m) ms
  | .clear => .ok []
  | .reverse => .ok ms.reverse
  | .imul n => .ok (List.replicate n.toNat ms).flatten

/-- an edit of the object at an address: only groups have these methods -/
noncomputable def editGroup (fuel : ℕ) (h : Heap) (g : ℕ) (e : ListEdit) : Except ListErr Heap :=
  match (h.obj g).kind with
  | .group ms => (e.run fuel h ms).map fun ms' => h.set g { h.obj g with kind := .group ms' }
  | _ => .error .attribute

/-- A history of commands and edits of groups, none of which raises. -/
inductive ReachesL (argsort : List EReal → List ℕ) (fuel : ℕ) : Heap → Heap → Prop where
  | refl (h : Heap) : ReachesL argsort fuel h h
  | cmd {h h' h'' : Heap} (c : Cmd) : ReachesL argsort fuel h h' → c.valid h' → exec argsort fuel h' c = (h'', none) → ReachesL argsort fuel h h''
  | edit {h h' h'' : Heap} (g : ℕ) (e : ListEdit) : ReachesL argsort fuel h h' → g < h'.size → (∀ m ∈ e.added, m < h'.size) →
      editGroup fuel h' g e = .ok h'' → ReachesL argsort fuel h h''

end PyRayT
