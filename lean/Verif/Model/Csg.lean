import Mathlib.Order.BoundedOrder.Basic
import Mathlib.Data.List.Sort
import Mathlib.Data.List.Count
import Mathlib.Algebra.BigOperators.Group.List.Basic

/-!
# Model of `tinygfx/g3d/csg.py:array_csg` (lines 13-61)

One ray (one column of the numpy arrays) at a time: `array_csg` works column by column
(`axis=0` everywhere), so the 1-D branch (lines 28-32) and each column of the 2-D branch
(lines 34-38) are the same function.  Values live in any linear order with a top element;
the top element plays `np.inf`.
-/

namespace PyRayT

/-- `csg.py` lines 7-10: `class Operation(Enum)`. The `ValueError` for other values (line 50)
is unreachable for members of the enum. -/
inductive Operation where
  | union
  | intersect
  | difference
  deriving DecidableEq, Repr

section
variable {α : Type*}

/-- numpy fancy indexing `xs[σ]` for one column (`csg.py` lines 32, 38, 140-142, 148-149).
Indices outside the array cannot occur because `σ` comes from `argsort` of an array of the same
length; the default `d` is never used then (`gather_eq` below). -/
def gather (d : α) (xs : List α) (σ : List ℕ) : List α :=
  σ.map fun i => xs.getD i d

variable [LinearOrder α] [OrderTop α]

/-- Contract of `np.argsort(xs)` (`csg.py` lines 31, 37, 139, 147): a permutation of the indices
which sorts the values.  Nothing is said about the order of equal values, so theorems assuming only
this contract hold for every tie-breaking (quicksort, introsort, stable sort). -/
def IsArgsort (argsort : List α → List ℕ) : Prop :=
  ∀ xs : List α, (argsort xs).Perm (List.range xs.length) ∧
    (gather ⊤ xs (argsort xs)).Pairwise (· ≤ ·)

/-- Contract of an index-stable argsort: equal values stay in index order.  numpy 1.20.2
(`poetry.lock`) uses insertion sort, which is stable, for arrays of at most 16 elements. -/
def IsStableArgsort (argsort : List α → List ℕ) : Prop :=
  IsArgsort argsort ∧
    ∀ xs : List α, (argsort xs).Pairwise fun i j => xs.getD i ⊤ = xs.getD j ⊤ → i < j

/-- `csg.py` lines 41 and 45-47: the value added to the running surface count by the sorted element
whose original index is `i`; `n1` is `array1.shape[0]`. -/
def signMask (op : Operation) (n1 i : ℕ) : ℤ :=
  match op with
  | .union | .intersect => if i % 2 = 1 then -1 else 1
  | .difference => if xor (i % 2 = 1) (n1 ≤ i) then -1 else 1

/-- `np.cumsum` (lines 42, 48) started at `acc`. -/
def cumsumFrom (acc : ℤ) : List ℤ → List ℤ
  | [] => []
  | s :: ss => (acc + s) :: cumsumFrom (acc + s) ss

/-- Lines 40-50: the running surface count; `+ 1` in the difference case (line 48). -/
def surfaceCount (op : Operation) (n1 : ℕ) (σ : List ℕ) : List ℤ :=
  match op with
  | .union | .intersect => cumsumFrom 0 (σ.map (signMask op n1))
  | .difference => (cumsumFrom 0 (σ.map (signMask op n1))).map (· + 1)

/-- `np.roll(xs, 1, axis=0)` (lines 53, 58): the last element moves to the front. -/
def roll {β : Type*} (xs : List β) : List β :=
  match xs.getLast? with
  | none => []
  | some z => z :: xs.dropLast

/-- Lines 52-59: which sorted entries are kept. -/
def keepMask (op : Operation) (counts : List ℤ) : List Bool :=
  match op with
  | .union => List.zipWith (fun a b => xor (decide (a ≠ 0)) (decide (b ≠ 0))) counts (roll counts)
  | .intersect | .difference =>
    let isTwo := counts.map fun c => decide (c = 2)
    List.zipWith (fun a b => a || b) isTwo (roll isTwo)

/-- `csg.py` `array_csg(array1, array2, operation, sort_output=False)`. -/
def arrayCsgUnsorted (argsort : List α → List ℕ) (l r : List α) (op : Operation) : List α :=
  let merged := l ++ r
  let σ := argsort merged
  List.zipWith (fun v k => if k then v else ⊤) (gather ⊤ merged σ)
    (keepMask op (surfaceCount op l.length σ))

/-- `csg.py` `array_csg(array1, array2, operation)` with the default `sort_output=True`
(line 61: `np.sort`). -/
def arrayCsg (argsort : List α → List ℕ) (l r : List α) (op : Operation) : List α :=
  (arrayCsgUnsorted argsort l r op).insertionSort (· ≤ ·)

/-- `csg.py` lines 134-149 for one ray that passed the bounding box test: hits and surface ids of
both children are merged, masked and sorted. -/
def csgCombine {ι : Type*} (argsort : List α → List ℕ) (noSurf : ι) (op : Operation)
    (lHits : List α) (lSurf : List ι) (rHits : List α) (rSurf : List ι) :
    List α × List ι :=
  let surfaces := gather noSurf (lSurf ++ rSurf) (argsort (lHits ++ rHits))
  let hits := arrayCsgUnsorted argsort lHits rHits op
  let τ := argsort hits
  (gather ⊤ hits τ, gather noSurf surfaces τ)

/-- A concrete argsort: insertion sort of the indices by value (what numpy runs on short arrays). -/
def insertionArgsort (xs : List α) : List ℕ :=
  (List.range xs.length).insertionSort fun i j => xs.getD i ⊤ ≤ xs.getD j ⊤

end

end PyRayT
