import Verif.Model.Scene
import Verif.Model.RaySet
import Mathlib.Data.Fin.Tuple.Sort

/-!
# Model of the vectorised code, array by array

The other models describe one ray (one column of the numpy arrays) at a time. Here the functions on the way from a ray set to the next ray set are modelled once more as they are
written: on whole arrays, with the stacking, sorting, reshaping, masking and indexing that the code uses. An array with `r` rows and `n` columns is a function of two indices; the
number of columns is arbitrary, zero included. Entries that `np.empty` leaves undefined are a parameter (`junk`).
-/

namespace PyRayT

open Classical Matrix

/-! ### numpy -/

/-- a 2-D array -/
abbrev Tab (α : Type*) (r n : ℕ) := Fin r → Fin n → α

/-- a 2x4xn array of rays (`primitives.py` lines 18-28) -/
abbrev Rays (n : ℕ) := Fin 2 → Fin 4 → Fin n → ℝ

section
variable {α : Type*} {r s n m : ℕ}

/-- `np.where(mask, a, b)` of 1-D arrays -/
noncomputable def npWhere (mask : Fin n → Prop) (a b : Fin n → α) : Fin n → α := fun j => if mask j then a j else b j

/-- `np.where(mask, a, b)` with a 1-D mask, which numpy repeats for every row -/
noncomputable def npWhere2 (mask : Fin n → Prop) (a b : Tab α r n) : Tab α r n := fun i => npWhere mask (a i) (b i)

/-- an array filled with one value (`np.full`, and a number that numpy expands to an array) -/
def npFull (x : α) : Fin n → α := fun _ => x

/-- `x + mask`: a boolean array added to numbers -/
noncomputable def plusMask (x : Fin n → ℝ) (mask : Fin n → Prop) : Fin n → ℝ := fun j => x j + if mask j then 1 else 0

/-- floats among `inf` and `-inf` -/
def up (x : Fin n → ℝ) : Fin n → EReal := fun j => (x j : EReal)

/-- `np.isclose(x, 0)` -/
def close0 (x : Fin n → ℝ) : Fin n → Prop := fun j => isclose0 (x j)

/-- `np.isclose(x, y)` for a number `y` -/
def closeTo (x : Fin n → ℝ) (y : ℝ) : Fin n → Prop := fun j => isclose (x j) y

/-- `np.einsum("ij,ij->j", a, b)` -/
def einsum (a b : Tab ℝ r n) : Fin n → ℝ := fun j => ∑ i, a i j * b i j

/-- `np.linalg.norm(a, axis=0)` -/
noncomputable def colNorm (a : Tab ℝ r n) : Fin n → ℝ := fun j => √(∑ i, a i j ^ 2)

/-- `np.hstack((a, b))` -/
def hstack (a : Tab α r n) (b : Tab α r m) : Tab α r (n + m) := fun i => Fin.append (a i) (b i)

/-- `np.vstack((a, b))` -/
def vstack (a : Tab α r n) (b : Tab α s n) : Tab α (r + s) n := Fin.append a b

/-- `a.reshape(r', c')`: the entries in the order of the rows. -/
def reshape {c r' c' : ℕ} (h : r' * c' = r * c) (a : Tab α r c) : Tab α r' c' := fun i j =>
  have hlt : i.val * c' + j.val < r * c := by
    have h1 : i.val * c' + c' ≤ r' * c' := by
      rw [← Nat.succ_mul]; exact Nat.mul_le_mul_right _ i.isLt
    have h2 := j.isLt
    omega
  a ⟨(i.val * c' + j.val) / c, Nat.div_lt_of_lt_mul (lt_of_lt_of_eq hlt (Nat.mul_comm r c))⟩
    ⟨(i.val * c' + j.val) % c, Nat.mod_lt _ (Nat.pos_of_ne_zero fun h0 => by simp [h0] at hlt)⟩

/-- `a.sort(axis=0)`, `np.sort(a, axis=0)`: every column in increasing order -/
def sort0 [LinearOrder α] (a : Tab α r n) : Tab α r n := fun i j => a (Tuple.sort (fun k => a k j) i) j

/-- `np.max(a, axis=0)` -/
noncomputable def max0 (a : Tab EReal r n) : Fin n → EReal := fun j => Finset.univ.sup fun i => a i j

/-- `np.min(a, axis=0)` -/
noncomputable def min0 (a : Tab EReal r n) : Fin n → EReal := fun j => Finset.univ.inf fun i => a i j

/-- `a[:k]` -/
def firstRows (k : ℕ) (a : Tab α (k + s) n) : Tab α k n := fun i => a (Fin.castAdd s i)

/-- `a[k:]` -/
def lastRows (k : ℕ) (a : Tab α (k + s) n) : Tab α s n := fun i => a (Fin.natAdd k i)

/-- `a[row] = v` -/
def setRow (a : Tab α r n) (row : Fin r) (v : Fin n → α) : Tab α r n := fun i => if i = row then v else a i

/-- `a[row, lo : lo + m] = v` -/
def setSlice (a : Tab α r n) (row : Fin r) (lo : ℕ) (v : Fin m → α) : Tab α r n := fun i k =>
  if h : i = row ∧ lo ≤ k.val ∧ k.val < lo + m then v ⟨k.val - lo, by omega⟩ else a i k

/-- the columns that a boolean mask selects, from left to right -/
noncomputable def picked (mask : Fin n → Prop) : List (Fin n) := (List.finRange n).filter fun j => mask j

/-- `a[..., mask]` -/
noncomputable def compress (mask : Fin n → Prop) (a : Tab α r n) : Tab α r (picked mask).length := fun i k => a i ((picked mask).get k)

/-- `x[mask]` of a 1-D array -/
noncomputable def compress1 (mask : Fin n → Prop) (x : Fin n → α) : Fin (picked mask).length → α := fun k => x ((picked mask).get k)

/-- `a[..., mask] = v` -/
noncomputable def scatter (mask : Fin n → Prop) (a : Tab α r n) (v : Tab α r (picked mask).length) : Tab α r n := fun i j =>
  if h : j ∈ picked mask then v i ⟨(picked mask).idxOf j, List.idxOf_lt_length_of_mem h⟩ else a i j

/-- `np.argsort(a, axis=0)`: the same one-dimensional algorithm on every column -/
def argsort0 (argsort : List α → List ℕ) (a : Tab α r n) : Tab ℕ r n := fun i j => (argsort (List.ofFn fun k => a k j)).getD i 0

/-- `a[index, np.arange(n)]`: in every column the entries with the given row numbers. Row numbers out of range raise an error in numpy; here they give `d`. -/
def takeRows (d : α) (a : Tab α r n) (index : Tab ℕ s n) : Tab α s n := fun i j => if h : index i j < r then a ⟨index i j, h⟩ j else d

/-- `np.cumsum(a, axis=0)` -/
def cumsum0 (a : Tab ℤ r n) : Tab ℤ r n := fun i j => ∑ k ∈ Finset.univ.filter (· ≤ i), a k j

/-- `np.roll(a, 1, axis=0)` -/
def roll0 (a : Tab α r n) : Tab α r n := fun i j => a ⟨(i.val + r - 1) % r, Nat.mod_lt _ i.pos⟩ j

/-- one column as a list -/
def colList (a : Tab α r n) (j : Fin n) : List α := List.ofFn fun i => a i j

end

/-! ### `primitives.py` -/

section
variable {n : ℕ}

/-- one ray of an array -/
def Rays.col (rays : Rays n) (j : Fin n) : Ray := ⟨fun i => rays 0 i j, fun i => rays 1 i j⟩

/-- `rays[0, :-1]` -/
def Rays.origins (rays : Rays n) : Tab ℝ 3 n := fun i => rays 0 i.castSucc

/-- `rays[1, :-1]` -/
def Rays.directions (rays : Rays n) : Tab ℝ 3 n := fun i => rays 1 i.castSucc

/-- `np.atleast_3d` of a 2x4 array: one ray becomes an array of one ray -/
def Rays.single (ray : Ray) : Rays 1 := fun k i _ => if k = 0 then ray.o i else ray.d i

/-- lines 241-271 `Sphere.intersect`. Simplification: as in `sphereIntersect`, a zero direction gives `inf` instead of nan. -/
noncomputable def sphereIntersectA (radius : ℝ) (rays : Rays n) : Tab EReal 2 n :=
  let a := einsum rays.directions rays.directions
  let b := 2 * einsum rays.directions rays.origins
  let c := einsum rays.origins rays.origins - npFull (radius ^ 2)
  let disc := b ^ 2 - 4 * a * c
  let root : Fin n → ℝ := fun j => √(max 0 (disc j))
  let hits : Tab ℝ 2 n := fun i => ![-b + root, -b - root] i / (2 * a)
  npWhere2 (fun j => a j = 0) (fun _ => npFull ⊤) (npWhere2 (fun j => disc j ≥ 0) (fun i => up (hits i)) fun _ => npFull ⊤)

/-- `operations.py` lines 28-63 `binomial_root(a, b, c)` -/
noncomputable def binomialRootA (a b c : Fin n → ℝ) : Tab EReal 2 n :=
  let disc := b ^ 2 - 4 * a * c
  let linear := close0 a
  let root : Fin n → ℝ := fun j => √(max 0 (disc j))
  let poly : Tab ℝ 2 n := fun i => ![-b + root, -b - root] i / plusMask (2 * a) (close0 a)
  let roots := npWhere2 (fun j => disc j ≥ 0) (fun i => up (poly i)) fun _ => npFull ⊤
  let roots := npWhere2 linear (fun _ => up (-c / plusMask b fun j => b j = 0)) roots
  let cOnly : Fin n → Prop := fun j => linear j ∧ close0 b j
  let roots := npWhere2 cOnly (fun _ => npFull ⊤) roots
  setRow roots 0 (npWhere (fun j => cOnly j ∧ c j ≤ 0) (npFull ⊥) (roots 0))

/-- lines 372-390 / 685-703: the two cap planes -/
noncomputable def capHitsA (lo hi : ℝ) (oz dz : Fin n → ℝ) : Tab EReal 2 n :=
  let parallel := close0 dz
  let inside : Fin n → Prop := fun j => oz j ≥ lo ∧ oz j ≤ hi
  let den := plusMask dz parallel
  let caps : Tab EReal 2 n := ![up ((npFull lo - oz) / den), up ((npFull hi - oz) / den)]
  let caps := npWhere2 parallel (fun _ => npFull ⊤) caps
  setRow caps 0 (npWhere (fun j => parallel j ∧ inside j) (npFull ⊥) (caps 0))

/-- lines 392-399 / 705-712: the side hits and the cap hits are put side by side (2 x 2n), sorted and reshaped to 4 x n. -/
noncomputable def clipHitsA (side caps : Tab EReal 2 n) : Tab EReal 2 n :=
  let all := sort0 (hstack side caps)
  let all4 : Tab EReal (2 + 2) n := reshape (by ring) all
  let hits : Tab EReal 2 n := vstack (r := 1) (s := 1) (fun _ => max0 (firstRows 2 all4)) (fun _ => min0 (lastRows 2 all4))
  npWhere2 (fun j => hits 0 j ≤ hits 1 j) hits fun _ => npFull ⊤

/-- lines 650-712 `Cylinder.intersect` -/
noncomputable def cylinderIntersectA (radius hMin hMax : ℝ) (rays : Rays n) : Tab EReal 2 n :=
  let o2 : Tab ℝ 2 n := fun i => rays.origins i.castSucc
  let d2 : Tab ℝ 2 n := fun i => rays.directions i.castSucc
  let a := einsum d2 d2
  let b := 2 * einsum d2 o2
  let c := einsum o2 o2 - npFull (radius ^ 2)
  clipHitsA (sort0 (binomialRootA a b c)) (capHitsA hMin hMax (rays.origins 2) (rays.directions 2))

/-- lines 320-399 `Paraboloid.intersect` (`linear_hits` is filled row by row, lines 360-362) -/
noncomputable def paraboloidIntersectA (focus height : ℝ) (rays : Rays n) : Tab EReal 2 n :=
  let o2 : Tab ℝ 2 n := fun i => rays.origins i.castSucc
  let d2 : Tab ℝ 2 n := fun i => rays.directions i.castSucc
  let a := einsum d2 d2
  let b := 2 * einsum o2 d2 - npFull (4 * focus) * rays.directions 2
  let c := einsum o2 o2 - npFull (4 * focus) * rays.origins 2
  let disc := b ^ 2 - 4 * a * c
  let linear := close0 a
  let root : Fin n → ℝ := fun j => √(max 0 (disc j))
  let poly : Tab ℝ 2 n := fun i => ![-b + root, -b - root] i / plusMask (2 * a) linear
  let hits := npWhere2 (fun j => disc j ≥ 0) (fun i => up (poly i)) fun _ => npFull ⊤
  let lin : Tab EReal 2 n := ![up (-c / plusMask b (close0 b)), npWhere (fun j => rays.directions 2 j ≥ 0) (npFull ⊤) (npFull ⊥)]
  clipHitsA (sort0 (npWhere2 linear lin hits)) (capHitsA 0 height (rays.origins 2) (rays.directions 2))

/-- lines 454-469: one turn of the loop over the two axes of a plane; two slices of `boundary_hits` are written. -/
noncomputable def planeLoopA (rays : Rays n) (bounds : Tab EReal 2 (2 * n)) (axis : Fin 3) (dim : ℝ) : Tab EReal 2 (2 * n) :=
  let o := rays.origins axis
  let d := rays.directions axis
  let isZero := close0 d
  let skew : Fin n → EReal := npWhere (fun j => |o j| ≤ dim / 2) (npFull ⊥) (npFull ⊤)
  let hit1 := -(o - npFull (dim / 2)) / plusMask d isZero
  let hit2 := -(o + npFull (dim / 2)) / plusMask d isZero
  let bounds := setSlice bounds 0 (axis * n) (npWhere isZero skew (up hit1))
  setSlice bounds 1 (axis * n) (npWhere isZero (npFull ⊤) (up hit2))

/-- lines 436-492 `Plane.intersect`; `junk` is the contents of `np.empty`. -/
noncomputable def planeIntersectA (junk : Tab EReal 2 (2 * n)) (width length : ℝ) (rays : Rays n) : Tab EReal 2 n :=
  let bounds := planeLoopA rays (planeLoopA rays junk 0 width) 1 length
  let bounds : Tab EReal (2 + 2) n := reshape (by ring) (sort0 bounds)
  let bounds : Tab EReal (2 + 2) n := vstack (sort0 (firstRows 2 bounds)) (sort0 (lastRows 2 bounds))
  let skew := close0 (rays.directions 2)
  let hit : Fin n → EReal := npWhere skew (npFull ⊤) (up (-rays.origins 2 / plusMask (rays.directions 2) skew))
  let hit := npWhere (fun j => hit j ≥ bounds 1 j ∧ hit j ≤ bounds 2 j) hit (npFull ⊤)
  fun _ => hit

/-- lines 531-565: one turn of the loop over the axes of a cube; the rows `axis` and `3 + axis` of `hits` are written. `-(o - s)/d` is written as in `slab`. -/
noncomputable def cubeLoopA (box : Box) (rays : Rays n) (hits : Tab EReal (3 + 3) n) (axis : Fin 3) : Tab EReal (3 + 3) n :=
  let o := rays.origins axis
  let d := rays.directions axis
  let isZero := close0 d
  let skew : Fin n → EReal := npWhere (fun j => (o j : EReal) ≤ (box axis).2 ∧ (o j : EReal) ≥ (box axis).1) (npFull ⊥) (npFull ⊤)
  let h0 : Fin n → EReal := npWhere (fun j => ¬ isZero j) (fun j => ((box axis).1 - (o j : EReal)) * (((plusMask d isZero j)⁻¹ : ℝ) : EReal)) skew
  let h1 : Fin n → EReal := npWhere (fun j => ¬ isZero j) (fun j => ((box axis).2 - (o j : EReal)) * (((plusMask d isZero j)⁻¹ : ℝ) : EReal)) (npFull ⊤)
  let new : Tab EReal 2 n := sort0 ![h0, h1]
  setRow (setRow hits (Fin.castAdd 3 axis) (new 0)) (Fin.natAdd 3 axis) (new 1)

/-- lines 516-581 `Cube.intersect` -/
noncomputable def boxIntersectA (box : Box) (rays : Rays n) : Tab EReal 2 n :=
  let hits : Tab EReal (3 + 3) n := fun _ => npFull (-1)
  let hits := [0, 1, 2].foldl (cubeLoopA box rays) hits
  let out : Tab EReal 2 n := ![max0 (firstRows 3 hits), min0 (lastRows 3 hits)]
  npWhere2 (fun j => out 0 j < out 1 j) out fun _ => npFull ⊤

/-- `SurfacePrimitive.intersect` of each primitive -/
noncomputable def Prim.intersectA (junk : Tab EReal 2 (2 * n)) : Prim → Rays n → Tab EReal 2 n
  | .sphere r => sphereIntersectA r
  | .paraboloid f h => paraboloidIntersectA f h
  | .plane w l => planeIntersectA junk w l
  | .cube a b => boxIntersectA (toBox (cubeSpans a b))
  | .cylinder r a b => cylinderIntersectA r a b

/-! ### normals -/

/-- every row divided by the same 1-D array -/
noncomputable def divRows {r : ℕ} (a : Tab ℝ r n) (v : Fin n → ℝ) : Tab ℝ r n := fun i => a i / v

/-- a 4x1 array, which numpy repeats for every column -/
def column {r : ℕ} (v : Fin r → ℝ) : Tab ℝ r n := fun i => npFull (v i)

/-- `np.matmul(m, x)` -/
def matmulA (m : Mat4) (x : Tab ℝ 4 n) : Tab ℝ 4 n := fun i j => ∑ k, m i k * x k j

/-- line 591: `np.vstack((self.axis_spans, (0, 0)))` -/
def paddedAxes (spans : Fin 3 → ℝ × ℝ) : Fin (3 + 1) → ℝ × ℝ := Fin.append spans ![(0, 0)]

/-- `normal` of each primitive for a 4xn array of points: lines 283-296, 401-418, 494-498, 583-602, 714-743. Simplifications as in `Prim.normal`: cylinders are capped, a division by
zero gives 0. -/
noncomputable def Prim.normalA (p : Prim) (x : Tab ℝ 4 n) : Tab ℝ 4 n :=
  match p with
  | .sphere _ =>
    let w := setRow x 3 (npFull 0)
    divRows w (colNorm w)
  | .paraboloid f h =>
    let w := setRow (setRow x 3 (npFull 0)) 2 (npFull (-2 * f))
    let w := npWhere2 (closeTo (x 2) h) (column ![0, 0, 1, 0]) w
    divRows w (colNorm w)
  | .plane _ _ => setRow (fun _ => npFull 0) 2 (npFull 1)
  | .cube a b =>
    let axes := paddedAxes (cubeSpans a b)
    let w : Tab ℝ 4 n := fun i => npWhere (closeTo (x i) (axes i).1) (npFull (-1)) (npFull 0)
    let w : Tab ℝ 4 n := fun i => npWhere (closeTo (x i) (axes i).2) (npFull 1) (w i)
    let w := setRow w 3 (npFull 0)
    divRows w (colNorm w)
  | .cylinder _ lo hi =>
    let w := setRow (setRow x 2 (npFull 0)) 3 (npFull 0)
    let w := npWhere2 (closeTo (x 2) lo) (column ![0, 0, -1, 0]) w
    let w := npWhere2 (closeTo (x 2) hi) (column ![0, 0, 1, 0]) w
    divRows w (colNorm w)

/-- `world_objects.py` lines 401-420 `get_world_normals` -/
noncomputable def worldNormalsA (o : Obj) (p : Prim) (pos : Tab ℝ 4 n) : Tab ℝ 4 n :=
  let w := matmulA o.objTᵀ (p.normalA (matmulA o.objT pos))
  let w := setRow w 3 (npFull 0)
  let w := divRows w (colNorm w)
  fun i => npFull o.nscale * w i

/-- the normals of the surface at an address (none for other objects: 0, as in `surfaceNormal`) -/
noncomputable def surfaceNormalsA (h : Heap) (x : ℕ) (pos : Tab ℝ 4 n) : Tab ℝ 4 n :=
  match (h.obj x).kind with
  | .prim p => worldNormalsA (h.obj x) p pos
  | _ => fun _ => npFull 0

/-! ### `operations.py` -/

/-- lines 99-102 `reflect` of an array with one normal; `np.tile(normals, (n, 1)).T` has the normal in every column. -/
def reflectSingleA (v : Tab ℝ 4 n) (normal : Vec4) : Tab ℝ 4 n :=
  let dots : Fin n → ℝ := fun j => ∑ i, v i j * normal i
  fun i => v i - 2 * column normal i * dots

/-- lines 104-107 `reflect` of two arrays -/
def reflectA (v normals : Tab ℝ 4 n) : Tab ℝ 4 n :=
  let dots := einsum v normals
  fun i => v i - 2 * normals i * dots

/-- lines 110-162 `refract`; the directions and indices that it returns. (`vectors` is normalised in place, line 125; its callers overwrite it.) -/
noncomputable def refractA (v normals : Tab ℝ 4 n) (n1 n2 : Fin n → ℝ) (nGlobal : ℝ) : Tab ℝ 4 n × (Fin n → ℝ) :=
  let v := divRows v (colNorm v)
  let cosP := einsum v normals
  let cosN := einsum v (fun i => -normals i)
  let n2l := npWhere (fun j => cosP j > 0) (npFull nGlobal) n2
  let normals := npWhere2 (fun j => cosP j > 0) (fun i => -normals i) normals
  let r := n1 / n2l
  let cos1 := npWhere (fun j => cosP j > 0) cosP cosN
  let radicand := 1 - r ^ 2 * (1 - cos1 ^ 2)
  let cos2 : Fin n → ℝ := fun j => √(max 0 (radicand j))
  let out := npWhere2 (fun j => radicand j > 0) (fun i => r * v i + (r * cos1 - cos2) * normals i) (fun i => v i + 2 * cos1 * normals i)
  (divRows out (colNorm out), npWhere (fun j => radicand j > 0) n2l n1)

/-! ### `csg.py` and `world_objects.py` -/

/-- `csg.py` lines 34-61 (arrays of two dimensions), `array_csg(array1, array2, operation, sort_output=False)` -/
noncomputable def arrayCsgUnsortedA (argsort : List EReal → List ℕ) {r s : ℕ} (a : Tab EReal r n) (b : Tab EReal s n) (op : Operation) : Tab EReal (r + s) n :=
  let merged := vstack a b
  let order := argsort0 argsort merged
  let merged := takeRows ⊤ merged order
  match op with
  | .union =>
    let count := cumsum0 fun i j => if order i j % 2 = 1 then (-1 : ℤ) else 1
    fun i => npWhere (fun j => Xor (count i j ≠ 0) (roll0 count i j ≠ 0)) (merged i) (npFull ⊤)
  | .intersect =>
    let count := cumsum0 fun i j => if order i j % 2 = 1 then (-1 : ℤ) else 1
    let isTwo : Tab Prop (r + s) n := fun i j => count i j = 2
    fun i => npWhere (fun j => isTwo i j ∨ roll0 isTwo i j) (merged i) (npFull ⊤)
  | .difference =>
    let count : Tab ℤ (r + s) n := fun i j => cumsum0 (fun i j => if Xor (order i j % 2 = 1) (order i j ≥ r) then (-1 : ℤ) else 1) i j + 1
    let isTwo : Tab Prop (r + s) n := fun i j => count i j = 2
    fun i => npWhere (fun j => isTwo i j ∨ roll0 isTwo i j) (merged i) (npFull ⊤)

/-- line 61: `array_csg(array1, array2, operation)` -/
noncomputable def arrayCsgA (argsort : List EReal → List ℕ) {r s : ℕ} (a : Tab EReal r n) (b : Tab EReal s n) (op : Operation) : Tab EReal (r + s) n :=
  sort0 (arrayCsgUnsortedA argsort a b op)

/-- what `intersect` returns: a matrix of hits and a matrix of surface ids of the same shape -/
structure HitsA (n : ℕ) where
  rows : ℕ
  hits : Tab EReal rows n
  surfaces : Tab ℤ rows n

/-- `rays[:, :, mask]` -/
noncomputable def Rays.compress (mask : Fin n → Prop) (rays : Rays n) : Rays (picked mask).length := fun k => PyRayT.compress mask (rays k)

/-- `csg.py` lines 136-160: the hits of the two children with the rays that a mask selects are combined, sorted and written into arrays for all rays. -/
noncomputable def csgCombineA (argsort : List EReal → List ℕ) (op : Operation) (mask : Fin n → Prop) (lh rh : HitsA (picked mask).length) : HitsA n :=
  let surfaces := vstack lh.surfaces rh.surfaces
  let order := argsort0 argsort (vstack lh.hits rh.hits)
  let surfaces := takeRows (-1) surfaces order
  let hits := arrayCsgUnsortedA argsort lh.hits rh.hits op
  let order := argsort0 argsort hits
  let surfaces := takeRows (-1) surfaces order
  let hits := takeRows ⊤ hits order
  ⟨lh.rows + rh.rows, scatter mask (fun _ => npFull ⊤) hits, scatter mask (fun _ => npFull (-1)) surfaces⟩

end

/-- `TracerSurface.intersect` (`world_objects.py` lines 360-384) and `CSGSurface.intersect` (`csg.py` lines 118-160). `fuel` as in `intersectObj`; `junk` is what `np.empty` finds. -/
noncomputable def intersectA (argsort : List EReal → List ℕ) (junk : ∀ n, Tab EReal 2 (2 * n)) : ℕ → Heap → ℕ → ∀ {n : ℕ}, Rays n → HitsA n
  | 0, _, _, _, _ => ⟨0, nofun, nofun⟩
  | fuel + 1, h, a, n, rays =>
    match (h.obj a).kind with
    | .prim p =>
      let localRays : Rays n := fun k => matmulA (h.obj a).objT (rays k)
      let hits := p.intersectA (junk n) localRays
      ⟨2, sort0 hits, fun _ => npFull ((h.obj a).oid : ℤ)⟩
    | .csg op l r =>
      let boxHits := boxIntersectA (h.obj a).aobb rays
      let mask : Fin n → Prop := fun j => ∃ i, boxHits i j ≠ ⊤ ∧ boxHits i j ≠ ⊥
      let localRays := rays.compress mask
      csgCombineA argsort op mask (intersectA argsort junk fuel h l localRays) (intersectA argsort junk fuel h r localRays)
    | _ => ⟨0, nofun, nofun⟩

/-! ### `materials.py` -/

section
variable {n : ℕ}

/-- `ray_set.rays[k] = v` (the getter returns a view of the table) -/
def RayTable.setPart (t : RayTable n) (k : Fin 2) (v : Tab ℝ 4 n) : RayTable n := t.setRays fun k' => if k' = k then v else t.rays k'

/-- `index_at` of an array of wavelengths: lines 112-118 and 136-145 -/
noncomputable def IndexModel.indexAtA (m : IndexModel) (w : Fin n → ℝ) : Fin n → ℝ :=
  match m with
  | .basic x => npFull x
  | .sellmeier b1 b2 b3 c1 c2 c3 =>
    let x : Fin n → ℝ := 1 + npFull b1 * w ^ 2 / (w ^ 2 - npFull c1) + npFull b2 * w ^ 2 / (w ^ 2 - npFull c2) + npFull b3 * w ^ 2 / (w ^ 2 - npFull c3)
    fun j => √(x j)

/-- `trace(surface, ray_set)` of the materials: lines 47-50, 58-62, 70-75 -/
noncomputable def Material.traceA (normalsAt : Tab ℝ 4 n → Tab ℝ 4 n) (t : RayTable n) : Material → RayTable n
  | .absorber => t.setPart 1 fun _ => npFull 0
  | .mirror => t.setPart 1 (reflectA (t.rays 1) (normalsAt (t.rays 0)))
  | .glass m =>
    let out := refractA (t.rays 1) (normalsAt (t.rays 0)) t.index (m.indexAtA t.wavelength) 1
    (t.setPart 1 out.1).write (.index out.2)

/-! ### `_pyrayt.py` -/

/-- `np.argmin(a, axis=0)` -/
noncomputable def argmin0 {r : ℕ} (a : Tab EReal r n) : Fin n → ℕ := fun j => argmin (colList a j)

/-- `a[index, np.arange(n)]` for a 1-D array of row numbers -/
def takeRow {α : Type*} {r : ℕ} (d : α) (a : Tab α r n) (index : Fin n → ℕ) : Fin n → α := takeRows (s := 1) d a (fun _ => index) 0

end

/-- what the tracer uses of a component: `intersect` and, for every surface, `material.trace` -/
structure ComponentA where
  intersect : ∀ {n : ℕ}, Rays n → HitsA n
  surfaces : List (ℤ × (∀ {n : ℕ}, RayTable n → RayTable n))

/-- an object of a scene as a component -/
noncomputable def Scene.componentA (argsort : List EReal → List ℕ) (junk : ∀ n, Tab EReal 2 (2 * n)) (depth : ℕ) (s : Scene) (a : ℕ) : ComponentA :=
  { intersect := intersectA argsort junk depth s.heap a
    surfaces := (surfaceIds depth s.heap a).map fun e => ((e.1 : ℤ), fun t => (s.material e.2).traceA (surfaceNormalsA s.heap e.2) t) }

section
variable {n : ℕ}

/-- lines 377-386: one component in the loop of `_st_propagate` -/
noncomputable def propagateOne (rays : Rays n) (acc : (Fin n → EReal) × (Fin n → ℤ)) (c : ComponentA) : (Fin n → EReal) × (Fin n → ℤ) :=
  let h := c.intersect rays
  let hits : Tab EReal h.rows n := fun i => npWhere (fun j => h.hits i j > 0) (h.hits i) (npFull ⊤)
  let arg := argmin0 hits
  let nearest := takeRow ⊤ hits arg
  let surface := takeRow (-1) h.surfaces arg
  let newMinima : Fin n → Prop := fun j => nearest j < acc.1 j
  (npWhere newMinima nearest acc.1, npWhere newMinima surface acc.2)

/-- lines 370-386 `_st_propagate`: `_hit_distances` and `_hit_surfaces` -/
noncomputable def propagateA (cs : List ComponentA) (rays : Rays n) : (Fin n → EReal) × (Fin n → ℤ) :=
  cs.foldl (propagateOne rays) (npFull ⊤, npFull (-1))

/-- `t.rays[k, ..., mask]`: with a number and a mask on both sides of the dots numpy puts the masked axis first, the result has shape (m, 4). -/
noncomputable def RayTable.masked (t : RayTable n) (k : Fin 2) (mask : Fin n → Prop) : Tab ℝ (picked mask).length 4 := fun p r => t.rays k r ((picked mask).get p)

/-- `t.rays[k, ..., mask] = v` for `v` of shape (m, 4) -/
noncomputable def RayTable.setMasked (t : RayTable n) (k : Fin 2) (mask : Fin n → Prop) (v : Tab ℝ (picked mask).length 4) : RayTable n :=
  t.setPart k (scatter mask (t.rays k) fun r p => v p r)

/-- lines 401-410: one surface in the loop of `_st_interact` -/
noncomputable def interactOne (dist : Fin n → EReal) (surf : Fin n → ℤ) (t : RayTable n) (e : ℤ × (∀ {n : ℕ}, RayTable n → RayTable n)) : RayTable n :=
  let mask : Fin n → Prop := fun j => surf j = e.1
  if ∃ j, mask j then
    let d : Tab ℝ (picked mask).length 4 := fun p => npFull ((compress1 mask dist p).toReal)
    let t := t.setMasked 0 mask fun p => t.masked 0 mask p + t.masked 1 mask p * d p
    scatter mask t (e.2 (compress mask t))
  else t

/-- lines 396-410: `next_ray_set` -/
noncomputable def interactA (lut : List (ℤ × (∀ {n : ℕ}, RayTable n → RayTable n))) (dist : Fin n → EReal) (surf : Fin n → ℤ) (t : RayTable n) : RayTable n :=
  lut.foldl (interactOne dist surf) (t.setMasked 1 (fun j => surf j = -1) fun _ => npFull 0)

/-- lines 168-186 `_RayTraceDataframe.insert`: the new rows of the table, in the order of `df_columns` (lines 154-165) -/
noncomputable def insertA (t next : RayTable n) (surf : Fin n → ℤ) : List (Fin 15 → ℝ) :=
  let starts : Tab ℝ 3 n := fun i => t.rays 0 i.castSucc
  let tilts : Tab ℝ 3 n := fun i => t.rays 1 i.castSucc
  let ends : Tab ℝ 3 n := fun i => next.rays 0 i.castSucc
  let tilts := divRows tilts (colNorm tilts)
  let surfaces : Tab ℝ 1 n := fun _ j => (surf j : ℝ)
  let all : Tab ℝ (5 + 1 + 3 + 3 + 3) n := vstack (vstack (vstack (vstack t.metadata surfaces) starts) ends) tilts
  List.ofFn fun j i => all i j

/-- a table with any number of columns -/
abbrev AnyTable := Σ n, RayTable n

/-- `np.hstack` of a list of tables -/
def hstackAll : List AnyTable → AnyTable
  | [] => ⟨0, fun _ => nofun⟩
  | t :: ts => ⟨t.1 + (hstackAll ts).1, hstack t.2 (hstackAll ts).2⟩

end

/-- The attributes of a `RayTracer` (lines 190-260). The two hit arrays have the same length. -/
structure TracerA where
  sources : List (ℕ → AnyTable)
  components : List ComponentA
  raysPerSource : ℕ
  limit : ℤ
  lut : List (ℤ × (∀ {n : ℕ}, RayTable n → RayTable n))
  offset : ℝ
  threshold : ℝ
  phase : Phase
  frame : List (Fin 15 → ℝ)
  gen : ℕ
  complete : Bool
  rays : AnyTable
  hits : Σ m, (Fin m → EReal) × (Fin m → ℤ)

/-- lines 211-260 `RayTracer.__init__` -/
noncomputable def TracerA.new (sources : List (ℕ → AnyTable)) (components : List ComponentA) (raysPerSource : ℕ) (limit : ℤ) : TracerA :=
  { sources, components, raysPerSource, limit
    lut := components.flatMap ComponentA.surfaces
    offset := 1e-6
    threshold := 0.1
    phase := .idle
    frame := []
    gen := 0
    complete := false
    rays := ⟨0, RayTable.new 0⟩
    hits := ⟨0, nofun, nofun⟩ }

/-- lines 356-368 `_st_initialize` -/
noncomputable def TracerA.stInitialize (t : TracerA) : Option TracerA :=
  let t := { t with complete := false, frame := [], phase := .idle, gen := 0 }
  if t.sources = [] then none
  else
    let all := hstackAll (t.sources.map fun s => s t.raysPerSource)
    some { t with rays := ⟨all.1, all.2.write (.id fun j => (j.val : ℝ))⟩, phase := .propagate }

/-- lines 370-392 `_st_propagate` -/
noncomputable def TracerA.stPropagate (t : TracerA) : TracerA :=
  { t with hits := ⟨t.rays.1, propagateA t.components t.rays.2.rays⟩, phase := .interact }

/-- lines 394-452 `_st_interact`; `none` is the IndexError of a mask that is longer or shorter than the ray set. -/
noncomputable def TracerA.stInteract (t : TracerA) : Option TracerA :=
  if h : t.hits.1 = t.rays.1 then
    let rays := t.rays.2
    let dist : Fin t.rays.1 → EReal := fun j => t.hits.2.1 (j.cast h.symm)
    let surf : Fin t.rays.1 → ℤ := fun j => t.hits.2.2 (j.cast h.symm)
    let next := interactA t.lut dist surf rays
    let absorbed := close0 (colNorm (rays.rays 1))
    let dead : Fin t.rays.1 → Prop := fun j => npLogicalOr (absorbed j) (surf j = -1) (rays.intensity j < t.threshold)
    let living : Fin t.rays.1 → Prop := fun j => ¬ dead j
    if ∀ j, dead j then some { t with phase := .finish }
    else
      let next : RayTable (picked living).length := compress living next
      let frame := t.frame ++ insertA (compress living rays) next (compress1 living surf)
      let gen := t.gen + 1
      let next := next.write (.generation (npFull (gen : ℝ)))
      if (gen : ℤ) = t.limit then some { t with frame, gen, rays := ⟨_, next⟩, phase := .finish }
      else
        let next := next.setPart 0 fun i => next.rays 0 i + npFull t.offset * next.rays 1 i
        some { t with frame, gen, rays := ⟨_, next⟩, phase := .propagate }
  else none

/-- lines 454-456 `_st_finish` -/
def TracerA.stFinish (t : TracerA) : TracerA := { t with complete := true, phase := .idle }

/-- lines 333-336: one turn of the state machine -/
noncomputable def TracerA.step (t : TracerA) : Option TracerA :=
  match t.phase with
  | .initialize => t.stInitialize
  | .propagate => some t.stPropagate
  | .interact => t.stInteract
  | .finish => some t.stFinish
  | .idle => none

/-- lines 333-336: the loop, with the number of iterations -/
inductive TracerA.Runs : ℕ → TracerA → TracerA → Prop where
  | stop {t : TracerA} : t.phase = .idle → Runs 0 t t
  | step {n : ℕ} {t t' t'' : TracerA} : t.phase ≠ .idle → t.step = some t' → Runs n t' t'' → Runs (n + 1) t t''

/-- lines 329-339 `trace()` -/
def TracerA.Traces (n : ℕ) (t t' : TracerA) : Prop := TracerA.Runs n { t with phase := .initialize } t'

end PyRayT
