import Verif.Model.Primitives

/-!
# Model of `tinygfx/g3d/operations.py`: roots, reflection, refraction

Array functions are modelled per column; the list versions show how the column functions are lifted.
-/

namespace PyRayT

open Classical

/-- `operations.py` lines 4-25 `smallest_positive_root(a, b, c)` (one column). -/
noncomputable def smallestPositiveRoot (a b c : ℝ) : EReal :=
  let disc := b ^ 2 - 4 * a * c
  let root := √(max 0 disc)
  let den := addMask (2 * a) (isclose0 a)
  let p0 := (-b + root) / den
  let p1 := (-b - root) / den
  let nearest := if p1 ≥ 0 then min p0 p1 else p0
  if disc ≥ 0 ∧ nearest ≥ 0 then (nearest : EReal) else ⊤

/-- `v / np.linalg.norm(v)`. Simplification: for the zero vector numpy yields nan, the model yields 0. -/
noncomputable def normalize (v : Vec4) : Vec4 := fun i => v i / norm4 v

/-- `operations.py` lines 95-97: `reflect` for two 1-D arguments. -/
def reflect (v n : Vec4) : Vec4 := fun i => v i - n i * 2 * dot4 v n

/-- `operations.py` lines 99-102: `reflect` for an array of vectors and one normal. -/
def reflectSingle (vs : List Vec4) (n : Vec4) : List Vec4 :=
  vs.map fun v i => v i - 2 * n i * dot4 v n

/-- `operations.py` lines 104-107: `reflect` for an array of vectors and an array of normals. -/
def reflectColumns (vs ns : List Vec4) : List Vec4 :=
  List.zipWith (fun v n i => v i - 2 * n i * dot4 v n) vs ns

/-- the index of the medium the ray ends up in if it is transmitted, `operations.py` line 134;
`u` is the normalised direction -/
noncomputable def refractIndex (u n : Vec4) (n2 nGlobal : ℝ) : ℝ :=
  if dot4 u n > 0 then nGlobal else n2

/-- `operations.py` lines 110-162 `refract(vectors, normals, n1, n2, n_global)` (one column).
Result: (the argument `vectors` after its in-place normalisation on line 125, the returned direction,
the returned index). -/
noncomputable def refract (v n : Vec4) (n1 n2 nGlobal : ℝ) : Vec4 × Vec4 × ℝ :=
  let u := normalize v
  let cosP := dot4 u n
  let cosN := dot4 u (-n)
  let n2l := refractIndex u n n2 nGlobal
  let nn : Vec4 := if cosP > 0 then -n else n
  let r := n1 / n2l
  let cos1 := if cosP > 0 then cosP else cosN
  let radicand := 1 - r ^ 2 * (1 - cos1 ^ 2)
  let cos2 := √(max 0 radicand)
  let out : Vec4 := if radicand > 0 then fun i => r * u i + (r * cos1 - cos2) * nn i
    else fun i => u i + 2 * cos1 * nn i
  (u, normalize out, if radicand > 0 then n2l else n1)

end PyRayT
