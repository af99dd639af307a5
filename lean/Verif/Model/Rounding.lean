import Verif.Model.Operations

/-!
# Model of the optics with rounded arithmetic

The other models compute with exact real numbers. Here the functions that bend rays, the hits of spheres and the steps of rays are modelled once more, operation by operation, with every
arithmetic operation rounded. A rounded result is not computed but described by a relation, so that all rounding modes, all orders of summation and
fused multiplications are covered. Not covered: overflow (infinities) and nan.
-/

namespace PyRayT

open Classical

/-- `y` may be the floating point result of an operation with the exact result `x`, for the unit roundoff `u` (`2⁻⁵³` for the doubles of numpy). The
absolute error `u²` covers gradual underflow. -/
def Rounds (u x y : ℝ) : Prop := |y - x| ≤ u * max |x| u

/-- `s` may be the floating point result of summing the products of the pairs: `np.einsum` (`operations.py` lines 66-83 `element_wise_dot`) and the sums in
`np.linalg.norm`. In any order, with or without fused multiplication and addition. -/
inductive SumsTo (u : ℝ) : List (ℝ × ℝ) → ℝ → Prop
  | prod {x y p : ℝ} : Rounds u (x * y) p → SumsTo u [(x, y)] p
  | fma {l : List (ℝ × ℝ)} {x y a s : ℝ} : SumsTo u l a → Rounds u (a + x * y) s → SumsTo u ((x, y) :: l) s
  | add {l l' : List (ℝ × ℝ)} {a b s : ℝ} : SumsTo u l a → SumsTo u l' b → Rounds u (a + b) s → SumsTo u (l ++ l') s
  | perm {l l' : List (ℝ × ℝ)} {s : ℝ} : l.Perm l' → SumsTo u l s → SumsTo u l' s

/-- `operations.py` lines 66-83 `element_wise_dot` (one column), rounded. -/
def DotR (u : ℝ) (v w : Vec4) (s : ℝ) : Prop := SumsTo u [(v 0, w 0), (v 1, w 1), (v 2, w 2), (v 3, w 3)] s

/-- `v / np.linalg.norm(v)` (`operations.py` lines 125 and 157, `primitives.py` line 293), rounded: sum of squares, root, four divisions. -/
def NormalizeR (u : ℝ) (v w : Vec4) : Prop := ∃ s m, DotR u v v s ∧ Rounds u (√s) m ∧ ∀ i, Rounds u (v i / m) (w i)

/-- `operations.py` lines 104-107: `reflect` (one column of `vectors - 2 * normals * dots`), rounded. -/
def ReflectR (u : ℝ) (v n w : Vec4) : Prop :=
  ∃ s, ∃ p q : Vec4, DotR u v n s ∧ (∀ i, Rounds u (2 * n i) (p i)) ∧ (∀ i, Rounds u (p i * s) (q i)) ∧ ∀ i, Rounds u (v i - q i) (w i)

/-- The values that `refract` (`operations.py` lines 110-162, one column) computes, rounded. Changes of sign are exact. -/
structure RefractR (u : ℝ) (v n : Vec4) (n1 n2 nGlobal : ℝ) (w : Vec4) (index : ℝ) where
  /-- line 125: the normalised direction -/
  dir : Vec4
  hdir : NormalizeR u v dir
  /-- lines 126-131: the two scalar products -/
  cosP : ℝ
  cosN : ℝ
  hcosP : DotR u dir n cosP
  hcosN : DotR u dir (-n) cosN
  /-- line 138: the ratio of the indices, with the index behind the surface of line 134 -/
  r : ℝ
  hr : Rounds u (n1 / if cosP > 0 then nGlobal else n2) r
  /-- lines 144-146: the radicand, with its intermediate results -/
  r2 : ℝ
  c2 : ℝ
  s2 : ℝ
  rs : ℝ
  radicand : ℝ
  hr2 : Rounds u (r * r) r2
  hc2 : Rounds u ((if cosP > 0 then cosP else cosN) * (if cosP > 0 then cosP else cosN)) c2
  hs2 : Rounds u (1 - c2) s2
  hrs : Rounds u (r2 * s2) rs
  hrad : Rounds u (1 - rs) radicand
  /-- lines 147-149: the root -/
  cos2 : ℝ
  hcos2 : Rounds u (√(max 0 radicand)) cos2
  /-- line 154: the refracted direction, with its intermediate results -/
  a : Vec4
  b : ℝ
  c : ℝ
  d : Vec4
  refracted : Vec4
  ha : ∀ i, Rounds u (r * dir i) (a i)
  hb : Rounds u (r * if cosP > 0 then cosP else cosN) b
  hc : Rounds u (b - cos2) c
  hd : ∀ i, Rounds u (c * (if cosP > 0 then -n else n) i) (d i)
  href : ∀ i, Rounds u (a i + d i) (refracted i)
  /-- line 155: the totally reflected direction, with its intermediate results -/
  e : ℝ
  f : Vec4
  reflected : Vec4
  he : Rounds u (2 * if cosP > 0 then cosP else cosN) e
  hf : ∀ i, Rounds u (e * (if cosP > 0 then -n else n) i) (f i)
  hrefl : ∀ i, Rounds u (dir i + f i) (reflected i)
  /-- lines 152-157: the choice, normalised -/
  hw : NormalizeR u (if radicand > 0 then refracted else reflected) w
  /-- lines 159-161: the index -/
  hindex : index = if radicand > 0 then (if cosP > 0 then nGlobal else n2) else n1

/-- The values that `Sphere.intersect` (`primitives.py` lines 241-271, one column) computes, rounded. Changes of sign and `np.maximum` are exact. For a zero direction the code
divides by zero; the relation then leaves the quotients open (the theorems assume directions of about length one). -/
structure SphereR (u radius : ℝ) (ray : Ray) (hits : EReal × EReal) where
  /-- lines 252-254: the squared length of the direction -/
  a : ℝ
  ha : SumsTo u [(ray.d 0, ray.d 0), (ray.d 1, ray.d 1), (ray.d 2, ray.d 2)] a
  /-- lines 255-257: the scalar product, doubled -/
  bd : ℝ
  b : ℝ
  hbd : SumsTo u [(ray.d 0, ray.o 0), (ray.d 1, ray.o 1), (ray.d 2, ray.o 2)] bd
  hb : Rounds u (2 * bd) b
  /-- lines 258-260 -/
  oo : ℝ
  r2 : ℝ
  c : ℝ
  hoo : SumsTo u [(ray.o 0, ray.o 0), (ray.o 1, ray.o 1), (ray.o 2, ray.o 2)] oo
  hr2 : Rounds u (radius ^ 2) r2
  hc : Rounds u (oo - r2) c
  /-- line 263: the discriminant, with its intermediate results -/
  bb : ℝ
  a4 : ℝ
  ac : ℝ
  disc : ℝ
  hbb : Rounds u (b * b) bb
  ha4 : Rounds u (4 * a) a4
  hac : Rounds u (a4 * c) ac
  hdisc : Rounds u (bb - ac) disc
  /-- line 264: the root -/
  root : ℝ
  hroot : Rounds u (√(max 0 disc)) root
  /-- lines 265-267: the two quotients -/
  num0 : ℝ
  num1 : ℝ
  den : ℝ
  t0 : ℝ
  t1 : ℝ
  hnum0 : Rounds u (-b + root) num0
  hnum1 : Rounds u (-b - root) num1
  hden : Rounds u (2 * a) den
  ht0 : Rounds u (num0 / den) t0
  ht1 : Rounds u (num1 / den) t1
  /-- line 270: only where the discriminant is not negative -/
  hhits : hits = if disc ≥ 0 then ((t0 : EReal), (t1 : EReal)) else (⊤, ⊤)

/-- `position + distance * direction` (one column), rounded: `_pyrayt.py` lines 404-407, where a ray advances to the surface it hit, and line 449, where it is moved off the surface by
`ray_offset_value`. -/
def AdvanceR (u : ℝ) (ray : Ray) (t : ℝ) (p : Vec4) : Prop := ∃ q : Vec4, (∀ i, Rounds u (t * ray.d i) (q i)) ∧ ∀ i, Rounds u (ray.o i + q i) (p i)

end PyRayT
