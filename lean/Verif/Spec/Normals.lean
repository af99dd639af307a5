import Verif.Spec.Solids

/-!
# What an outward unit normal is

Stated with the solid only: stepping against the normal leads inside, stepping along it leads out.
-/

namespace PyRayT.Spec

/-- true for all small positive numbers -/
def Soon (P : ℝ → Prop) : Prop := ∃ ε : ℝ, 0 < ε ∧ ∀ s : ℝ, 0 < s → s < ε → P s

/-- `n` is the outward unit normal at the boundary point `q` of a solid with the given interior and closure: every direction
with negative product with `n` leads into the interior, every direction with positive product leaves the solid. (This
determines `n`: directions with product zero are the only ones left open.) -/
def OutwardNormal (inside closed : Vec4 → Prop) (q n : Vec4) : Prop :=
  n 3 = 0 ∧ norm4 n = 1 ∧ ∀ v : Vec4, v 3 = 0 →
    (dot4 n v < 0 → Soon fun s => inside (q + s • v)) ∧ (0 < dot4 n v → Soon fun s => ¬ closed (q + s • v))

/-- Points of the smooth part of the boundary (faces without edges), away from the bands in which `np.isclose` mistakes a
point of one face for a point of another. -/
def SmoothPoint : Prim → Vec4 → Prop
  | .sphere r, x => 0 < r ∧ x 0 ^ 2 + x 1 ^ 2 + x 2 ^ 2 = r ^ 2
  | .paraboloid f h, x => 0 < f ∧
      ((x 0 ^ 2 + x 1 ^ 2 = 4 * f * x 2 ∧ x 2 < h ∧ ¬ isclose (x 2) h) ∨ (x 2 = h ∧ x 0 ^ 2 + x 1 ^ 2 < 4 * f * h))
  | .plane _ _, _ => False
  | .cube a b, x => ∃ i : Fin 3, a i ≠ b i ∧
      (x i.castSucc = max (a i) (b i) ∨ (x i.castSucc = min (a i) (b i) ∧ ¬ isclose (min (a i) (b i)) (max (a i) (b i)))) ∧
      ∀ j, j ≠ i → min (a j) (b j) < x j.castSucc ∧ x j.castSucc < max (a j) (b j) ∧
        ¬ isclose (x j.castSucc) (min (a j) (b j)) ∧ ¬ isclose (x j.castSucc) (max (a j) (b j))
  | .cylinder r lo hi, x => 0 < r ∧ lo < hi ∧
      ((x 0 ^ 2 + x 1 ^ 2 = r ^ 2 ∧ lo < x 2 ∧ x 2 < hi ∧ ¬ isclose (x 2) lo ∧ ¬ isclose (x 2) hi) ∨
       (x 2 = hi ∧ x 0 ^ 2 + x 1 ^ 2 < r ^ 2) ∨ (x 2 = lo ∧ x 0 ^ 2 + x 1 ^ 2 < r ^ 2 ∧ ¬ isclose lo hi))

end PyRayT.Spec
