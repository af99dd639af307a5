import Verif.Props.Optics
import Verif.Model.Components
import Verif.Model.Utils

/-!
# The default glass (part of C23 and C42)
-/

namespace PyRayT

open Classical Matrix

/-- **C42, the default glass.** The default material of lenses and `glass['ideal']`, at every wavelength: a ray from air enters and has
index 1.5 inside; inside it is totally reflected exactly if the sine of the angle of incidence is 2/3 or more, and otherwise leaves into index 1. -/
theorem C42_default_glass (m : Material) (hm : m = defaultGlass ∨ m = .glass glassIdeal) (normal : Vec4 → Vec4) (c : Col)
    (hd : norm4 c.ray.d = 1) (hn : norm4 (normal c.ray.o) = 1) :
    (c.index = 1 → dot4 c.ray.d (normal c.ray.o) < 0 → (m.trace normal c).index = 1.5) ∧
    (c.index = 1.5 → 0 < dot4 c.ray.d (normal c.ray.o) →
      (2 / 3 ≤ Spec.sinTo c.ray.d (normal c.ray.o) → (m.trace normal c).index = 1.5 ∧
        ∀ i, (m.trace normal c).ray.d i = c.ray.d i - 2 * dot4 c.ray.d (normal c.ray.o) * normal c.ray.o i) ∧
      (Spec.sinTo c.ray.d (normal c.ray.o) < 2 / 3 → (m.trace normal c).index = 1)) := by
  have hm' : m = .glass (.basic 1.5) := by rcases hm with rfl | rfl <;> rfl
  subst hm'
  have hv : c.ray.d ≠ 0 := by
    intro h
    rw [h] at hd
    simp [norm4] at hd
  have hu : (fun i => c.ray.d i / norm4 c.ray.d) = c.ray.d := by funext i; rw [hd, div_one]
  have key := fun (n1 : ℝ) (h1 : 0 < n1) => C23_total_internal_reflection c.ray.d (normal c.ray.o) n1 1.5 1 hv hn h1 (by norm_num) one_pos
  simp only [hu] at key
  have hs : Spec.sinTo c.ray.d (normal c.ray.o) ≤ 1 := by
    unfold Spec.sinTo
    rw [Real.sqrt_le_one]
    linarith [sq_nonneg (dot4 c.ray.d (normal c.ray.o))]
  constructor
  · intro e h
    have := (key 1 one_pos).2
    rw [Spec.farIndex, if_neg (by linarith)] at this
    have := this (by linarith)
    show (refract _ _ _ _ _).2.2 = _
    rw [e]
    exact this.1
  · intro e h
    have := key 1.5 (by norm_num)
    rw [Spec.farIndex, if_pos h] at this
    refine ⟨fun h2 => ?_, fun h2 => ?_⟩
    · have := this.1 (by linarith)
      constructor
      · show (refract _ _ _ _ _).2.2 = _
        rw [e]; exact this.2
      · intro i
        show (refract _ _ _ _ _).2.1 i = _
        have h3 := this.1 i
        rw [hd, div_one] at h3
        rw [e]; exact h3
    · have := this.2 (by linarith)
      show (refract _ _ _ _ _).2.2 = _
      rw [e]; exact this.1

/-- non-vacuity: straight out -/
example : (defaultGlass.trace (fun _ => vector 1 0 0) ⟨⟨point 0 0 0, vector 1 0 0⟩, 0, 100, 0.5, 1.5, 0⟩).index = 1 := by
  have := C42_default_glass defaultGlass (.inl rfl) (fun _ => vector 1 0 0) ⟨⟨point 0 0 0, vector 1 0 0⟩, 0, 100, 0.5, 1.5, 0⟩
    (by simp [norm4, vector]) (by simp [norm4, vector])
  exact (this.2 rfl (by simp [dot4, vector])).2 (by simp [Spec.sinTo, dot4, vector])

end PyRayT
