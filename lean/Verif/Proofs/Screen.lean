import Verif.Proofs.Primitives
import Verif.Props.Tracer

/-!
# A sphere around everything

Used as a screen in concrete cases: every ray from inside hits it, and not soon.
-/

namespace PyRayT

open Classical Matrix Spec

variable {argsort : List EReal → List ℕ}

theorem screen_hits {h : Heap} {p : ℕ} {S ρ : ℝ} (hk : (h.obj p).kind = .prim (.sphere S)) (hT : (h.obj p).objT = 1) (hρ : 0 ≤ ρ) (hS : ρ < S) {ray : Ray}
    (hd : ray.d 0 ^ 2 + ray.d 1 ^ 2 + ray.d 2 ^ 2 = 1) (ho : ray.o 0 ^ 2 + ray.o 1 ^ 2 + ray.o 2 ^ 2 ≤ ρ ^ 2) (depth : ℕ) :
    (∃ v : ℝ, 0 < v ∧ (v : EReal) ∈ (intersectObj argsort (depth + 1) h p ray).1) ∧
    ∀ v : ℝ, (v : EReal) ∈ (intersectObj argsort (depth + 1) h p ray).1 → 0 < v → S - ρ ≤ v := by
  set B := ray.d 0 * ray.o 0 + ray.d 1 * ray.o 1 + ray.d 2 * ray.o 2 with hB
  set C := ray.o 0 ^ 2 + ray.o 1 ^ 2 + ray.o 2 ^ 2 with hC
  have hBC : B ^ 2 ≤ C := by
    have e : C = C * 1 := (mul_one C).symm
    rw [e, ← hd, hB, hC]
    nlinarith [sq_nonneg (ray.d 0 * ray.o 1 - ray.d 1 * ray.o 0), sq_nonneg (ray.d 0 * ray.o 2 - ray.d 2 * ray.o 0),
      sq_nonneg (ray.d 1 * ray.o 2 - ray.d 2 * ray.o 1)]
  have hSC : C < S ^ 2 := lt_of_le_of_lt ho (by nlinarith)
  have hB1 : |B| ≤ ρ := abs_le_of_sq_le_sq (hBC.trans ho) hρ
  obtain ⟨hBl, hBu⟩ := abs_le.1 hB1
  set D := √(B ^ 2 + (S ^ 2 - C)) with hD
  have hD2 : D ^ 2 = B ^ 2 + (S ^ 2 - C) := Real.sq_sqrt (by nlinarith [sq_nonneg B])
  have hD0 : 0 ≤ D := Real.sqrt_nonneg _
  have hDB : |B| < D := by
    rw [hD]; apply Real.lt_sqrt_of_sq_lt; rw [sq_abs]; linarith
  obtain ⟨hD1, hD3⟩ := abs_lt.1 hDB
  have hfar : S - ρ ≤ -B + D := by
    have : S - ρ + B ≤ D := by
      rcases le_or_gt (S - ρ + B) 0 with h | h
      · linarith
      · apply Real.le_sqrt_of_sq_le
        nlinarith
    linarith
  have e : (intersectObj argsort (depth + 1) h p ray).1 = [((-B - D : ℝ) : EReal), ((-B + D : ℝ) : EReal)] := by
    have hmap : ray.map 1 = ray := by simp [Ray.map]
    simp only [intersectObj, hk, leafIntersect, hT, Prim.intersect, hmap]
    have hi : sphereIntersect S ray = (((-B + D : ℝ) : EReal), ((-B - D : ℝ) : EReal)) := by
      have a1 : ray.d 0 * ray.d 0 + ray.d 1 * ray.d 1 + ray.d 2 * ray.d 2 = 1 := by rw [← hd]; ring
      have c1 : ray.o 0 * ray.o 0 + ray.o 1 * ray.o 1 + ray.o 2 * ray.o 2 = C := by rw [hC]; ring
      unfold sphereIntersect
      dsimp only
      rw [if_neg (by rw [a1]; exact one_ne_zero), a1, c1, ← hB]
      have h2 : (2 * B) ^ 2 - 4 * 1 * (C - S ^ 2) = (2 * D) ^ 2 := by rw [mul_pow, mul_pow, hD2]; ring
      rw [h2, polyRoots, if_pos (by positivity : (2 * D) ^ 2 ≥ 0), max_eq_right (by positivity), Real.sqrt_sq (by linarith)]
      congr 2 <;> ring
    rw [hi]
    have hle : ((-B - D : ℝ) : EReal) ≤ ((-B + D : ℝ) : EReal) := EReal.coe_le_coe_iff.2 (by linarith)
    simp only [sort2, min_eq_right hle, max_eq_left hle]
  rw [e]
  refine ⟨⟨-B + D, by linarith, by simp⟩, fun v hv hv0 => ?_⟩
  simp only [List.mem_cons, EReal.coe_eq_coe_iff, List.not_mem_nil, or_false] at hv
  rcases hv with rfl | rfl
  · linarith
  · exact hfar

end PyRayT
