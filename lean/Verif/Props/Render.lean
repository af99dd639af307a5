import Verif.Model.Render
import Verif.Proofs.Placed
import Verif.Proofs.Tracer
import Mathlib.Algebra.BigOperators.Fin
import Mathlib.Tactic.IntervalCases

/-!
# Properties C53 (camera), C55 and C66 (shading)
-/

namespace PyRayT

open Classical Matrix

/-! ### C53 -/

theorem flatMap_range_getElem? {α : Type} (f : ℕ → ℕ → α) (h : ℕ) : ∀ v i j, i < v → j < h →
    ((List.range v).flatMap fun i => (List.range h).map fun j => f i j)[i * h + j]? = some (f i j) := by
  intro v
  induction v with
  | zero => intro i j hi; omega
  | succ v ih =>
    intro i j hi hj
    have hlen : ((List.range v).flatMap fun i => (List.range h).map fun j => f i j).length = v * h := by
      simp [List.length_flatMap]
    rw [List.range_succ, List.flatMap_append]
    rcases Nat.lt_succ_iff_lt_or_eq.1 hi with hi | rfl
    · rw [List.getElem?_append_left, ih i j hi hj]
      rw [hlen]
      calc i * h + j < i * h + h := by omega
        _ = (i + 1) * h := by ring
        _ ≤ v * h := Nat.mul_le_mul_right h hi
    · rw [List.getElem?_append_right (by rw [hlen]; omega), hlen]
      simp [hj]

theorem linspace_down {w : ℝ} {n j : ℕ} (hn : 2 ≤ n) : linspace (w / 2) (-w / 2) n j = w / 2 - j * (w / ((n : ℝ) - 1)) := by
  have : (2 : ℝ) ≤ n := by exact_mod_cast hn
  have h1 : (n : ℝ) - 1 ≠ 0 := by linarith
  rw [linspace, if_neg (by omega)]
  field_simp
  ring

theorem affine_dir {w : Mat4} (hw : Affine w) {d : Vec4} (hd : d 3 = 0) : (w *ᵥ d) 3 = 0 := by rw [affine_three hw, hd]

theorem norm4_ne_zero {v : Vec4} (hv : v ≠ 0) : norm4 v ≠ 0 := by
  intro h
  have h2 : v 0 ^ 2 + v 1 ^ 2 + v 2 ^ 2 + v 3 ^ 2 = 0 := by
    have : norm4 v ^ 2 = v 0 ^ 2 + v 1 ^ 2 + v 2 ^ 2 + v 3 ^ 2 := Real.sq_sqrt (by positivity)
    rw [← this, h]; ring
  apply hv
  funext i
  have := sq_nonneg (v 0); have := sq_nonneg (v 1); have := sq_nonneg (v 2); have := sq_nonneg (v 3)
  fin_cases i <;> simp <;> exact pow_eq_zero_iff (n := 2) (by norm_num) |>.1 (by linarith)

/-- **C53 (camera).** For every camera with non-negative aspect ratio in every placement: `generate_rays()` succeeds and gives rows times columns rays, the
number of rows being the integer part of aspect ratio times columns. They are unit vectors along the image of the x axis, all the same. With at
least two rows and columns the ray of row i, column j starts at the image of the grid point (0, W/2 - j W/(h-1), V/2 - i V/(v-1)), W and V being
the spans; the grid point of the opposite row and column is the opposite point.
Missing from C53: a single row or column, see `C53_single_false`; a negative aspect ratio, see `C53_negative`. -/
theorem C53_grid_partial (c : Camera) (hw : Affine c.world) (ha : 0 ≤ c.aspect) :
    ∃ rays, c.generateRays = some rays ∧ c.vPixels = ⌊c.aspect * c.hPixels⌋ ∧ (rays.length : ℤ) = c.vPixels * c.hPixels ∧
      (∀ r ∈ rays, ∀ r' ∈ rays, r.d = r'.d) ∧
      (∀ r ∈ rays, norm4 r.d = 1 ∧ r.o 3 = 1 ∧ r.d 3 = 0 ∧ ∃ k > 0, c.world *ᵥ vector 1 0 0 = fun i => k * r.d i) ∧
      (2 ≤ c.hPixels → 2 ≤ c.vPixels → ∀ i j : ℕ, (i : ℤ) < c.vPixels → j < c.hPixels →
        let q := fun i j : ℕ => point 0 (c.hWidth / 2 - j * (c.hWidth / ((c.hPixels : ℝ) - 1)))
          (c.aspect * c.hWidth / 2 - i * (c.aspect * c.hWidth / ((c.vPixels : ℝ) - 1)))
        (∃ r, rays[i * c.hPixels + j]? = some r ∧ r.o = c.world *ᵥ q i j) ∧
        ∀ i' j' : ℕ, (i' : ℤ) + i + 1 = c.vPixels → j' + j + 1 = c.hPixels → q i' j' 1 = -q i j 1 ∧ q i' j' 2 = -q i j 2) := by
  have hv : c.vPixels = ⌊c.aspect * c.hPixels⌋ := if_pos (by positivity)
  have hv0 : 0 ≤ c.vPixels := by rw [hv]; positivity
  have hto : ((c.vPixels.toNat : ℕ) : ℤ) = c.vPixels := Int.toNat_of_nonneg hv0
  have hdne : c.world *ᵥ vector 1 0 0 ≠ 0 := by
    intro h
    have := congrArg (c.world⁻¹ *ᵥ ·) h
    simp only [mulVec_mulVec, nonsing_inv_mul _ (isUnit_iff_ne_zero.2 hw.2), one_mulVec, mulVec_zero] at this
    simpa [vector] using congrFun this 0
  have hn := norm4_ne_zero hdne
  have hmem : ∀ r ∈ c.localRays.map fun r => (⟨c.world *ᵥ r.o, normalize (c.world *ᵥ r.d)⟩ : Ray),
      r.d = normalize (c.world *ᵥ vector 1 0 0) ∧ r.o 3 = 1 := by
    intro r hr
    simp only [Camera.localRays, Camera.localRay, List.mem_map, List.mem_flatMap] at hr
    obtain ⟨r', ⟨i, -, j, -, rfl⟩, rfl⟩ := hr
    refine ⟨rfl, ?_⟩
    simp only
    rw [affine_three hw]
    simp [point]
  refine ⟨_, if_neg (by omega), hv, ?_, fun r hr r' hr' => by rw [(hmem r hr).1, (hmem r' hr').1], fun r hr => ?_, ?_⟩
  · simp only [Camera.localRays, List.length_map, List.length_flatMap, List.length_range, List.map_const', List.sum_replicate, smul_eq_mul]
    push_cast
    rw [hto]
  · rw [(hmem r hr).1]
    refine ⟨norm4_normalize (lt_of_le_of_ne (Real.sqrt_nonneg _) (Ne.symm hn)), (hmem r hr).2, ?_, norm4 (c.world *ᵥ vector 1 0 0), lt_of_le_of_ne (Real.sqrt_nonneg _) (Ne.symm hn), ?_⟩
    · simp only [normalize]
      rw [affine_dir hw (by simp [vector]), zero_div]
    · funext i
      simp only [normalize]
      rw [mul_div_cancel₀ _ hn]
  · intro h2 v2 i j hi hj
    have hcast : ((c.vPixels.toNat : ℕ) : ℝ) = (c.vPixels : ℝ) := by exact_mod_cast congrArg (fun z : ℤ => (z : ℝ)) hto
    refine ⟨⟨⟨c.world *ᵥ (c.localRay i j).o, normalize (c.world *ᵥ (c.localRay i j).d)⟩, ?_, ?_⟩, ?_⟩
    · rw [List.getElem?_map, Camera.localRays, flatMap_range_getElem? _ _ _ _ _ (by omega) hj]
      rfl
    · simp only [Camera.localRay, Camera.vWidth]
      rw [linspace_down h2, linspace_down (by omega), hcast]
    · intro i' j' hi' hj'
      have e1 : ((i' : ℝ)) + i + 1 = c.vPixels := by exact_mod_cast congrArg (fun z : ℤ => (z : ℝ)) hi'
      have e2 : ((j' : ℝ)) + j + 1 = c.hPixels := by exact_mod_cast congrArg (fun z : ℕ => (z : ℝ)) hj'
      have n1 : (c.vPixels : ℝ) - 1 ≠ 0 := by
        have : (2 : ℝ) ≤ c.vPixels := by exact_mod_cast v2
        linarith
      have n2 : (c.hPixels : ℝ) - 1 ≠ 0 := by
        have : (2 : ℝ) ≤ c.hPixels := by exact_mod_cast h2
        linarith
      have f1 : (i' : ℝ) = c.vPixels - 1 - i := by linarith
      have f2 : (j' : ℝ) = c.hPixels - 1 - j := by linarith
      simp only [point, Matrix.cons_val, f1, f2]
      constructor <;> field_simp <;> ring

/-- **C53 is false for a single column:** the only ray of a camera with one pixel is at the corner of the span, not at its centre. -/
theorem C53_single_false : ∃ c : Camera, c.hPixels = 1 ∧ c.vPixels = 1 ∧ c.world = 1 ∧ c.hWidth = 2 ∧ c.aspect = 1 ∧
    c.generateRays = some [⟨point 0 1 1, vector 1 0 0⟩] := by
  refine ⟨⟨1, 2, 1, 1⟩, rfl, ?_, rfl, rfl, rfl, ?_⟩
  · norm_num [Camera.vPixels, truncInt]
  · have hv : Camera.vPixels ⟨1, 2, 1, 1⟩ = 1 := by norm_num [Camera.vPixels, truncInt]
    have hnorm : normalize (vector 1 0 0) = vector 1 0 0 := by
      have : norm4 (vector 1 0 0) = 1 := by simp [norm4, vector]
      funext i
      rw [normalize, this, div_one]
    rw [Camera.generateRays, if_neg (by rw [hv]; norm_num), Camera.localRays, hv]
    simp [Camera.localRay, linspace, Camera.vWidth, hv, hnorm]

/-- **C53:** a camera whose aspect ratio makes the number of rows negative cannot generate rays. -/
theorem C53_negative (c : Camera) (h : c.vPixels < 0) : c.generateRays = none := if_pos h

/-- non-vacuity of C53: a camera with 4 columns and 2 rows, turned and moved -/
example : ∃ rays, Camera.generateRays ⟨4, 3, 0.5, moveMatrix 1 2 3 * rotZMatrix 1 0⟩ = some rays ∧
    ∃ r, rays[5]? = some r ∧ r.o = (moveMatrix 1 2 3 * rotZMatrix 1 0) *ᵥ point 0 (1 / 2) (-3 / 4) ∧ norm4 r.d = 1 := by
  have hv : Camera.vPixels ⟨4, 3, 0.5, moveMatrix 1 2 3 * rotZMatrix 1 0⟩ = 2 := by norm_num [Camera.vPixels, truncInt]
  obtain ⟨rays, e, -, -, -, h1, h2⟩ := C53_grid_partial ⟨4, 3, 0.5, moveMatrix 1 2 3 * rotZMatrix 1 0⟩
    (rigid_affine (rigid_mul (move_rigid 1 2 3) (rotZ_rigid (by norm_num)))) (by norm_num)
  obtain ⟨⟨r, e1, e2⟩, -⟩ := h2 (by norm_num) (by rw [hv]) 1 1 (by rw [hv]; norm_num) (by norm_num)
  refine ⟨rays, e, r, e1, ?_, (h1 r (List.mem_of_getElem? e1)).1⟩
  rw [e2, hv]
  congr 1
  norm_num [point]

/-! ### C55 -/

/-- a colour with all channels in [0, 1] -/
def Spec.IsColour (v : Vec4) : Prop := ∀ i, 0 ≤ v i ∧ v i ≤ 1

theorem mix_convex {a b m : ℝ} (ha : 0 ≤ a ∧ a ≤ 1) (hb : 0 ≤ b ∧ b ≤ 1) (hm : 0 ≤ m ∧ m ≤ 1) : 0 ≤ a * m + b * (1 - m) ∧ a * m + b * (1 - m) ≤ 1 := by
  constructor
  · nlinarith [mul_nonneg ha.1 hm.1, mul_nonneg hb.1 (sub_nonneg.2 hm.2)]
  · nlinarith [mul_le_mul_of_nonneg_right ha.2 hm.1, mul_le_mul_of_nonneg_right hb.2 (sub_nonneg.2 hm.2)]

/-- **C55 (Gooch shading).** For every material, position, unit normal and light at another place the pixel is a mixture m · warm + (1 - m) · cool with
0 ≤ m ≤ 1, where warm = (1 - α) · warm colour + α · base colour and cool = (1 - β) · cool colour + β · base colour; m = 1 when the normal points at the
light, m = 0 when it points away, and m increases with the cosine of the angle; so with colours and α, β in [0, 1] every channel is in [0, 1]. -/
theorem C55_gooch (g : Gooch) (pos normal light : Vec4) (hn : normal 0 ^ 2 + normal 1 ^ 2 + normal 2 ^ 2 = 1)
    (hl : ∃ i : Fin 3, light i.castSucc ≠ pos i.castSucc) :
    ∃ m, 0 ≤ m ∧ m ≤ 1 ∧
      (∀ i, g.shade pos normal light i = m * ((1 - g.alpha) * g.warm i + g.alpha * g.base i) + (1 - m) * ((1 - g.beta) * g.cool i + g.beta * g.base i)) ∧
      (∀ k > 0, (∀ i : Fin 3, light i.castSucc - pos i.castSucc = k * normal i.castSucc) → m = 1) ∧
      (∀ k < 0, (∀ i : Fin 3, light i.castSucc - pos i.castSucc = k * normal i.castSucc) → m = 0) ∧
      (((light 0 - pos 0) * normal 0 + (light 1 - pos 1) * normal 1 + (light 2 - pos 2) * normal 2) =
        (2 * m - 1) * √((light 0 - pos 0) ^ 2 + (light 1 - pos 1) ^ 2 + (light 2 - pos 2) ^ 2)) ∧
      (Spec.IsColour g.base → Spec.IsColour g.warm → Spec.IsColour g.cool → (0 ≤ g.alpha ∧ g.alpha ≤ 1) → (0 ≤ g.beta ∧ g.beta ≤ 1) →
        Spec.IsColour (g.shade pos normal light)) := by
  set l : Fin 3 → ℝ := fun i => light i.castSucc - pos i.castSucc with hldef
  set N : ℝ := norm3 l with hN
  have hN0 : 0 ≤ N := Real.sqrt_nonneg _
  have hN2 : N ^ 2 = l 0 ^ 2 + l 1 ^ 2 + l 2 ^ 2 := Real.sq_sqrt (by positivity)
  have hNpos : 0 < N := by
    refine lt_of_le_of_ne hN0 fun h => ?_
    rw [← h] at hN2
    obtain ⟨i, hi⟩ := hl
    apply hi
    have q0 := sq_nonneg (l 0); have q1 := sq_nonneg (l 1); have q2 := sq_nonneg (l 2)
    have : l i = 0 := by
      fin_cases i <;> exact pow_eq_zero_iff (n := 2) (by norm_num) |>.1 (by simp only [Fin.zero_eta, Fin.mk_one, Fin.reduceFinMk]; linarith)
    simpa [hldef, sub_eq_zero] using this
  set D : ℝ := l 0 * normal 0 + l 1 * normal 1 + l 2 * normal 2 with hD
  have hdot : l 0 / N * normal 0 + l 1 / N * normal 1 + l 2 / N * normal 2 = D / N := by rw [hD]; field_simp
  have hcs : D ^ 2 ≤ N ^ 2 := by
    rw [hN2, hD]
    nlinarith [sq_nonneg (l 0 * normal 1 - l 1 * normal 0), sq_nonneg (l 0 * normal 2 - l 2 * normal 0), sq_nonneg (l 1 * normal 2 - l 2 * normal 1)]
  have habs := abs_le_of_sq_le_sq' hcs hN0
  set m : ℝ := 0.5 * (1 + D / N) with hm
  have m0 : 0 ≤ m := by
    have : -1 ≤ D / N := by rw [le_div_iff₀ hNpos]; linarith [habs.1]
    rw [hm]; linarith
  have m1 : m ≤ 1 := by
    have : D / N ≤ 1 := by rw [div_le_one hNpos]; exact habs.2
    rw [hm]; linarith
  have hsh : ∀ i, g.shade pos normal light i = g.warmShade i * m + g.coolShade i * (1 - m) := by
    intro i
    have : g.shade pos normal light = g.mix (0.5 * (1 + (l 0 / N * normal 0 + l 1 / N * normal 1 + l 2 / N * normal 2))) := rfl
    rw [this, hdot]
    rfl
  have hkey : ∀ k : ℝ, (∀ i : Fin 3, light i.castSucc - pos i.castSucc = k * normal i.castSucc) → D = k ∧ N = |k| := by
    intro k hk
    have e0 : l 0 = k * normal 0 := hk 0
    have e1 : l 1 = k * normal 1 := hk 1
    have e2 : l 2 = k * normal 2 := hk 2
    constructor
    · rw [hD, e0, e1, e2]; linear_combination k * hn
    · rw [← Real.sqrt_sq hN0, hN2, e0, e1, e2, ← Real.sqrt_sq_eq_abs]
      congr 1
      linear_combination k ^ 2 * hn
  refine ⟨m, m0, m1, fun i => ?_, fun k hk h => ?_, fun k hk h => ?_, ?_, fun hb hw hc ha hbe i => ?_⟩
  · rw [hsh, Gooch.warmShade, Gooch.coolShade]; ring
  · obtain ⟨e1, e2⟩ := hkey k h
    rw [hm, e1, e2, abs_of_pos hk, div_self hk.ne']; norm_num
  · obtain ⟨e1, e2⟩ := hkey k h
    rw [hm, e1, e2, abs_of_neg hk, div_neg, div_self hk.ne]; norm_num
  · change D = (2 * m - 1) * N
    rw [hm]
    field_simp
    ring
  · rw [hsh]
    refine mix_convex ?_ ?_ ⟨m0, m1⟩
    · have := mix_convex (hb i) (hw i) ha
      rw [Gooch.warmShade]
      constructor <;> linarith [this.1, this.2]
    · have := mix_convex (hb i) (hc i) hbe
      rw [Gooch.coolShade]
      constructor <;> linarith [this.1, this.2]

/-- **C55 (presets).** All predefined materials have colours and blending factors in [0, 1], so C55 applies to them. -/
theorem C55_presets : ∀ g ∈ goochPresets, Spec.IsColour g.base ∧ Spec.IsColour g.warm ∧ Spec.IsColour g.cool ∧
    (0 ≤ g.alpha ∧ g.alpha ≤ 1) ∧ (0 ≤ g.beta ∧ g.beta ≤ 1) := by
  have hrgb : ∀ r g b : ℝ, 0 ≤ r ∧ r ≤ 1 → 0 ≤ g ∧ g ≤ 1 → 0 ≤ b ∧ b ≤ 1 → Spec.IsColour (rgb r g b) := by
    intro r g b hr hg hb i
    fin_cases i
    · exact hr
    · exact hg
    · exact hb
    · simp [rgb]
  intro g hg
  simp only [goochPresets, blueYellowGooch, List.mem_cons, List.not_mem_nil, or_false] at hg
  rcases hg with rfl | rfl | rfl | rfl | rfl | rfl | rfl <;>
    exact ⟨hrgb _ _ _ (by norm_num) (by norm_num) (by norm_num), hrgb _ _ _ (by norm_num) (by norm_num) (by norm_num),
      hrgb _ _ _ (by norm_num) (by norm_num) (by norm_num), by norm_num, by norm_num⟩

/-- cosine of the angle between the normal and the direction to the light -/
noncomputable def Spec.lightCos (pos normal light : Vec4) : ℝ :=
  ((light 0 - pos 0) * normal 0 + (light 1 - pos 1) * normal 1 + (light 2 - pos 2) * normal 2) /
    √((light 0 - pos 0) ^ 2 + (light 1 - pos 1) ^ 2 + (light 2 - pos 2) ^ 2)

/-- **C55 (presets, colours).** With every predefined material all pixels are opaque, and a surface turned more towards the light is more red and less
blue. -/
theorem C55_presets_warm (g : Gooch) (hg : g ∈ goochPresets) (pos normal light pos' normal' light' : Vec4)
    (hn : normal 0 ^ 2 + normal 1 ^ 2 + normal 2 ^ 2 = 1) (hl : ∃ i : Fin 3, light i.castSucc ≠ pos i.castSucc)
    (hn' : normal' 0 ^ 2 + normal' 1 ^ 2 + normal' 2 ^ 2 = 1) (hl' : ∃ i : Fin 3, light' i.castSucc ≠ pos' i.castSucc)
    (hcos : Spec.lightCos pos normal light < Spec.lightCos pos' normal' light') :
    g.shade pos normal light 3 = 1 ∧ g.shade pos normal light 0 < g.shade pos' normal' light' 0 ∧
      g.shade pos' normal' light' 2 < g.shade pos normal light 2 := by
  have pos_of : ∀ {pos light : Vec4}, (∃ i : Fin 3, light i.castSucc ≠ pos i.castSucc) →
      0 < √((light 0 - pos 0) ^ 2 + (light 1 - pos 1) ^ 2 + (light 2 - pos 2) ^ 2) := by
    rintro pos light ⟨i, hi⟩
    apply Real.sqrt_pos.2
    have hi : light i.castSucc - pos i.castSucc ≠ 0 := sub_ne_zero.2 hi
    have h0 := sq_nonneg (light 0 - pos 0)
    have h1 := sq_nonneg (light 1 - pos 1)
    have h2 := sq_nonneg (light 2 - pos 2)
    have := sq_pos_of_ne_zero hi
    fin_cases i
    · have : 0 < (light 0 - pos 0) ^ 2 := this
      linarith
    · have : 0 < (light 1 - pos 1) ^ 2 := this
      linarith
    · have : 0 < (light 2 - pos 2) ^ 2 := this
      linarith
  obtain ⟨m, -, -, h1, -, -, h2, -⟩ := C55_gooch g pos normal light hn hl
  obtain ⟨m', -, -, h1', -, -, h2', -⟩ := C55_gooch g pos' normal' light' hn' hl'
  rw [Spec.lightCos, Spec.lightCos, h2, h2', mul_div_assoc, div_self (pos_of hl).ne', mul_div_assoc, div_self (pos_of hl').ne'] at hcos
  have hm : m < m' := by linarith
  rw [h1, h1, h1, h1', h1']
  clear h1 h1' h2 h2'
  simp only [goochPresets, blueYellowGooch, List.mem_cons, List.not_mem_nil, or_false] at hg
  rcases hg with rfl | rfl | rfl | rfl | rfl | rfl | rfl <;>
    refine ⟨?_, ?_, ?_⟩ <;> simp only [rgb, Matrix.cons_val] <;> linarith

/-- non-vacuity of C55: a red surface facing a light straight ahead has the warm shade -/
example : (blueYellowGooch (rgb 1 0 0)).shade (point 0 0 0) (vector 0 0 1) (point 0 0 5) = ![1, 0.35, 0, 1] := by
  obtain ⟨m, -, -, h, h1, -⟩ := C55_gooch (blueYellowGooch (rgb 1 0 0)) (point 0 0 0) (vector 0 0 1) (point 0 0 5) (by simp [vector])
    ⟨2, by simp [point]⟩
  have := h1 5 (by norm_num) (by intro i; fin_cases i <;> simp [point, vector] <;> norm_num)
  subst this
  funext i
  rw [h]
  fin_cases i <;> norm_num [blueYellowGooch, rgb]

/-! ### C66 -/

/-- the mean of the shades for the lights one by one -/
noncomputable def Spec.meanShade (g : Gooch) (m : ℕ) (lights : ℕ → Vec4) (pos normal : Vec4) : Vec4 :=
  fun i => (∑ k ∈ Finset.range m, g.shade pos normal (lights k) i) / m

/-- **C66 is false:** with any number of lights other than one or three, `shade` raises a ValueError. -/
theorem C66_count_false (g : Gooch) (m : ℕ) (h1 : m ≠ 1) (h3 : m ≠ 3) (lights : ℕ → Vec4) (n : ℕ) (pos normal : ℕ → Vec4) :
    g.shadeMany m lights n pos normal = none := by
  simp only [Gooch.shadeMany, Arr3.zip, broadcastDim]
  rw [if_neg (Ne.symm h3), if_neg (by norm_num), if_neg h1]
  rfl

/-- **C66 is false for a single light given as a column:** the coordinates of light and position are mixed up. With the normal pointing at the light the
warm shade (here white) is expected; the result is another mixture. -/
theorem C66_column_false : ∃ (g : Gooch) (normal light : Vec4) (f : ℕ → Vec4), norm4 normal = 1 ∧
    g.shade (point 0 0 0) normal light = ![1, 1, 1, 1] ∧
    Spec.meanShade g 1 (fun _ => light) (point 0 0 0) normal = ![1, 1, 1, 1] ∧
    g.shadeMany 1 (fun _ => light) 1 (fun _ => point 0 0 0) (fun _ => normal) = some f ∧ f 0 0 ≠ 1 := by
  set g : Gooch := ⟨![1, 1, 1, 1], ![1, 1, 1, 1], ![0, 0, 0, 0], 0, 0⟩ with hg
  have hn : (vector (3 / 13) (4 / 13) (12 / 13) 0) ^ 2 + (vector (3 / 13) (4 / 13) (12 / 13) 1) ^ 2 + (vector (3 / 13) (4 / 13) (12 / 13) 2) ^ 2 = 1 := by
    simp only [vector, Matrix.cons_val]; norm_num
  have hs : g.shade (point 0 0 0) (vector (3 / 13) (4 / 13) (12 / 13)) (point 3 4 12) = ![1, 1, 1, 1] := by
    obtain ⟨m, -, -, h, h1, -⟩ := C55_gooch g (point 0 0 0) (vector (3 / 13) (4 / 13) (12 / 13)) (point 3 4 12) hn ⟨0, by simp [point]⟩
    have := h1 13 (by norm_num) (by intro i; fin_cases i <;> simp [point, vector] <;> norm_num)
    subst this
    funext i
    rw [h]
    fin_cases i <;> norm_num [hg]
  refine ⟨g, vector (3 / 13) (4 / 13) (12 / 13), point 3 4 12, _, ?_, hs, ?_, rfl, ?_⟩
  · have : norm4 (vector (3 / 13) (4 / 13) (12 / 13)) = √1 := by
      rw [norm4, hn]
      simp [vector]
    rw [this, Real.sqrt_one]
  · funext i
    simp [Spec.meanShade, hs]
  · intro h
    have e : √3 * 19 / 39 = (1 : ℝ) := by
      have s3 : √(3 : ℝ) ^ 2 = 3 := Real.sq_sqrt (by norm_num)
      simp [Gooch.mix, Gooch.warmShade, Gooch.coolShade, hg, Arr3.norm1, stretched, Finset.sum_range_succ, point, vector, Fin.ofNat] at h
      have r (k : ℝ) (hk : 0 ≤ k) : √(k ^ 2 + k ^ 2 + k ^ 2) = k * √3 := by
        rw [show k ^ 2 + k ^ 2 + k ^ 2 = k ^ 2 * 3 by ring, Real.sqrt_mul (sq_nonneg k), Real.sqrt_sq hk]
      rw [r 3 (by norm_num), r 4 (by norm_num), r 12 (by norm_num)] at h
      have hp : √(3 : ℝ) ≠ 0 := by positivity
      have hi : (1 : ℝ) / √3 = √3 / 3 := by
        rw [div_eq_div_iff hp (by norm_num)]
        nlinarith
      have q (a b : ℝ) : a / (b * √3) = a / b * (√3 / 3) := by rw [← hi, div_mul_div_comm, mul_one]
      simp only [q] at h
      norm_num at h
      linarith
    have s3 : √(3 : ℝ) ^ 2 = 3 := Real.sq_sqrt (by norm_num)
    have : √(3 : ℝ) = 39 / 19 := by linarith
    rw [this] at s3
    norm_num at s3

/-- **C66 is false for three lights:** `shade` returns, with the coordinates of lights and position mixed up. Here all three are in the same place. -/
theorem C66_three_false : ∃ (g : Gooch) (normal light : Vec4) (f : ℕ → Vec4), norm4 normal = 1 ∧
    g.shade (point 0 0 0) normal light = ![1, 1, 1, 1] ∧
    Spec.meanShade g 3 (fun _ => light) (point 0 0 0) normal = ![1, 1, 1, 1] ∧
    g.shadeMany 3 (fun _ => light) 1 (fun _ => point 0 0 0) (fun _ => normal) = some f ∧ f 0 0 ≠ 1 := by
  set g : Gooch := ⟨![1, 1, 1, 1], ![1, 1, 1, 1], ![0, 0, 0, 0], 0, 0⟩ with hg
  have hn : (vector (3 / 13) (4 / 13) (12 / 13) 0) ^ 2 + (vector (3 / 13) (4 / 13) (12 / 13) 1) ^ 2 + (vector (3 / 13) (4 / 13) (12 / 13) 2) ^ 2 = 1 := by
    simp only [vector, Matrix.cons_val]; norm_num
  have hs : g.shade (point 0 0 0) (vector (3 / 13) (4 / 13) (12 / 13)) (point 3 4 12) = ![1, 1, 1, 1] := by
    obtain ⟨m, -, -, h, h1, -⟩ := C55_gooch g (point 0 0 0) (vector (3 / 13) (4 / 13) (12 / 13)) (point 3 4 12) hn ⟨0, by simp [point]⟩
    have := h1 13 (by norm_num) (by intro i; fin_cases i <;> simp [point, vector] <;> norm_num)
    subst this
    funext i
    rw [h]
    fin_cases i <;> norm_num [hg]
  refine ⟨g, vector (3 / 13) (4 / 13) (12 / 13), point 3 4 12, _, ?_, hs, ?_, rfl, ?_⟩
  · have : norm4 (vector (3 / 13) (4 / 13) (12 / 13)) = √1 := by
      rw [norm4, hn]
      simp [vector]
    rw [this, Real.sqrt_one]
  · funext i
    simp [Spec.meanShade, hs]
  · intro h
    have e : √3 * 19 / 39 = (1 : ℝ) := by
      have s3 : √(3 : ℝ) ^ 2 = 3 := Real.sq_sqrt (by norm_num)
      simp [Gooch.mix, Gooch.warmShade, Gooch.coolShade, hg, Arr3.norm1, stretched, Finset.sum_range_succ, point, vector, Fin.ofNat] at h
      have r (k : ℝ) (hk : 0 ≤ k) : √(k ^ 2 + k ^ 2 + k ^ 2) = k * √3 := by
        rw [show k ^ 2 + k ^ 2 + k ^ 2 = k ^ 2 * 3 by ring, Real.sqrt_mul (sq_nonneg k), Real.sqrt_sq hk]
      rw [r 3 (by norm_num), r 4 (by norm_num), r 12 (by norm_num)] at h
      have hp : √(3 : ℝ) ≠ 0 := by positivity
      have hi : (1 : ℝ) / √3 = √3 / 3 := by
        rw [div_eq_div_iff hp (by norm_num)]
        nlinarith
      have q (a b : ℝ) : a / (b * √3) = a / b * (√3 / 3) := by rw [← hi, div_mul_div_comm, mul_one]
      simp only [q] at h
      norm_num at h
      linarith
    have s3 : √(3 : ℝ) ^ 2 = 3 := Real.sq_sqrt (by norm_num)
    have : √(3 : ℝ) = 39 / 19 := by linarith
    rw [this] at s3
    norm_num at s3

end PyRayT
