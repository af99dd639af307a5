import Verif.Proofs.Scene
import Verif.Proofs.Tracer3

/-! A concrete scene: a ray on the z axis inside a spherical mirror of radius 1 around the origin. -/

namespace PyRayT

open Classical Matrix Spec

variable (argsort : List EReal → List ℕ)

/-- the unit sphere with a material -/
noncomputable def ball (m : Material) : Scene := ⟨newPrim Heap.empty (.sphere 1), fun _ => m⟩

theorem ball_reaches (m : Material) (fuel : ℕ) : Reaches argsort fuel Heap.empty (ball m).heap :=
  .step (.newPrim _) (.refl _) trivial rfl

theorem ball_obj (m : Material) : ((ball m).heap.obj 0).kind = .prim (.sphere 1) ∧ ((ball m).heap.obj 0).objT = 1 ∧
    ((ball m).heap.obj 0).oid = 0 ∧ ((ball m).heap.obj 0).nscale = 1 ∧ (ball m).heap.size = 1 := by
  simp [ball, newPrim, Heap.alloc, Heap.empty]

/-- a ray on the z axis -/
def axisRay (z σ : ℝ) : Ray := ⟨point 0 0 z, vector 0 0 σ⟩

theorem axis_sphere {z σ : ℝ} (hσ : σ ^ 2 = 1) : sphereIntersect 1 (axisRay z σ) =
    (((-(σ * z) + 1 : ℝ) : EReal), ((-(σ * z) - 1 : ℝ) : EReal)) := by
  have a1 : (axisRay z σ).d 0 * (axisRay z σ).d 0 + (axisRay z σ).d 1 * (axisRay z σ).d 1 +
      (axisRay z σ).d 2 * (axisRay z σ).d 2 = 1 := by
    simp [axisRay, vector]; nlinarith
  have b1 : (axisRay z σ).d 0 * (axisRay z σ).o 0 + (axisRay z σ).d 1 * (axisRay z σ).o 1 +
      (axisRay z σ).d 2 * (axisRay z σ).o 2 = σ * z := by
    simp [axisRay, vector, point]
  have c1 : (axisRay z σ).o 0 * (axisRay z σ).o 0 + (axisRay z σ).o 1 * (axisRay z σ).o 1 +
      (axisRay z σ).o 2 * (axisRay z σ).o 2 = z * z := by
    simp [axisRay, point]
  unfold sphereIntersect
  dsimp only
  rw [if_neg (by rw [a1]; exact one_ne_zero), a1, b1, c1]
  have h2 : (2 * (σ * z)) ^ 2 - 4 * 1 * (z * z - 1 ^ 2) = 4 := by
    have : (2 * (σ * z)) ^ 2 = 4 * σ ^ 2 * z ^ 2 := by ring
    rw [this, hσ]; ring
  rw [h2, polyRoots, if_pos (by norm_num : (4 : ℝ) ≥ 0)]
  have h3 : √(max 0 (4 : ℝ)) = 2 := by
    rw [max_eq_right (by norm_num), show (4 : ℝ) = 2 ^ 2 by norm_num, Real.sqrt_sq (by norm_num)]
  rw [h3]
  congr 2 <;> ring

theorem ball_intersect (m : Material) {z σ : ℝ} (hσ : σ ^ 2 = 1) (depth : ℕ) :
    ((ball m).component argsort (depth + 1) 0).intersect (axisRay z σ) =
      ([((-(σ * z) - 1 : ℝ) : EReal), ((-(σ * z) + 1 : ℝ) : EReal)], [0, 0]) := by
  obtain ⟨hk, ht, hid, -, -⟩ := ball_obj m
  show intersectObj argsort (depth + 1) (ball m).heap 0 (axisRay z σ) = _
  simp only [intersectObj, hk, leafIntersect, ht, hid, Prim.intersect]
  have e : (axisRay z σ).map 1 = axisRay z σ := by simp [Ray.map]
  rw [e, axis_sphere hσ]
  have hle : ((-(σ * z) - 1 : ℝ) : EReal) ≤ ((-(σ * z) + 1 : ℝ) : EReal) := EReal.coe_le_coe_iff.2 (by linarith)
  simp only [sort2, min_eq_right hle, max_eq_left hle]
  rfl

/-- the sphere is hit from inside at `1 - σ z` -/
theorem ball_nearest (m : Material) {z σ : ℝ} (hσ : σ ^ 2 = 1) (hz : |z| < 1) (depth : ℕ) :
    Nearest [(ball m).component argsort (depth + 1) 0] (axisRay z σ) (1 - σ * z) 0 := by
  have hσz : |σ * z| < 1 := by
    have : |σ| = 1 := by rw [← sq_eq_sq₀ (abs_nonneg _) zero_le_one, sq_abs, hσ]; norm_num
    rw [abs_mul, this, one_mul]; exact hz
  obtain ⟨l, u⟩ := abs_lt.1 hσz
  refine ⟨by linarith, ?_, 0, _, 1, rfl, fun j hj => by omega, ?_, ?_, ?_⟩
  · intro c hc h hh hp
    simp only [List.mem_singleton] at hc
    subst hc
    rw [ball_intersect argsort m hσ] at hh
    simp only [List.mem_cons, List.not_mem_nil, or_false] at hh
    rcases hh with rfl | rfl
    · have : (0 : ℝ) < -(σ * z) - 1 := by exact_mod_cast hp
      linarith
    · exact EReal.coe_le_coe_iff.2 (by linarith)
  · rw [ball_intersect argsort m hσ]
    simp only [List.getElem?_cons_succ, List.getElem?_cons_zero]
    congr 2; ring
  · intro j hj
    have : j = 0 := by omega
    subst this
    rw [ball_intersect argsort m hσ]
    simp only [List.getElem?_cons_zero, ne_eq, Option.some.injEq, EReal.coe_eq_coe_iff]
    linarith
  · rw [ball_intersect argsort m hσ]
    rfl

theorem ball_surfaces (m : Material) (depth : ℕ) : ((ball m).component argsort (depth + 1) 0).surfaces =
    [((0 : ℤ), fun c => m.trace (surfaceNormal (ball m).heap 0) c)] := by
  obtain ⟨hk, ht, hid, -, -⟩ := ball_obj m
  simp only [Scene.component, surfaceIds, hk, hid]
  rfl

theorem ball_normal (m : Material) {z : ℝ} (hz : z ≠ 0) : surfaceNormal (ball m).heap 0 (point 0 0 z) = vector 0 0 (z / |z|) := by
  obtain ⟨hk, ht, hid, hs, -⟩ := ball_obj m
  have e : surfaceNormal (ball m).heap 0 (point 0 0 z) = worldNormal ((ball m).heap.obj 0) (.sphere 1) (point 0 0 z) := by
    simp only [surfaceNormal, hk]
  have hz2 : √(z ^ 2) = |z| := Real.sqrt_sq_eq_abs z
  have ha : |z| ≠ 0 := abs_ne_zero.2 hz
  have hq : (z / |z|) ^ 2 = 1 := by rw [div_pow, sq_abs, div_self (pow_ne_zero 2 hz)]
  rw [e, worldNormal, hs, ht, one_smul, Matrix.transpose_one, Matrix.one_mulVec, Matrix.one_mulVec]
  have h1 : Prim.normal (.sphere 1) (point 0 0 z) = vector 0 0 (z / |z|) := by
    funext i
    fin_cases i <;> simp [Prim.normal, normalize, point, vector, norm4, hz2]
  rw [h1]
  funext i
  fin_cases i <;> simp [normalize, zeroW, vector, norm4, hq]

/-- a column on the z axis -/
def axisCol (z σ intensity : ℝ) (g : ℕ) : Col :=
  { ray := axisRay z σ, generation := g, intensity, wavelength := 0.633, index := 1, id := 0 }

/-- the ball with a source of one ray on the axis -/
noncomputable def ballTracer (m : Material) (z σ intensity : ℝ) (limit : ℤ) : Tracer :=
  Tracer.new [fun _ => [axisCol z σ intensity 0]] [(ball m).component argsort 1 0] 1 limit

theorem axis_norm {σ : ℝ} (hσ : σ ^ 2 = 1) : norm4 (vector 0 0 σ) = 1 := by
  simp [norm4, vector, hσ]

theorem ballTracer_ok (ha : IsArgsort argsort) (m : Material) {z σ : ℝ} (hσ : σ ^ 2 = 1) (intensity : ℝ) (limit : ℤ) :
    TracerOk (ballTracer argsort m z σ intensity limit) := by
  have := scene_ok argsort ha (ball_reaches argsort m 1) (objs := [0]) (depth := 1)
    (by intro a h; simp at h; rw [h, (ball_obj m).2.2.2.2]; norm_num) (by simp [surfaceIds, (ball_obj m).1])
    (sources := [fun _ => [axisCol z σ intensity 0]]) (n := 1) (limit := limit) ?_
  · exact this
  · intro f hf c hc
    simp only [List.mem_singleton] at hf
    subst hf
    simp only [List.mem_singleton] at hc
    subst hc
    exact ⟨by simp [axisCol], rfl, rfl, axis_norm hσ⟩

theorem ballTracer_emitted (m : Material) (z σ intensity : ℝ) (limit : ℤ) :
    Emitted (ballTracer argsort m z σ intensity limit) 0 (axisCol z σ intensity 0) :=
  ⟨axisCol z σ intensity 0, rfl, by simp [axisCol]⟩

theorem ballTracer_lut (m : Material) (z σ intensity : ℝ) (limit : ℤ) :
    ((0 : ℤ), fun c => m.trace (surfaceNormal (ball m).heap 0) c) ∈ (ballTracer argsort m z σ intensity limit).lut := by
  show _ ∈ [(ball m).component argsort 1 0].flatMap Component.surfaces
  rw [List.flatMap_cons, ball_surfaces]
  simp

/-- reflection in the ball -/
theorem ball_mirror {σ : ℝ} (hσ : σ ^ 2 = 1) {z : ℝ} (hz : |z| < 1) (intensity : ℝ) (g : ℕ) (o : ℝ) :
    moved { Material.mirror.trace (surfaceNormal (ball .mirror).heap 0) (moved (axisCol z σ intensity g) (1 - σ * z)) with
        generation := (g : ℝ) + 1 } o = axisCol (σ * (1 - o)) (-σ) intensity (g + 1) := by
  have hp : (moved (axisCol z σ intensity g) (1 - σ * z)).ray.o = point 0 0 σ := by
    funext i
    fin_cases i <;> simp [moved, axisCol, axisRay, point, vector]
    linear_combination (-z) * hσ
  have hs : σ ≠ 0 := by rintro rfl; norm_num at hσ
  have habs : |σ| = 1 := by rw [← sq_eq_sq₀ (abs_nonneg _) zero_le_one, sq_abs, hσ]; norm_num
  have hn : surfaceNormal (ball .mirror).heap 0 (point 0 0 σ) = vector 0 0 σ := by
    rw [ball_normal _ hs, habs, div_one]
  simp only [Material.trace]
  rw [hp, hn]
  have hd : (fun i => (moved (axisCol z σ intensity g) (1 - σ * z)).ray.d i - 2 * vector 0 0 σ i *
      dot4 (moved (axisCol z σ intensity g) (1 - σ * z)).ray.d (vector 0 0 σ)) = vector 0 0 (-σ) := by
    funext i
    fin_cases i <;> simp [moved, axisCol, axisRay, vector, dot4]
    linear_combination (-2 * σ) * hσ
  rw [hd]
  simp only [moved, axisCol, axisRay, Nat.cast_add, Nat.cast_one, Col.mk.injEq, Ray.mk.injEq, and_true, and_self]
  funext i
  fin_cases i <;> simp [point, vector]
  ring

/-- the ray never leaves: it sets out again and again from `±(1 - offset)` -/
theorem resonator (z σ : ℝ) (hσ : σ ^ 2 = 1) (hz : |z| < 1) (intensity : ℝ) (limit : ℤ) (g : ℕ) :
    ∃ z' σ', σ' ^ 2 = 1 ∧ |z'| < 1 ∧
      Journey (ballTracer argsort .mirror z σ intensity limit) (axisCol z σ intensity 0) g (axisCol z' σ' intensity g) := by
  induction g with
  | zero => exact ⟨z, σ, hσ, hz, .start⟩
  | succ g ih =>
    obtain ⟨z', σ', h1, h2, hj⟩ := ih
    have hx : ¬ Extinct (axisCol z' σ' intensity g) := not_extinct_of_unit (axis_norm h1)
    have hn := ball_nearest argsort .mirror h1 h2 0
    have := hj.next hx hn (ballTracer_lut argsort .mirror z σ intensity limit)
    rw [ball_mirror h1 h2] at this
    have habs : |σ'| = 1 := by rw [← sq_eq_sq₀ (abs_nonneg _) zero_le_one, sq_abs, h1]; norm_num
    refine ⟨_, _, by rw [neg_sq, h1], ?_, this⟩
    show |σ' * (1 - 1e-6)| < 1
    rw [abs_mul, habs, one_mul]
    norm_num [abs_lt]

end PyRayT
