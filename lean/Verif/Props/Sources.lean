import Verif.Proofs.Sources
import Verif.Props.World

/-!
# Properties C36, C37, C38 and C62: ray sources
-/

namespace PyRayT

open Classical Matrix Spec

/-- The world direction a source points to: its local x axis. -/
def Spec.axis (w : Mat4) : Vec4 := w *ᵥ vector 1 0 0

theorem local_dir (k : SourceKind) (wl : ℝ) {n : ℕ} (hk : ∀ a, k = .cone a → 1 < n) (j : Fin n) :
    ∃ o d : Vec4, (k.localRays wl n).col j = freshCol ⟨o, d⟩ 100 wl j ∧ o 3 = 1 ∧ d 3 = 0 ∧ norm4 d = 1 := by
  cases k with
  | line s => exact ⟨_, _, line_col s wl j, by simp [point], by simp [vector], by simp [norm4, vector]⟩
  | circle d => exact ⟨_, _, circle_col d wl j, by simp [point], by simp [vector], by simp [norm4, vector]⟩
  | cone a =>
    refine ⟨_, _, cone_col a wl (hk a rfl) j, by simp [point], by simp [vector], ?_⟩
    rw [norm4_eq_one]
    simp only [dot4, vector]
    have h1 := Real.sin_sq_add_cos_sq (a * Real.pi / 180)
    have h2 := Real.sin_sq_add_cos_sq (2 * Real.pi * (j.val : ℝ) / (n : ℝ))
    simp only [cons_val_zero, cons_val_one, cons_val]
    linear_combination h1 + Real.sin (a * Real.pi / 180) ^ 2 * h2
  | wedge a =>
    refine ⟨_, _, wedge_col a wl j, by simp [point], by simp [vector], ?_⟩
    rw [norm4_eq_one]
    simp only [dot4, vector, cons_val_zero, cons_val_one, cons_val]
    have h1 := Real.sin_sq_add_cos_sq (linspace (-(a * Real.pi / 180) / 2) (a * Real.pi / 180 / 2) n j)
    linear_combination h1

theorem ne_zero_of_unit {v : Vec4} (h : norm4 v = 1) : v ≠ 0 := by
  rintro rfl
  simp [norm4] at h

/-- **C36 (every source but a cone of one ray).** `generate_rays(n)` of a source placed by any affine world matrix yields n rays; each
has a unit direction, an origin with w = 1, the wavelength of the source and otherwise the default metadata with distinct
ids. The full claim C36 has no exception: see `C36_single_cone_false`. -/
theorem C36_bundle_partial (k : SourceKind) (wl : ℝ) (w : Mat4) (hw : Affine w) (n : ℕ) (hk : ∀ a, k = .cone a → 1 < n) :
    (k.generate wl w n).cols.length = n ∧
    ∀ j : Fin n, ∃ c, (k.generate wl w n).cols[j.val]? = some c ∧ c = (k.generate wl w n).col j ∧
      norm4 c.ray.d = 1 ∧ c.ray.d 3 = 0 ∧ c.ray.o 3 = 1 ∧
      c.wavelength = wl ∧ c.generation = 0 ∧ c.intensity = 100 ∧ c.index = 1 ∧ c.id = (j.val : ℝ) := by
  refine ⟨by simp [RayTable.cols], fun j => ⟨_, ?_, rfl, ?_⟩⟩
  · simp [RayTable.cols, j.isLt]
  · obtain ⟨o, d, hc, ho, hd, hn⟩ := local_dir k wl hk j
    unfold SourceKind.generate
    rw [place_col, hc]
    refine ⟨norm4_normalize (affine_dir_pos hw (ne_zero_of_unit hn)), ?_, ?_, rfl, rfl, rfl, rfl, rfl⟩
    · show (w *ᵥ d) 3 / _ = 0
      rw [affine_three hw, hd, zero_div]
    · show (w *ᵥ o) 3 = 1
      rw [affine_three hw, ho]

/-- **C36 (sources follow their placement).** Moving a source by `move` or a rotation moves each of its rays by the same
matrix, after any earlier history of the scene, and changes nothing else. -/
theorem C36_moves (argsort : List EReal → List ℕ) (fuel : ℕ) (h h' : Heap)
    (hr : ReachesBy argsort Movement.IsAffine (fuel + 1) Heap.empty h) (a : ℕ) (ha : a < h.size) (hpl : (h.obj a).kind = .plain)
    (mv : Movement) (hmv : mv.IsRigid) (m : Mat4) (hm : mv.matrix = .ok m)
    (hrun : callMovement argsort (fuel + 1) h a mv = (h', none))
    (k : SourceKind) (wl : ℝ) (n : ℕ) (hk : ∀ a, k = .cone a → 1 < n) (j : Fin n) :
    (k.generate wl (h'.obj a).world n).col j =
      { (k.generate wl (h.obj a).world n).col j with ray := ((k.generate wl (h.obj a).world n).col j).ray.map m } := by
  have hw := reachesBy_affine hr ha
  have hrig := hmv.rigid hm
  have e : (h'.obj a).world = m * (h.obj a).world := by
    have := C13_history_single argsort fuel h h' hr.reaches a ha (.inl hpl) [mv] [m] (by simp [hm])
      (by simp only [List.map_cons, List.map_nil, runMovements]; rw [hrun]; rfl)
    simpa using this
  obtain ⟨o, d, hc, ho, hd, hn⟩ := local_dir k wl hk j
  unfold SourceKind.generate
  rw [place_col, place_col, hc, e]
  simp only [freshCol, Ray.map, Col.mk.injEq, and_true]
  congr 1
  · rw [mulVec_mulVec]
  · have hz : ((h.obj a).world *ᵥ d) 3 = 0 := by rw [affine_three hw, hd]
    rw [← mulVec_mulVec]
    set v := (h.obj a).world *ᵥ d
    funext i
    rw [mulVec4 m (normalize v) i]
    simp only [normalize]
    rw [hrig.2.2 _ hz, mulVec4]
    ring

/-- **C36 (line).** n parallel rays along the axis, evenly spaced on the local y axis by spacing / (n - 1), symmetric about the axis, the
outermost at ± spacing / 2 (a single ray is on the axis). -/
theorem C36_line (s wl : ℝ) (w : Mat4) (n : ℕ) :
    ∃ y : ℕ → ℝ,
      (∀ j : Fin n, (((SourceKind.line s).generate wl w n).col j).ray = ⟨w *ᵥ point 0 (y j) 0, normalize (Spec.axis w)⟩) ∧
      (∀ j, j < n → y j + y (n - 1 - j) = 0) ∧
      (1 < n → y 0 = -(s / 2) ∧ y (n - 1) = s / 2 ∧ ∀ j, y (j + 1) - y j = s / ((n : ℝ) - 1)) := by
  refine ⟨fun j => if 1 < n then linspace (-s / 2) (s / 2) n j else 0, fun j => ?_, fun j hj => ?_, fun hn => ?_⟩
  · unfold SourceKind.generate
    rw [place_col, line_col]
    rfl
  · by_cases hn : 1 < n
    · have hn1 : (n : ℝ) - 1 ≠ 0 := by
        have : (1 : ℝ) < n := by exact_mod_cast hn
        linarith
      simp only [if_pos hn, linspace, if_neg hn.ne']
      rw [Nat.sub_sub, Nat.cast_sub (by omega)]
      push_cast
      field_simp
      ring
    · simp [hn]
  · simp only [if_pos hn]
    refine ⟨by rw [linspace_first]; ring, linspace_last hn, fun j => ?_⟩
    rw [linspace_step hn]
    ring

/-- the distance of neighbouring rays of a rigidly placed line -/
theorem C36_line_distance (s wl : ℝ) (w : Mat4) (hw : Rigid w) (n : ℕ) (i j : Fin n) (hij : j.val = i.val + 1) :
    norm4 ((((SourceKind.line s).generate wl w n).col j).ray.o - (((SourceKind.line s).generate wl w n).col i).ray.o) =
      |s| / ((n : ℝ) - 1) := by
  obtain ⟨y, h1, _, h3⟩ := C36_line s wl w n
  have hn : 1 < n := by have := j.isLt; omega
  have hpos : (0 : ℝ) < (n : ℝ) - 1 := by
    have : (1 : ℝ) < n := by exact_mod_cast hn
    linarith
  rw [h1, h1]
  show norm4 (w *ᵥ _ - w *ᵥ _) = _
  rw [← mulVec_sub, hw.2.2 _ (by simp [point]), hij]
  have : (point 0 (y (i.val + 1)) 0 - point 0 (y i.val) 0 : Vec4) = vector 0 (s / ((n : ℝ) - 1)) 0 := by
    funext r
    fin_cases r <;> simp [point, vector, (h3 hn).2.2 i.val]
  rw [this]
  simp only [norm4, vector, cons_val_zero, cons_val_one, cons_val]
  rw [show (0 : ℝ) ^ 2 + (s / ((n : ℝ) - 1)) ^ 2 + 0 ^ 2 + 0 ^ 2 = (s / ((n : ℝ) - 1)) ^ 2 by ring, Real.sqrt_sq_eq_abs, abs_div,
    abs_of_pos hpos]

/-- **C36 (circle).** The origins of a circle source lie on the circle of the given diameter about the source position, in the plane
orthogonal to the axis; the rays are parallel to the axis. -/
theorem C36_circle (d wl : ℝ) (w : Mat4) (hw : Rigid w) (n : ℕ) (j : Fin n) :
    let r := (((SourceKind.circle d).generate wl w n).col j).ray
    r.d = Spec.axis w ∧ norm4 (r.o - w *ᵥ point 0 0 0) = |d| / 2 ∧ dot4 (r.o - w *ᵥ point 0 0 0) (Spec.axis w) = 0 := by
  intro r
  have hr : r = ⟨w *ᵥ point 0 (d / 2 * Real.sin (linspace 0 (2 * Real.pi) n j)) (d / 2 * Real.cos (linspace 0 (2 * Real.pi) n j)),
      normalize (w *ᵥ vector 1 0 0)⟩ := by
    show (((SourceKind.circle d).generate wl w n).col j).ray = _
    unfold SourceKind.generate
    rw [place_col, circle_col]
    rfl
  rw [hr]
  set θ := linspace 0 (2 * Real.pi) n j
  have e : (point 0 (d / 2 * Real.sin θ) (d / 2 * Real.cos θ) - point 0 0 0 : Vec4) =
      vector 0 (d / 2 * Real.sin θ) (d / 2 * Real.cos θ) := by
    funext i; fin_cases i <;> simp [point, vector]
  refine ⟨rigid_normalize hw (by simp [vector]) (by simp [norm4, vector]), ?_, ?_⟩
  · rw [← mulVec_sub, e, hw.2.2 _ (by simp [vector])]
    simp only [norm4, vector, cons_val_zero, cons_val_one, cons_val]
    rw [show (0 : ℝ) ^ 2 + (d / 2 * Real.sin θ) ^ 2 + (d / 2 * Real.cos θ) ^ 2 + 0 ^ 2 = (d / 2) ^ 2 by
      linear_combination (d / 2) ^ 2 * Real.sin_sq_add_cos_sq θ, Real.sqrt_sq_eq_abs, abs_div]
    norm_num
  · show dot4 (w *ᵥ _ - w *ᵥ _) (w *ᵥ _) = 0
    rw [← mulVec_sub, e, rigid_dot hw (by simp [vector]) (by simp [vector])]
    simp [dot4, vector]

/-- **C36 (cone of two or more rays).** All rays start at the source position and make the cone angle with the axis; their
azimuths are the multiples of 1/n of the full turn. -/
theorem C36_cone_partial (deg wl : ℝ) (w : Mat4) (hw : Rigid w) (n : ℕ) (hn : 1 < n) (j : Fin n) :
    let a := deg * Real.pi / 180
    let φ := 2 * Real.pi * ((j.val : ℝ) / (n : ℝ))
    let r := (((SourceKind.cone deg).generate wl w n).col j).ray
    r.o = w *ᵥ point 0 0 0 ∧ dot4 r.d (Spec.axis w) = Real.cos a ∧
    r.d = w *ᵥ (Real.cos a • vector 1 0 0 + Real.sin a • vector 0 (Real.sin φ) (Real.cos φ)) := by
  intro a φ r
  have hr : r = ⟨w *ᵥ point 0 0 0, normalize (w *ᵥ vector (Real.cos a)
      (Real.sin a * Real.sin (2 * Real.pi * (j.val : ℝ) / (n : ℝ))) (Real.sin a * Real.cos (2 * Real.pi * (j.val : ℝ) / (n : ℝ))))⟩ := by
    show (((SourceKind.cone deg).generate wl w n).col j).ray = _
    unfold SourceKind.generate
    rw [place_col, cone_col _ _ hn]
    rfl
  have hφ : 2 * Real.pi * (j.val : ℝ) / (n : ℝ) = φ := by ring
  rw [hr, hφ]
  have hu : norm4 (vector (Real.cos a) (Real.sin a * Real.sin φ) (Real.sin a * Real.cos φ)) = 1 := by
    rw [norm4_eq_one]
    simp only [dot4, vector, cons_val_zero, cons_val_one, cons_val]
    linear_combination Real.sin_sq_add_cos_sq a + Real.sin a ^ 2 * Real.sin_sq_add_cos_sq φ
  rw [rigid_normalize hw (by simp [vector]) hu]
  refine ⟨rfl, ?_, ?_⟩
  · show dot4 (w *ᵥ _) (w *ᵥ _) = _
    rw [rigid_dot hw (by simp [vector]) (by simp [vector])]
    simp [dot4, vector]
  · show w *ᵥ _ = _
    congr 1
    funext i; fin_cases i <;> simp [vector]

/-- **C36 is false for a cone of one ray**: the ray of a 60 degree cone is on the axis. -/
theorem C36_single_cone_false : ∃ (deg : ℝ) (w : Mat4), Rigid w ∧
    dot4 (((SourceKind.cone deg).generate 0.633 w 1).col 0).ray.d (Spec.axis w) ≠ Real.cos (deg * Real.pi / 180) := by
  refine ⟨60, 1, rigid_one, ?_⟩
  unfold SourceKind.generate
  rw [place_col, cone_col_one]
  have hc : Real.cos (60 * Real.pi / 180) = 1 / 2 := by
    rw [show 60 * Real.pi / 180 = Real.pi / 3 by ring, Real.cos_pi_div_three]
  simp only [freshCol, Spec.axis, one_mulVec, hc]
  simp only [dot4, normalize, norm4, vector, cons_val_zero, cons_val_one, cons_val]
  have : √((1 / 2 : ℝ) ^ 2 + 0 ^ 2 + 0 ^ 2 + 0 ^ 2) = 1 / 2 := by
    rw [show (1 / 2 : ℝ) ^ 2 + 0 ^ 2 + 0 ^ 2 + 0 ^ 2 = (1 / 2) ^ 2 by ring, Real.sqrt_sq (by norm_num)]
  rw [this]
  norm_num

/-- **C36 (wedge).** All rays start at the source position in the local xy plane; their angles to the axis run from -angle/2 to
angle/2 in equal steps (a single ray has angle -angle/2). -/
theorem C36_wedge (deg wl : ℝ) (w : Mat4) (hw : Rigid w) (n : ℕ) :
    ∃ β : ℕ → ℝ,
      (∀ j : Fin n, (((SourceKind.wedge deg).generate wl w n).col j).ray =
        ⟨w *ᵥ point 0 0 0, w *ᵥ vector (Real.cos (β j)) (Real.sin (β j)) 0⟩) ∧
      β 0 = -(deg * Real.pi / 180 / 2) ∧
      (1 < n → β (n - 1) = deg * Real.pi / 180 / 2 ∧ ∀ j, β (j + 1) - β j = deg * Real.pi / 180 / ((n : ℝ) - 1)) := by
  refine ⟨fun j => linspace (-(deg * Real.pi / 180) / 2) (deg * Real.pi / 180 / 2) n j, fun j => ?_, ?_, fun hn => ?_⟩
  · unfold SourceKind.generate
    rw [place_col, wedge_col]
    simp only [freshCol]
    rw [rigid_normalize hw (by simp [vector])]
    rw [norm4_eq_one]
    simp only [dot4, vector, cons_val_zero, cons_val_one, cons_val]
    linear_combination Real.sin_sq_add_cos_sq (linspace (-(deg * Real.pi / 180) / 2) (deg * Real.pi / 180 / 2) n j)
  · simp only [linspace_first]; ring
  · refine ⟨linspace_last hn, fun j => ?_⟩
    simp only
    rw [linspace_step hn]
    ring

/-- non-vacuity of C36: a rotated and moved wedge of three rays has a ray along the rotated axis -/
example : ∃ (w : Mat4), Rigid w ∧ w ≠ 1 ∧
    (((SourceKind.wedge 90).generate 0.5 w 3).col 1).ray = ⟨point 1 2 3, vector 0 1 0⟩ := by
  have hz := rotZ_rigid (s := 1) (c := 0) (by norm_num)
  have hrig := rigid_mul (move_rigid 1 2 3) hz
  refine ⟨_, hrig, ?_, ?_⟩
  · intro h
    have h0 := congrFun (congrFun h 0) 0
    rw [Matrix.mul_apply, Fin.sum_univ_four] at h0
    simp [moveMatrix, rotZMatrix] at h0
  · obtain ⟨β, h1, h2, h3⟩ := C36_wedge 90 0.5 _ hrig 3
    have hb : β 1 = 0 := by
      have := (h3 (by norm_num)).2 0
      rw [h2] at this
      norm_num at this
      linarith
    rw [h1 1]
    rw [show ((1 : Fin 3) : ℕ) = 1 from rfl, hb]
    congr 1
    · funext i; rw [← mulVec_mulVec, mulVec4]; simp only [mulVec4]
      fin_cases i <;> simp [moveMatrix, rotZMatrix, point]
    · funext i; rw [← mulVec_mulVec, mulVec4]; simp only [mulVec4]
      fin_cases i <;> simp [moveMatrix, rotZMatrix, vector]

/-! ### C37 -/

theorem circle_ray (d wl : ℝ) (w : Mat4) (n : ℕ) (j : Fin n) : (((SourceKind.circle d).generate wl w n).col j).ray =
    ⟨w *ᵥ point 0 (d / 2 * Real.sin (linspace 0 (2 * Real.pi) n j)) (d / 2 * Real.cos (linspace 0 (2 * Real.pi) n j)),
      normalize (w *ᵥ vector 1 0 0)⟩ := by
  unfold SourceKind.generate
  rw [place_col, circle_col]
  rfl

/-- **C37 is false** for every n of at least 2: the first and the last ray of a circle coincide. -/
theorem C37_distinct_false (d wl : ℝ) (w : Mat4) (n : ℕ) (hn : 2 ≤ n) :
    (((SourceKind.circle d).generate wl w n).col ⟨0, by omega⟩).ray =
      (((SourceKind.circle d).generate wl w n).col ⟨n - 1, by omega⟩).ray := by
  rw [circle_ray, circle_ray]
  simp only [linspace_first, linspace_last (show 1 < n by omega)]
  simp

/-- **C37 (what holds).** The azimuths of the rays go up in equal steps of the full turn divided by n - 1, and all
rays but the last start at different points (diameter not 0). The full claim has n points spaced by 1/n of the turn. -/
theorem C37_partial (d wl : ℝ) (hd : d ≠ 0) (w : Mat4) (hw : Affine w) (n : ℕ) (hn : 2 ≤ n) :
    (∃ θ : ℕ → ℝ, θ 0 = 0 ∧ (∀ j, θ (j + 1) - θ j = 2 * Real.pi / ((n : ℝ) - 1)) ∧
      ∀ j : Fin n, (((SourceKind.circle d).generate wl w n).col j).ray.o =
        w *ᵥ point 0 (d / 2 * Real.sin (θ j)) (d / 2 * Real.cos (θ j))) ∧
    ∀ i j : Fin n, i.val < n - 1 → j.val < n - 1 → i ≠ j →
      (((SourceKind.circle d).generate wl w n).col i).ray.o ≠ (((SourceKind.circle d).generate wl w n).col j).ray.o := by
  refine ⟨⟨fun j => linspace 0 (2 * Real.pi) n j, linspace_first _ _ _, fun j => ?_, fun j => by rw [circle_ray]⟩, ?_⟩
  · simp only; rw [linspace_step (by omega)]; ring
  · intro i j hi hj hij h
    rw [circle_ray, circle_ray] at h
    have hu : IsUnit w.det := isUnit_iff_ne_zero.2 hw.2
    have h := congrArg (fun x => w⁻¹ *ᵥ x) h
    simp only [mulVec_mulVec, nonsing_inv_mul _ hu, one_mulVec] at h
    have hs := congrFun h 1
    have hc := congrFun h 2
    simp only [point, cons_val_one, cons_val] at hs hc
    have hd2 : d / 2 ≠ 0 := by simpa using hd
    have hs := mul_left_cancel₀ hd2 hs
    have hc := mul_left_cancel₀ hd2 hc
    have hpos : (0 : ℝ) < (n : ℝ) - 1 := by
      have : (1 : ℝ) < n := by exact_mod_cast (show 1 < n by omega)
      linarith
    have key : ∀ k : ℕ, k < n - 1 → 0 ≤ linspace 0 (2 * Real.pi) n k ∧ linspace 0 (2 * Real.pi) n k < 2 * Real.pi := by
      intro k hk
      simp only [linspace, if_neg (show n ≠ 1 by omega)]
      have hk' : (k : ℝ) < (n : ℝ) - 1 := by
        have : ((k + 1 : ℕ) : ℝ) < (n : ℝ) := by exact_mod_cast (show k + 1 < n by omega)
        push_cast at this
        linarith
      have hp := Real.pi_pos
      constructor
      · rw [zero_add, sub_zero]
        exact mul_nonneg (Nat.cast_nonneg k) (div_nonneg (by linarith) hpos.le)
      · rw [zero_add, sub_zero, mul_div_assoc', div_lt_iff₀ hpos]
        nlinarith
    have h1 : Real.cos (linspace 0 (2 * Real.pi) n i - linspace 0 (2 * Real.pi) n j) = 1 := by
      rw [Real.cos_sub, hs, hc, ← sq, ← sq, add_comm, Real.sin_sq_add_cos_sq]
    have hi' := key i hi
    have hj' := key j hj
    have := (Real.cos_eq_one_iff_of_lt_of_lt (by linarith) (by linarith)).1 h1
    apply hij
    have e : ((i.val : ℝ) - j.val) * (2 * Real.pi / ((n : ℝ) - 1)) = 0 := by
      rw [← this]
      simp only [linspace, if_neg (show n ≠ 1 by omega)]
      ring
    have hne : 2 * Real.pi / ((n : ℝ) - 1) ≠ 0 := by
      have hp := Real.pi_pos
      positivity
    have e2 := (mul_eq_zero.1 e).resolve_right hne
    have e3 : (i.val : ℝ) = (j.val : ℝ) := by linarith
    exact Fin.ext (by exact_mod_cast e3)

/-- non-vacuity of C37: a circle of 3 rays and diameter 2 has its rays at the top, at the bottom and again at the top -/
example : (((SourceKind.circle 2).generate 0.633 1 3).col 0).ray.o = point 0 0 1 ∧
    (((SourceKind.circle 2).generate 0.633 1 3).col 1).ray.o = point 0 0 (-1) ∧
    (((SourceKind.circle 2).generate 0.633 1 3).col 2).ray.o = point 0 0 1 := by
  have l1 : linspace 0 (2 * Real.pi) 3 1 = Real.pi := by simp [linspace]; ring
  have l2 : linspace 0 (2 * Real.pi) 3 2 = 2 * Real.pi := by simp [linspace]; ring
  refine ⟨?_, ?_, ?_⟩ <;> rw [circle_ray] <;> simp only [one_mulVec]
  · rw [show ((0 : Fin 3) : ℕ) = 0 from rfl, linspace_first]; simp
  · rw [show ((1 : Fin 3) : ℕ) = 1 from rfl, l1]; simp
  · rw [show ((2 : Fin 3) : ℕ) = 2 from rfl, l2]; simp

/-! ### C38, C62 -/

theorem sample_arg {m u : ℝ} (hu : 0 ≤ u) (hu1 : u ≤ 1) : Real.cos m ≤ 1 - u * (1 - Real.cos m) ∧ 1 - u * (1 - Real.cos m) ≤ 1 := by
  have h1 := Real.cos_le_one m
  constructor <;> nlinarith

theorem cos_sampleTheta {m u : ℝ} (hu : 0 ≤ u) (hu1 : u ≤ 1) : Real.cos (sampleTheta m u) = 1 - u * (1 - Real.cos m) := by
  have h := sample_arg (m := m) hu hu1
  exact Real.cos_arccos ((Real.neg_one_le_cos m).trans h.1) h.2

/-- **C38.** Whatever the draws in [0, 1), every ray of a lamp placed rigidly starts in the width x length rectangle of the lamp, is a
unit vector whose angle to the axis is at most the maximum angle, has the intensity 100 * cos of that angle and
the wavelength of the lamp. -/
theorem C38_lamp (p : LampParams) (h0 : 0 ≤ p.maxAngle) (h180 : p.maxAngle ≤ 180) (w : Mat4) (hw : Rigid w) {n : ℕ} (s : Samples n)
    (hs : ∀ j, (0 ≤ s.u j ∧ s.u j < 1) ∧ (0 ≤ s.v j ∧ s.v j < 1) ∧ (0 ≤ s.y j ∧ s.y j < 1) ∧ 0 ≤ s.z j ∧ s.z j < 1) :
    (p.generate w s).cols.length = n ∧
    ∀ j : Fin n,
      let c := (p.generate w s).col j
      (∃ y z, |y| ≤ |p.width| / 2 ∧ |z| ≤ |p.length| / 2 ∧ c.ray.o = w *ᵥ point 0 y z) ∧
      norm4 c.ray.d = 1 ∧ c.ray.d 3 = 0 ∧
      Real.arccos (dot4 c.ray.d (Spec.axis w)) ≤ p.maxAngle * Real.pi / 180 ∧
      c.intensity = 100 * dot4 c.ray.d (Spec.axis w) ∧ c.wavelength = p.wavelength := by
  refine ⟨by simp [RayTable.cols], fun j => ?_⟩
  intro c
  obtain ⟨⟨hu0, hu1⟩, -, ⟨hy0, hy1⟩, hz0, hz1⟩ := hs j
  set m := p.maxAngle * Real.pi / 180 with hm
  have hm0 : 0 ≤ m := by have := Real.pi_pos; positivity
  have hmpi : m ≤ Real.pi := by
    have := Real.pi_pos
    rw [hm, div_le_iff₀ (by norm_num)]
    nlinarith
  set θ := sampleTheta m (s.u j) with hθ
  set φ := samplePhi (s.v j)
  have hunit : norm4 (vector (Real.cos θ) (Real.sin θ * Real.cos φ) (Real.sin θ * Real.sin φ)) = 1 := by
    rw [norm4_eq_one]
    simp only [dot4, vector, cons_val_zero, cons_val_one, cons_val]
    linear_combination Real.sin_sq_add_cos_sq θ + Real.sin θ ^ 2 * Real.sin_sq_add_cos_sq φ
  have hc : c = freshCol ⟨w *ᵥ point 0 (p.width * (s.y j - 0.5)) (p.length * (s.z j - 0.5)),
      w *ᵥ vector (Real.cos θ) (Real.sin θ * Real.cos φ) (Real.sin θ * Real.sin φ)⟩ (100 * Real.cos θ) p.wavelength j := by
    show (placeRays w (p.localRays s)).col j = _
    rw [place_col, lamp_col]
    rw [freshCol, freshCol]
    simp only
    rw [rigid_normalize hw (by simp [vector]) hunit]
  have hdot : dot4 c.ray.d (Spec.axis w) = Real.cos θ := by
    rw [hc]
    show dot4 (w *ᵥ _) (w *ᵥ _) = _
    rw [rigid_dot hw (by simp [vector]) (by simp [vector])]
    simp [dot4, vector]
  refine ⟨⟨p.width * (s.y j - 0.5), p.length * (s.z j - 0.5), ?_, ?_, by rw [hc]; rfl⟩, ?_, ?_, ?_, ?_, by rw [hc]; rfl⟩
  · rw [abs_mul]
    have : |s.y j - 0.5| ≤ 1 / 2 := by rw [abs_le]; constructor <;> norm_num <;> linarith
    have h := mul_le_mul_of_nonneg_left this (abs_nonneg p.width)
    linarith
  · rw [abs_mul]
    have : |s.z j - 0.5| ≤ 1 / 2 := by rw [abs_le]; constructor <;> norm_num <;> linarith
    have h := mul_le_mul_of_nonneg_left this (abs_nonneg p.length)
    linarith
  · rw [hc]; show norm4 (w *ᵥ _) = 1
    rw [hw.2.2 _ (by simp [vector]), hunit]
  · rw [hc]; show (w *ᵥ _) 3 = 0
    rw [affine_three (rigid_affine hw)]; simp [vector]
  · rw [hdot]
    rw [hθ, cos_sampleTheta hu0 hu1.le]
    calc Real.arccos (1 - s.u j * (1 - Real.cos m)) ≤ Real.arccos (Real.cos m) :=
          Real.arccos_le_arccos (sample_arg hu0 hu1.le).1
      _ = m := Real.arccos_cos hm0 hmpi
  · rw [hdot, hc]; rfl

/-- **C62.** A lamp samples the cap of directions within its maximum angle uniformly by solid angle: for a draw `u` the polar angle
is at most θ₀ exactly if `u` is at most the area of the cap of θ₀ divided by the area of the whole cap (areas 2π(1 - cos)), and for a
draw `v` the azimuth is at most φ₀ exactly if v ≤ φ₀ / 2π. -/
theorem C62_uniform (m θ₀ u : ℝ) (hm : 0 < m) (hmpi : m ≤ Real.pi) (h0 : 0 ≤ θ₀) (hle : θ₀ ≤ m) (hu0 : 0 ≤ u) (hu1 : u < 1) :
    (sampleTheta m u ≤ θ₀ ↔ u ≤ (2 * Real.pi * (1 - Real.cos θ₀)) / (2 * Real.pi * (1 - Real.cos m))) ∧
    ∀ v φ₀ : ℝ, samplePhi v ≤ φ₀ ↔ v ≤ φ₀ / (2 * Real.pi) := by
  have hcos : Real.cos m < 1 := by
    have := Real.cos_lt_cos_of_nonneg_of_le_pi (le_refl 0) hmpi hm
    simpa using this
  have hp := Real.pi_pos
  have harg := sample_arg (m := m) hu0 hu1.le
  constructor
  · rw [mul_div_mul_left _ _ (by positivity), le_div_iff₀ (by linarith)]
    have hθ0 : θ₀ = Real.arccos (Real.cos θ₀) := (Real.arccos_cos h0 (hle.trans hmpi)).symm
    constructor
    · intro h
      have h2 := Real.cos_le_cos_of_nonneg_of_le_pi (Real.arccos_nonneg _) (hle.trans hmpi) h
      rw [Real.cos_arccos ((Real.neg_one_le_cos m).trans harg.1) harg.2] at h2
      linarith
    · intro h
      rw [hθ0]
      exact Real.arccos_le_arccos (by linarith)
  · intro v φ₀
    rw [samplePhi, le_div_iff₀ (by positivity)]

/-- **C62 (rays of a lamp).** Each ray of a rigidly placed lamp uses its own four draws, one for each quantity: the angle to
the axis is at most θ₀ exactly if the draw `u` is at most the share of the cap of θ₀ in the whole cap, the azimuth is 2π times
the draw `v`, and the draws `y` and `z` give the position in the rectangle. So independent uniform draws give directions uniform in
solid angle at positions uniform in the rectangle. -/
theorem C62_lamp (p : LampParams) (h0 : 0 < p.maxAngle) (h180 : p.maxAngle ≤ 180) (w : Mat4) (hw : Rigid w) {n : ℕ} (s : Samples n)
    (j : Fin n) (hu : 0 ≤ s.u j ∧ s.u j < 1) :
    let r := ((p.generate w s).col j).ray
    r.o = w *ᵥ point 0 (p.width * (s.y j - 1 / 2)) (p.length * (s.z j - 1 / 2)) ∧
    (∀ θ₀, 0 ≤ θ₀ → θ₀ ≤ p.maxAngle * Real.pi / 180 → (Real.arccos (dot4 r.d (Spec.axis w)) ≤ θ₀ ↔
      s.u j ≤ (2 * Real.pi * (1 - Real.cos θ₀)) / (2 * Real.pi * (1 - Real.cos (p.maxAngle * Real.pi / 180))))) ∧
    ∃ ρ : ℝ, 0 ≤ ρ ∧ r.d = dot4 r.d (Spec.axis w) • Spec.axis w +
      ρ • (w *ᵥ vector 0 (Real.cos (2 * Real.pi * s.v j)) (Real.sin (2 * Real.pi * s.v j))) := by
  intro r
  set m := p.maxAngle * Real.pi / 180 with hm
  have hm0 : 0 < m := by have := Real.pi_pos; positivity
  have hmpi : m ≤ Real.pi := by
    have := Real.pi_pos
    rw [hm, div_le_iff₀ (by norm_num)]
    nlinarith
  set θ := sampleTheta m (s.u j) with hθ
  set φ := samplePhi (s.v j) with hφ
  have hφ' : φ = 2 * Real.pi * s.v j := by rw [hφ, samplePhi]; ring
  have hunit : norm4 (vector (Real.cos θ) (Real.sin θ * Real.cos φ) (Real.sin θ * Real.sin φ)) = 1 := by
    rw [norm4_eq_one]
    simp only [dot4, vector, cons_val_zero, cons_val_one, cons_val]
    linear_combination Real.sin_sq_add_cos_sq θ + Real.sin θ ^ 2 * Real.sin_sq_add_cos_sq φ
  have hr : r = ⟨w *ᵥ point 0 (p.width * (s.y j - 0.5)) (p.length * (s.z j - 0.5)),
      w *ᵥ vector (Real.cos θ) (Real.sin θ * Real.cos φ) (Real.sin θ * Real.sin φ)⟩ := by
    show ((placeRays w (p.localRays s)).col j).ray = _
    rw [place_col, lamp_col]
    simp only [freshCol]
    rw [rigid_normalize hw (by simp [vector]) hunit]
  have hdot : dot4 r.d (Spec.axis w) = Real.cos θ := by
    rw [hr]
    show dot4 (w *ᵥ _) (w *ᵥ _) = _
    rw [rigid_dot hw (by simp [vector]) (by simp [vector])]
    simp [dot4, vector]
  have harg := sample_arg (m := m) hu.1 hu.2.le
  have hθ0 : 0 ≤ θ := Real.arccos_nonneg _
  have hθpi : θ ≤ Real.pi := Real.arccos_le_pi _
  refine ⟨?_, fun θ₀ h1 h2 => ?_, Real.sin θ, Real.sin_nonneg_of_nonneg_of_le_pi hθ0 hθpi, ?_⟩
  · rw [hr]
    norm_num
  · rw [hdot, Real.arccos_cos hθ0 hθpi]
    exact (C62_uniform m θ₀ (s.u j) hm0 hmpi h1 h2 hu.1 hu.2).1
  · rw [hdot, ← hφ', hr, Spec.axis, ← mulVec_smul, ← mulVec_smul, ← mulVec_add]
    congr 1
    funext i; fin_cases i <;> simp [vector]

/-- non-vacuity of C38 and C62: a hemispherical lamp, all draws 1/2: the ray leaves at 60 degrees with intensity 50 -/
example : ((LampParams.mk 2 4 90 0.5).generate 1 (n := 1) ⟨fun _ => 1 / 2, fun _ => 1 / 2, fun _ => 1 / 2, fun _ => 0⟩).col 0 =
    freshCol ⟨point 0 0 (-2), vector (1 / 2) (-Real.sin (Real.arccos (1 / 2))) 0⟩ 50 0.5 0 := by
  have hθ : sampleTheta (90 * Real.pi / 180) (1 / 2) = Real.arccos (1 / 2) := by
    rw [sampleTheta, show 90 * Real.pi / 180 = Real.pi / 2 by ring, Real.cos_pi_div_two]; norm_num
  have hφ : samplePhi (1 / 2) = Real.pi := by rw [samplePhi]; ring
  have hc : Real.cos (Real.arccos (1 / 2)) = 1 / 2 := Real.cos_arccos (by norm_num) (by norm_num)
  have hsc := Real.sin_sq_add_cos_sq (Real.arccos (1 / 2))
  have hn : norm4 (vector (1 / 2) (-Real.sin (Real.arccos (1 / 2))) 0) = 1 := by
    rw [norm4_eq_one]
    simp only [dot4, vector, cons_val_zero, cons_val_one, cons_val]
    rw [hc] at hsc
    linear_combination hsc
  show (placeRays 1 _).col 0 = _
  rw [place_col, lamp_col]
  simp only [hθ, hφ, hc, Real.cos_pi, Real.sin_pi, freshCol, one_mulVec]
  rw [show (vector (1 / 2) (Real.sin (Real.arccos (1 / 2)) * -1) (Real.sin (Real.arccos (1 / 2)) * 0)) =
    vector (1 / 2) (-Real.sin (Real.arccos (1 / 2))) 0 by simp]
  congr 1
  · congr 1
    · norm_num
    · funext i; rw [normalize, hn, div_one]
  · norm_num

end PyRayT
