import Verif.Model.Sources
import Verif.Props.RaySet
import Verif.Proofs.Placed
import Mathlib.Analysis.SpecialFunctions.Trigonometric.Inverse

/-! The columns of the ray sets the sources generate. -/

namespace PyRayT

open Classical Matrix Spec

theorem col_fields {n : ℕ} (t : RayTable n) (j : Fin n) :
    t.col j = { ray := ⟨fun r => (fieldsOf t).rays 0 r j, fun r => (fieldsOf t).rays 1 r j⟩
                generation := (fieldsOf t).generation j, intensity := (fieldsOf t).intensity j
                wavelength := (fieldsOf t).wavelength j, index := (fieldsOf t).index j
                id := (fieldsOf t).id j } := rfl

theorem new_fields (n : ℕ) : fieldsOf (RayTable.new n) =
      { rays := fun k r _ => if k = 0 ∧ r = 3 then 1 else 0
        generation := fun _ => 0, intensity := fun _ => 100, wavelength := fun _ => 0.633, index := fun _ => 1
        id := fun j => (j.val : ℝ) } := (C59_fields (n := n)).2.2.1

/-- a default column but for ray, intensity, wavelength -/
noncomputable def freshCol (r : Ray) (intensity wavelength : ℝ) (j : ℕ) : Col :=
  { ray := r, generation := 0, intensity := intensity, wavelength := wavelength, index := 1, id := (j : ℝ) }

theorem ray_eq {o d : Vec4} {o' d' : Vec4} (h0 : o 0 = o' 0) (h1 : o 1 = o' 1) (h2 : o 2 = o' 2) (h3 : o 3 = o' 3)
    (e0 : d 0 = d' 0) (e1 : d 1 = d' 1) (e2 : d 2 = d' 2) (e3 : d 3 = d' 3) : (⟨o, d⟩ : Ray) = ⟨o', d'⟩ := by
  have : o = o' := by funext i; fin_cases i <;> assumption
  have : d = d' := by funext i; fin_cases i <;> assumption
  simp [*]

theorem line_col (s wl : ℝ) {n : ℕ} (j : Fin n) : ((SourceKind.line s).localRays wl n).col j =
    freshCol ⟨point 0 (if 1 < n then linspace (-s / 2) (s / 2) n j else 0) 0, vector 1 0 0⟩ 100 wl j := by
  rw [col_fields]
  unfold SourceKind.localRays freshCol
  simp only
  by_cases hn : 1 < n
  · simp only [if_pos hn, write_fields, new_fields, RayFields.assign]
    congr 1
    refine ray_eq ?_ ?_ ?_ ?_ ?_ ?_ ?_ ?_ <;> simp [point, vector]
  · simp only [if_neg hn, write_fields, new_fields, RayFields.assign]
    congr 1
    refine ray_eq ?_ ?_ ?_ ?_ ?_ ?_ ?_ ?_ <;> simp [point, vector]

theorem circle_col (d wl : ℝ) {n : ℕ} (j : Fin n) : ((SourceKind.circle d).localRays wl n).col j =
    freshCol ⟨point 0 (d / 2 * Real.sin (linspace 0 (2 * Real.pi) n j)) (d / 2 * Real.cos (linspace 0 (2 * Real.pi) n j)),
      vector 1 0 0⟩ 100 wl j := by
  rw [col_fields]
  unfold SourceKind.localRays freshCol
  simp only [write_fields, new_fields, RayFields.assign]
  congr 1
  refine ray_eq ?_ ?_ ?_ ?_ ?_ ?_ ?_ ?_ <;> simp [point, vector]

theorem cone_col (a wl : ℝ) {n : ℕ} (hn : 1 < n) (j : Fin n) : ((SourceKind.cone a).localRays wl n).col j =
    freshCol ⟨point 0 0 0, vector (Real.cos (a * Real.pi / 180))
      (Real.sin (a * Real.pi / 180) * Real.sin (2 * Real.pi * (j.val : ℝ) / (n : ℝ)))
      (Real.sin (a * Real.pi / 180) * Real.cos (2 * Real.pi * (j.val : ℝ) / (n : ℝ)))⟩ 100 wl j := by
  rw [col_fields]
  unfold SourceKind.localRays freshCol
  simp only [if_pos hn, write_fields, new_fields, RayFields.assign]
  congr 1
  refine ray_eq ?_ ?_ ?_ ?_ ?_ ?_ ?_ ?_ <;> simp [point, vector]

theorem cone_col_one (a wl : ℝ) (j : Fin 1) : ((SourceKind.cone a).localRays wl 1).col j =
    freshCol ⟨point 0 0 0, vector (Real.cos (a * Real.pi / 180)) 0 0⟩ 100 wl j := by
  rw [col_fields]
  unfold SourceKind.localRays freshCol
  simp only [if_neg (lt_irrefl 1), write_fields, new_fields, RayFields.assign]
  congr 1
  refine ray_eq ?_ ?_ ?_ ?_ ?_ ?_ ?_ ?_ <;> simp [point, vector]

theorem wedge_col (a wl : ℝ) {n : ℕ} (j : Fin n) : ((SourceKind.wedge a).localRays wl n).col j =
    freshCol ⟨point 0 0 0, vector (Real.cos (linspace (-(a * Real.pi / 180) / 2) (a * Real.pi / 180 / 2) n j))
      (Real.sin (linspace (-(a * Real.pi / 180) / 2) (a * Real.pi / 180 / 2) n j)) 0⟩ 100 wl j := by
  rw [col_fields]
  unfold SourceKind.localRays freshCol
  simp only [write_fields, new_fields, RayFields.assign]
  congr 1
  refine ray_eq ?_ ?_ ?_ ?_ ?_ ?_ ?_ ?_ <;> simp [point, vector]

theorem lamp_col (p : LampParams) {n : ℕ} (s : Samples n) (j : Fin n) : (p.localRays s).col j =
    freshCol ⟨point 0 (p.width * (s.y j - 0.5)) (p.length * (s.z j - 0.5)),
      vector (Real.cos (sampleTheta (p.maxAngle * Real.pi / 180) (s.u j)))
        (Real.sin (sampleTheta (p.maxAngle * Real.pi / 180) (s.u j)) * Real.cos (samplePhi (s.v j)))
        (Real.sin (sampleTheta (p.maxAngle * Real.pi / 180) (s.u j)) * Real.sin (samplePhi (s.v j)))⟩
      (100 * Real.cos (sampleTheta (p.maxAngle * Real.pi / 180) (s.u j))) p.wavelength j := by
  rw [col_fields]
  unfold LampParams.localRays freshCol
  simp only [write_fields, new_fields, RayFields.assign]
  congr 1
  · refine ray_eq ?_ ?_ ?_ ?_ ?_ ?_ ?_ ?_ <;> simp [point, vector]
  · norm_num

theorem place_col {n : ℕ} (w : Mat4) (t : RayTable n) (j : Fin n) : (placeRays w t).col j =
    { t.col j with ray := ⟨w *ᵥ (t.col j).ray.o, normalize (w *ᵥ (t.col j).ray.d)⟩ } := by
  rw [col_fields, col_fields]
  unfold placeRays
  simp only [write_fields, RayFields.assign]
  congr 1
  have h : ∀ k r j, (t.write (.rays fun k r j => (w *ᵥ fun s => t.rays k s j) r)).rays k r j = (w *ᵥ fun s => t.rays k s j) r := by
    intro k r j
    exact congrFun (congrFun (congrFun (congrArg RayFields.rays (write_fields t (.rays fun k r j => (w *ᵥ fun s => t.rays k s j) r))) k) r) j
  simp only [h]
  rfl

/-- the direction of a non-degenerate ray stays non-zero -/
theorem affine_dir_pos {w : Mat4} (hw : Affine w) {v : Vec4} (hv : v ≠ 0) : 0 < norm4 (w *ᵥ v) := by
  refine norm4_pos fun h => hv ?_
  have hu : IsUnit w.det := isUnit_iff_ne_zero.2 hw.2
  have := congrArg (fun x => w⁻¹ *ᵥ x) h
  simpa [mulVec_mulVec, nonsing_inv_mul _ hu] using this

theorem rigid_normalize {w : Mat4} (hw : Rigid w) {v : Vec4} (h3 : v 3 = 0) (h1 : norm4 v = 1) : normalize (w *ᵥ v) = w *ᵥ v := by
  funext i
  rw [normalize, hw.2.2 v h3, h1, div_one]

theorem rigid_dot {w : Mat4} (hw : Rigid w) {u v : Vec4} (hu : u 3 = 0) (hv : v 3 = 0) : dot4 (w *ᵥ u) (w *ᵥ v) = dot4 u v := by
  have h : ∀ x : Vec4, x 3 = 0 → dot4 (w *ᵥ x) (w *ᵥ x) = dot4 x x := by
    intro x hx; rw [← norm4_sq, ← norm4_sq, hw.2.2 x hx]
  have e : ∀ x y : Vec4, dot4 (x + y) (x + y) = dot4 x x + 2 * dot4 x y + dot4 y y := by
    intro x y; simp only [dot4, Pi.add_apply]; ring
  have h2 := h (u + v) (by simp [hu, hv])
  rw [mulVec_add, e, e, h u hu, h v hv] at h2
  linarith

theorem linspace_step {a b : ℝ} {n : ℕ} (hn : 1 < n) (j : ℕ) : linspace a b n (j + 1) - linspace a b n j = (b - a) / ((n : ℝ) - 1) := by
  simp only [linspace, if_neg hn.ne']
  push_cast
  ring

theorem linspace_first (a b : ℝ) (n : ℕ) : linspace a b n 0 = a := by
  simp [linspace]

theorem linspace_last {a b : ℝ} {n : ℕ} (hn : 1 < n) : linspace a b n (n - 1) = b := by
  have : (n : ℝ) - 1 ≠ 0 := by
    have : (1 : ℝ) < n := by exact_mod_cast hn
    linarith
  simp only [linspace, if_neg hn.ne']
  rw [Nat.cast_sub hn.le]
  push_cast
  field_simp
  ring

end PyRayT
