import Verif.Model.RaySet
import Mathlib.Tactic.FinCases

/-!
# Property C59: `RaySet`
-/

namespace PyRayT

namespace Spec

/-- a ray set as six independent fields -/
@[ext] structure RayFields (n : ℕ) where
  rays : Fin 2 → Fin 4 → Fin n → ℝ
  generation : Fin n → ℝ
  intensity : Fin n → ℝ
  wavelength : Fin n → ℝ
  index : Fin n → ℝ
  id : Fin n → ℝ

/-- what an assignment should do -/
def RayFields.assign {n : ℕ} (f : RayFields n) : RayWrite n → RayFields n
  | .rays u => { f with rays := u }
  | .ray k r v => { f with rays := fun k' r' => if k' = k ∧ r' = r then v else f.rays k' r' }
  | .metadata u => { rays := f.rays, generation := u 0, intensity := u 1, wavelength := u 2, index := u 3, id := u 4 }
  | .generation v => { f with generation := v }
  | .intensity v => { f with intensity := v }
  | .wavelength v => { f with wavelength := v }
  | .index v => { f with index := v }
  | .id v => { f with id := v }

/-- what is read from a table -/
def fieldsOf {n : ℕ} (t : RayTable n) : RayFields n :=
  ⟨t.rays, t.generation, t.intensity, t.wavelength, t.index, t.id⟩

end Spec

open Spec

theorem write_fields {n : ℕ} (t : RayTable n) (w : RayWrite n) : fieldsOf (t.write w) = (fieldsOf t).assign w := by
  cases w with
  | rays u =>
    refine RayFields.ext ?_ rfl rfl rfl rfl rfl
    funext k r
    show t.setRays u ⟨4 * k + r, _⟩ = u k r
    have h1 : ((4 * k.val + r.val) / 4) = k := by omega
    have h2 : ((4 * k.val + r.val) % 4) = r := by omega
    unfold RayTable.setRays
    rw [dif_pos (show 4 * k.val + r.val < 8 by omega)]
    congr 1
    · congr 1
    · exact Fin.ext h2
  | ray k r v =>
    refine RayFields.ext ?_ ?_ ?_ ?_ ?_ ?_
    · funext k' r'
      show (if (4 * k'.val + r'.val) = 4 * k.val + r.val then v else t _) = if k' = k ∧ r' = r then v else t.rays k' r'
      by_cases h : k' = k ∧ r' = r
      · rw [if_pos h, if_pos (by rw [h.1, h.2])]
      · rw [if_neg h, if_neg (fun e => h ⟨Fin.ext (by omega), Fin.ext (by omega)⟩)]
        rfl
    all_goals
      show (if _ = 4 * k.val + r.val then v else t _) = t _
      rw [if_neg (by simp; omega)]
  | metadata u =>
    refine RayFields.ext ?_ rfl rfl rfl rfl rfl
    funext k r
    show t.setMetadata u ⟨4 * k + r, _⟩ = t ⟨4 * k + r, _⟩
    unfold RayTable.setMetadata
    rw [dif_neg (show ¬ 8 ≤ 4 * k.val + r.val by omega)]
  | generation v | intensity v | wavelength v | index v | id v =>
    refine RayFields.ext ?_ rfl rfl rfl rfl rfl
    funext k r
    show (if (4 * k.val + r.val) = _ then v else t _) = t ⟨4 * k + r, _⟩
    rw [if_neg (by simp; omega)]

/-- **C59.** After any sequence of assignments, every field reads as in a record of six independent fields (in which an assignment
changes the assigned field only); a table is determined by its fields; `RaySet(n)` has the documented defaults. -/
theorem C59_fields {n : ℕ} :
    (∀ (t : RayTable n) (ws : List (RayWrite n)),
      fieldsOf (ws.foldl RayTable.write t) = ws.foldl RayFields.assign (fieldsOf t)) ∧
    (∀ t t' : RayTable n, fieldsOf t = fieldsOf t' → t = t') ∧
    fieldsOf (RayTable.new n) =
      { rays := fun k r _ => if k = 0 ∧ r = 3 then 1 else 0
        generation := fun _ => 0, intensity := fun _ => 100, wavelength := fun _ => 0.633, index := fun _ => 1
        id := fun j => (j.val : ℝ) } ∧
    (RayTable.new n).nRays = n := by
  refine ⟨fun t ws => ?_, fun t t' h => ?_, ?_, rfl⟩
  · induction ws generalizing t with
    | nil => rfl
    | cons w ws ih => rw [List.foldl_cons, List.foldl_cons, ih, write_fields]
  · have hr : t.rays = t'.rays := congrArg RayFields.rays h
    have h8 : t 8 = t' 8 := congrArg RayFields.generation h
    have h9 : t 9 = t' 9 := congrArg RayFields.intensity h
    have h10 : t 10 = t' 10 := congrArg RayFields.wavelength h
    have h11 : t 11 = t' 11 := congrArg RayFields.index h
    have h12 : t 12 = t' 12 := congrArg RayFields.id h
    funext i
    by_cases hi : i.val < 8
    · have := congrFun (congrFun hr ⟨i.val / 4, by omega⟩) ⟨i.val % 4, by omega⟩
      have e : (⟨4 * (i.val / 4) + i.val % 4, by omega⟩ : Fin 13) = i := Fin.ext (Nat.div_add_mod i.val 4)
      have e1 : t.rays ⟨i.val / 4, by omega⟩ ⟨i.val % 4, by omega⟩ = t i := congrArg t e
      have e2 : t'.rays ⟨i.val / 4, by omega⟩ ⟨i.val % 4, by omega⟩ = t' i := congrArg t' e
      rw [e1, e2] at this
      exact this
    · have : i = 8 ∨ i = 9 ∨ i = 10 ∨ i = 11 ∨ i = 12 := by
        rcases i with ⟨i, hlt⟩
        simp only [Fin.ext_iff] at hi ⊢
        show i = 8 ∨ i = 9 ∨ i = 10 ∨ i = 11 ∨ i = 12
        omega
      rcases this with rfl | rfl | rfl | rfl | rfl
      · exact h8
      · exact h9
      · exact h10
      · exact h11
      · exact h12
  · unfold RayTable.new
    simp only [write_fields]
    rfl

/-- the tracer model works on columns: an assignment to a field is the assignment to this field of every column -/
theorem C59_columns {n : ℕ} (t : RayTable n) (j : Fin n) (v : Fin n → ℝ) (u : Fin 2 → Fin 4 → Fin n → ℝ) :
    (t.write (.rays u)).col j = { t.col j with ray := ⟨fun r => u 0 r j, fun r => u 1 r j⟩ } ∧
    (t.write (.generation v)).col j = { t.col j with generation := v j } ∧
    (t.write (.intensity v)).col j = { t.col j with intensity := v j } ∧
    (t.write (.wavelength v)).col j = { t.col j with wavelength := v j } ∧
    (t.write (.index v)).col j = { t.col j with index := v j } ∧
    (t.write (.id v)).col j = { t.col j with id := v j } := by
  have hcol : ∀ t : RayTable n, t.col j = { ray := ⟨fun r => (fieldsOf t).rays 0 r j, fun r => (fieldsOf t).rays 1 r j⟩
                                            generation := (fieldsOf t).generation j, intensity := (fieldsOf t).intensity j
                                            wavelength := (fieldsOf t).wavelength j, index := (fieldsOf t).index j
                                            id := (fieldsOf t).id j } := fun _ => rfl
  refine ⟨?_, ?_, ?_, ?_, ?_, ?_⟩ <;> rw [hcol, write_fields] <;> rfl

/-- non-vacuity of C59: two writes to different fields of a new set of two rays -/
example : let t := [RayWrite.intensity fun _ => 7, RayWrite.id fun j => (j.val : ℝ) + 5].foldl RayTable.write (RayTable.new 2)
    t.intensity 0 = 7 ∧ t.id 1 = 6 ∧ t.wavelength 0 = 0.633 := by
  intro t
  have h := (C59_fields (n := 2)).1 (RayTable.new 2) [RayWrite.intensity fun _ => 7, RayWrite.id fun j => (j.val : ℝ) + 5]
  rw [(C59_fields (n := 2)).2.2.1] at h
  have hi := congrFun (congrArg RayFields.intensity h) 0
  have hd := congrFun (congrArg RayFields.id h) 1
  have hw := congrFun (congrArg RayFields.wavelength h) 0
  refine ⟨hi, hd.trans ?_, hw⟩
  show ((1 : ℕ) : ℝ) + 5 = 6
  norm_num

end PyRayT
