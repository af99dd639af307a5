import Verif.Model.Tracer

/-!
# Model of the table behind a `RaySet` (`pyrayt/_pyrayt.py` lines 13-144)

`Model/Tracer.lean` represents a `RaySet` by its columns; here is the 13 x n array itself with the views and setters of the class.
-/

namespace PyRayT

/-- line 21-23: an array of 8 + 5 rows and n columns -/
abbrev RayTable (n : ℕ) := Fin 13 → Fin n → ℝ

/-- lines 66-75, getter `rays`: `self[:8].reshape((2, 4, -1))` (row major) -/
def RayTable.rays {n : ℕ} (t : RayTable n) (k : Fin 2) (r : Fin 4) : Fin n → ℝ := t ⟨4 * k + r, by omega⟩

/-- lines 77-79, setter `rays`: `self[:8] = update.reshape(8, -1)` -/
def RayTable.setRays {n : ℕ} (t : RayTable n) (u : Fin 2 → Fin 4 → Fin n → ℝ) : RayTable n := fun i =>
  if h : i.val < 8 then u ⟨i.val / 4, by omega⟩ ⟨i.val % 4, by omega⟩ else t i

/-- An assignment to one row of the view `rays`, `rayset.rays[k, r] = values` (as the sources do); the view is of the
same memory. -/
def RayTable.setRay {n : ℕ} (t : RayTable n) (k : Fin 2) (r : Fin 4) (v : Fin n → ℝ) : RayTable n := fun i =>
  if i.val = 4 * k.val + r.val then v else t i

/-- lines 54-60, getter `metadata`: `self[8:]` -/
def RayTable.metadata {n : ℕ} (t : RayTable n) (k : Fin 5) : Fin n → ℝ := t ⟨8 + k, by omega⟩

/-- lines 62-64, setter `metadata` -/
def RayTable.setMetadata {n : ℕ} (t : RayTable n) (u : Fin 5 → Fin n → ℝ) : RayTable n := fun i =>
  if h : 8 ≤ i.val then u ⟨i.val - 8, by omega⟩ else t i

/-- `self.metadata[k] = update` (the setters of lines 90-144 write to a row of the view `metadata`) -/
def RayTable.setMeta {n : ℕ} (t : RayTable n) (k : Fin 5) (v : Fin n → ℝ) : RayTable n := fun i =>
  if i.val = 8 + k.val then v else t i

/-- lines 81-92 -/
def RayTable.generation {n : ℕ} (t : RayTable n) : Fin n → ℝ := t.metadata 0
/-- lines 94-105 -/
def RayTable.intensity {n : ℕ} (t : RayTable n) : Fin n → ℝ := t.metadata 1
/-- lines 107-118 -/
def RayTable.wavelength {n : ℕ} (t : RayTable n) : Fin n → ℝ := t.metadata 2
/-- lines 120-131 -/
def RayTable.index {n : ℕ} (t : RayTable n) : Fin n → ℝ := t.metadata 3
/-- lines 133-144 -/
def RayTable.id {n : ℕ} (t : RayTable n) : Fin n → ℝ := t.metadata 4

/-- The assignments to attributes of a ray set (lines 62-144). A scalar is broadcast: a constant function. -/
inductive RayWrite (n : ℕ) where
  | rays (u : Fin 2 → Fin 4 → Fin n → ℝ)
  | ray (k : Fin 2) (r : Fin 4) (v : Fin n → ℝ)
  | metadata (u : Fin 5 → Fin n → ℝ)
  | generation (v : Fin n → ℝ)
  | intensity (v : Fin n → ℝ)
  | wavelength (v : Fin n → ℝ)
  | index (v : Fin n → ℝ)
  | id (v : Fin n → ℝ)

/-- lines 62-144 -/
def RayTable.write {n : ℕ} (t : RayTable n) : RayWrite n → RayTable n
  | .rays u => t.setRays u
  | .ray k r v => t.setRay k r v
  | .metadata u => t.setMetadata u
  | .generation v => t.setMeta 0 v
  | .intensity v => t.setMeta 1 v
  | .wavelength v => t.setMeta 2 v
  | .index v => t.setMeta 3 v
  | .id v => t.setMeta 4 v

/-- `primitives.py` lines 18-28 `bundle_of_rays` -/
def bundleOfRays (n : ℕ) : Fin 2 → Fin 4 → Fin n → ℝ := fun k r _ => if k = 0 ∧ r = 3 then 1 else 0

/-- lines 21-45: `RaySet(n)` -/
noncomputable def RayTable.new (n : ℕ) : RayTable n :=
  (((((RayTable.write (fun _ _ => 0) (.rays (bundleOfRays n))).write (.wavelength fun _ => 0.633)).write (.index fun _ => 1)).write
    (.generation fun _ => 0)).write (.intensity fun _ => 100)).write (.id fun j => (j.val : ℝ))

/-- lines 47-52 `n_rays`: the last extent of the shape of the rays view -/
def RayTable.nRays {n : ℕ} (_ : RayTable n) : ℕ := n

/-- one column of the table, as the tracer model has it -/
def RayTable.col {n : ℕ} (t : RayTable n) (j : Fin n) : Col :=
  { ray := ⟨fun r => t.rays 0 r j, fun r => t.rays 1 r j⟩
    generation := t.generation j
    intensity := t.intensity j
    wavelength := t.wavelength j
    index := t.index j
    id := t.id j }

end PyRayT
