import Verif.Proofs.Bundles2

/-!
# The array code, column by column: materials and the tracer
-/

namespace PyRayT

open Classical Matrix

section
variable {n : ℕ}

theorem Col.eq_of {a b : Col} (h1 : a.ray = b.ray) (h2 : a.generation = b.generation) (h3 : a.intensity = b.intensity) (h4 : a.wavelength = b.wavelength) (h5 : a.index = b.index)
    (h6 : a.id = b.id) : a = b := by
  cases a
  cases b
  simp_all

theorem rays_setPart (t : RayTable n) (k k' : Fin 2) (v : Tab ℝ 4 n) : (t.setPart k v).rays k' = if k' = k then v else t.rays k' := by
  funext r
  have h8 : 4 * k'.val + r.val < 8 := by omega
  have h1 : (4 * k'.val + r.val) / 4 = k'.val := by omega
  have h2 : (4 * k'.val + r.val) % 4 = r.val := by omega
  simp only [RayTable.setPart, RayTable.setRays, RayTable.rays, dif_pos h8, h1, h2]

theorem metadata_setPart (t : RayTable n) (k : Fin 2) (v : Tab ℝ 4 n) (m : Fin 5) : (t.setPart k v).metadata m = t.metadata m := by
  have h8 : ¬ (8 + m.val < 8) := by omega
  simp only [RayTable.setPart, RayTable.setRays, RayTable.metadata, dif_neg h8]

theorem col_setOrigin (t : RayTable n) (v : Tab ℝ 4 n) (j : Fin n) : (t.setPart 0 v).col j = { t.col j with ray := ⟨fun i => v i j, (t.col j).ray.d⟩ } := by
  refine Col.eq_of ?_ ?_ ?_ ?_ ?_ ?_
  · simp only [RayTable.col, rays_setPart]
    rfl
  · exact congrFun (metadata_setPart t 0 v 0) j
  · exact congrFun (metadata_setPart t 0 v 1) j
  · exact congrFun (metadata_setPart t 0 v 2) j
  · exact congrFun (metadata_setPart t 0 v 3) j
  · exact congrFun (metadata_setPart t 0 v 4) j

theorem col_setDirection (t : RayTable n) (v : Tab ℝ 4 n) (j : Fin n) : (t.setPart 1 v).col j = { t.col j with ray := ⟨(t.col j).ray.o, fun i => v i j⟩ } := by
  refine Col.eq_of ?_ ?_ ?_ ?_ ?_ ?_
  · simp only [RayTable.col, rays_setPart]
    rfl
  · exact congrFun (metadata_setPart t 1 v 0) j
  · exact congrFun (metadata_setPart t 1 v 1) j
  · exact congrFun (metadata_setPart t 1 v 2) j
  · exact congrFun (metadata_setPart t 1 v 3) j
  · exact congrFun (metadata_setPart t 1 v 4) j

theorem rays_setMeta (t : RayTable n) (m : Fin 5) (v : Fin n → ℝ) : (t.setMeta m v).rays = t.rays := by
  funext k r
  have h : ¬ (4 * k.val + r.val = 8 + m.val) := by omega
  simp only [RayTable.setMeta, RayTable.rays, if_neg h]

theorem metadata_setMeta (t : RayTable n) (m m' : Fin 5) (v : Fin n → ℝ) : (t.setMeta m v).metadata m' = if m' = m then v else t.metadata m' := by
  simp only [RayTable.setMeta, RayTable.metadata, Nat.add_left_cancel_iff, Fin.val_inj]

theorem col_setIndex (t : RayTable n) (v : Fin n → ℝ) (j : Fin n) : (t.write (.index v)).col j = { t.col j with index := v j } := by
  refine Col.eq_of ?_ ?_ ?_ ?_ ?_ ?_
  · simp only [RayTable.col, RayTable.write, rays_setMeta]
  all_goals simp [RayTable.col, RayTable.write, RayTable.generation, RayTable.intensity, RayTable.wavelength, RayTable.index, RayTable.id, metadata_setMeta]

theorem col_setGeneration (t : RayTable n) (v : Fin n → ℝ) (j : Fin n) : (t.write (.generation v)).col j = { t.col j with generation := v j } := by
  refine Col.eq_of ?_ ?_ ?_ ?_ ?_ ?_
  · simp only [RayTable.col, RayTable.write, rays_setMeta]
  all_goals simp [RayTable.col, RayTable.write, RayTable.generation, RayTable.intensity, RayTable.wavelength, RayTable.index, RayTable.id, metadata_setMeta]

theorem col_setId (t : RayTable n) (v : Fin n → ℝ) (j : Fin n) : (t.write (.id v)).col j = { t.col j with id := v j } := by
  refine Col.eq_of ?_ ?_ ?_ ?_ ?_ ?_
  · simp only [RayTable.col, RayTable.write, rays_setMeta]
  all_goals simp [RayTable.col, RayTable.write, RayTable.generation, RayTable.intensity, RayTable.wavelength, RayTable.index, RayTable.id, metadata_setMeta]

theorem col_scatter_in {mask : Fin n → Prop} {j : Fin n} (h : mask j) (t : RayTable n) (v : RayTable (picked mask).length) :
    RayTable.col (scatter mask t v) j = v.col (place mask j h) := by
  simp only [RayTable.col, RayTable.rays, RayTable.generation, RayTable.intensity, RayTable.wavelength, RayTable.index, RayTable.id, RayTable.metadata, scatter_in h]

theorem col_scatter_out {mask : Fin n → Prop} {j : Fin n} (h : ¬ mask j) (t : RayTable n) (v : RayTable (picked mask).length) :
    RayTable.col (scatter mask t v) j = t.col j := by
  simp only [RayTable.col, RayTable.rays, RayTable.generation, RayTable.intensity, RayTable.wavelength, RayTable.index, RayTable.id, RayTable.metadata, scatter_out h]

theorem col_compress (mask : Fin n → Prop) (t : RayTable n) (p : Fin (picked mask).length) : RayTable.col (compress mask t) p = t.col ((picked mask).get p) := rfl

theorem indexAtA_col (m : IndexModel) (w : Fin n → ℝ) (j : Fin n) : m.indexAtA w j = m.indexAt (w j) := by
  cases m <;> simp [IndexModel.indexAtA, IndexModel.indexAt, npFull]

theorem traceA_col (normalsAt : Tab ℝ 4 n → Tab ℝ 4 n) (normalAt : Vec4 → Vec4) (hn : ∀ pos j, (fun i => normalsAt pos i j) = normalAt fun i => pos i j) (m : Material)
    (t : RayTable n) (j : Fin n) : (m.traceA normalsAt t).col j = m.trace normalAt (t.col j) := by
  cases m with
  | absorber =>
    simp only [Material.traceA, col_setDirection, Material.trace]
    rfl
  | mirror =>
    simp only [Material.traceA, col_setDirection, Material.trace, reflectA_col]
    have hi : ∀ i, normalsAt (t.rays 0) i j = normalAt (fun i => t.rays 0 i j) i := fun i => congrFun (hn _ j) i
    simp only [hi]
    rfl
  | glass m =>
    have hr := refractA_col (t.rays 1) (normalsAt (t.rays 0)) t.index (m.indexAtA t.wavelength) 1 j
    rw [hn, indexAtA_col] at hr
    obtain ⟨h1, h2⟩ := Prod.ext_iff.1 hr
    simp only [Material.traceA, col_setIndex, col_setDirection, Material.trace]
    simp only at h1 h2
    rw [h1, h2]
    rfl

/-- the arrays of a component are the columns of a component -/
def ComponentA.Refines (ca : ComponentA) (c : Component) : Prop :=
  (∀ {n : ℕ} (rays : Rays n) (j : Fin n), (colList (ca.intersect rays).hits j, colList (ca.intersect rays).surfaces j) = c.intersect (rays.col j)) ∧
  List.Forall₂ (fun ea e => ea.1 = e.1 ∧ ∀ {n : ℕ} (t : RayTable n) (j : Fin n), (ea.2 t).col j = e.2 (t.col j)) ca.surfaces c.surfaces

theorem componentA_refines {argsort : List EReal → List ℕ} (ha : IsArgsort argsort) (junk : ∀ n, Tab EReal 2 (2 * n)) (depth : ℕ) (s : Scene) (a : ℕ) :
    (s.componentA argsort junk depth a).Refines (s.component argsort depth a) := by
  refine ⟨fun rays j => intersectA_col_obj ha junk s.heap depth a rays j, ?_⟩
  simp only [Scene.componentA, Scene.component]
  rw [List.forall₂_map_left_iff, List.forall₂_map_right_iff]
  exact List.forall₂_same.2 fun e _ => ⟨rfl, fun t j => traceA_col _ _ (fun pos j => surfaceNormalsA_col _ _ _ _) _ t j⟩

theorem takeRow_apply {α : Type*} {r : ℕ} (d : α) (a : Tab α r n) (index : Fin n → ℕ) (j : Fin n) : takeRow d a index j = (colList a j).getD (index j) d := by
  unfold takeRow takeRows
  by_cases h : index j < r
  · rw [dif_pos h, List.getD_eq_getElem _ _ (by rwa [length_colList]), getElem_colList]
  · rw [dif_neg h, List.getD_eq_default _ _ (by rw [length_colList]; omega)]

theorem propagateOne_col {ca : ComponentA} {c : Component} (hc : ca.Refines c) (rays : Rays n) (acc : (Fin n → EReal) × (Fin n → ℤ)) (j : Fin n) :
    ((propagateOne rays acc ca).1 j, (propagateOne rays acc ca).2 j) =
      (let m := nearestHit (c.intersect (rays.col j)); if m.1 < acc.1 j then m else (acc.1 j, acc.2 j)) := by
  have hp : colList (fun i => npWhere (fun j => (ca.intersect rays).hits i j > 0) ((ca.intersect rays).hits i) (npFull ⊤)) j = (colList (ca.intersect rays).hits j).map positiveHit := by
    have : (fun i => npWhere (fun j => (ca.intersect rays).hits i j > 0) ((ca.intersect rays).hits i) (npFull ⊤)) = fun i j => positiveHit ((ca.intersect rays).hits i j) := by
      funext i j
      simp only [npWhere, npFull, positiveHit]
      congr
    rw [this, colList_map]
  have hn : nearestHit (c.intersect (rays.col j)) =
      (takeRow ⊤ (fun i => npWhere (fun j => (ca.intersect rays).hits i j > 0) ((ca.intersect rays).hits i) (npFull ⊤))
          (argmin0 fun i => npWhere (fun j => (ca.intersect rays).hits i j > 0) ((ca.intersect rays).hits i) (npFull ⊤)) j,
        takeRow (-1) (ca.intersect rays).surfaces (argmin0 fun i => npWhere (fun j => (ca.intersect rays).hits i j > 0) ((ca.intersect rays).hits i) (npFull ⊤)) j) := by
    rw [takeRow_apply, takeRow_apply, argmin0, hp, ← hc.1 rays j]
    rfl
  rw [hn]
  have hw : ∀ {β : Type} (mask : Fin n → Prop) (x y : Fin n → β), npWhere mask x y j = if mask j then x j else y j := fun _ _ _ => rfl
  simp only [propagateOne]
  rw [hw, hw]
  split_ifs <;> rfl

theorem propagateA_col {cas : List ComponentA} {cs : List Component} (hc : List.Forall₂ ComponentA.Refines cas cs) (rays : Rays n) (j : Fin n) :
    ((propagateA cas rays).1 j, (propagateA cas rays).2 j) = hitOf cs (rays.col j) := by
  have h : ∀ (accA : (Fin n → EReal) × (Fin n → ℤ)) (acc : EReal × ℤ), (accA.1 j, accA.2 j) = acc →
      ((cas.foldl (propagateOne rays) accA).1 j, (cas.foldl (propagateOne rays) accA).2 j) =
        cs.foldl (fun acc c => let n := nearestHit (c.intersect (rays.col j)); if n.1 < acc.1 then n else acc) acc := by
    induction hc with
    | nil => exact fun _ _ h => h
    | cons h1 _ ih =>
      intro accA acc hacc
      simp only [List.foldl_cons]
      refine ih _ _ ?_
      rw [propagateOne_col h1, ← hacc]
  exact h _ _ rfl

theorem col_setMasked0_in {mask : Fin n → Prop} {j : Fin n} (h : mask j) (t : RayTable n) (v : Tab ℝ (picked mask).length 4) :
    (t.setMasked 0 mask v).col j = { t.col j with ray := ⟨v (place mask j h), (t.col j).ray.d⟩ } := by
  unfold RayTable.setMasked
  rw [col_setOrigin]
  simp only [scatter_in h]

theorem col_setMasked0_out {mask : Fin n → Prop} {j : Fin n} (h : ¬ mask j) (t : RayTable n) (v : Tab ℝ (picked mask).length 4) :
    (t.setMasked 0 mask v).col j = t.col j := by
  unfold RayTable.setMasked
  rw [col_setOrigin]
  simp only [scatter_out h]
  rfl

theorem interactOne_col (dist : Fin n → EReal) (surf : Fin n → ℤ) (t : RayTable n) (ea : ℤ × (∀ {n : ℕ}, RayTable n → RayTable n)) (e : ℤ × (Col → Col)) (he : ea.1 = e.1)
    (hf : ∀ {n : ℕ} (t : RayTable n) (j : Fin n), (ea.2 t).col j = e.2 (t.col j)) (j : Fin n) :
    (interactOne dist surf t ea).col j = if surf j = e.1 then e.2 ((t.col j).advance (dist j).toReal) else t.col j := by
  unfold interactOne
  set mask : Fin n → Prop := fun j => surf j = ea.1 with hmask
  simp only
  by_cases hm : mask j
  · have hm' : surf j = e.1 := by rw [← he]; exact hm
    rw [if_pos ⟨j, hm⟩, if_pos hm', col_scatter_in hm, hf, col_compress, get_place, col_setMasked0_in hm]
    refine congrArg e.2 (Col.eq_of (Ray.ext ?_ rfl) rfl rfl rfl rfl rfl)
    funext i
    simp only [Col.advance, Ray.at, RayTable.col, RayTable.masked, compress1, Pi.add_apply, Pi.mul_apply, npFull]
    rw [show (picked fun j => surf j = ea.1).get (place mask j hm) = j from get_place mask j hm]
    ring
  · have hm' : ¬ surf j = e.1 := by rw [← he]; exact hm
    rw [if_neg hm']
    split_ifs
    · rw [col_scatter_out hm, col_setMasked0_out hm]
    · rfl

theorem interactA_col {lutA : List (ℤ × (∀ {n : ℕ}, RayTable n → RayTable n))} {lut : List (ℤ × (Col → Col))}
    (hl : List.Forall₂ (fun ea e => ea.1 = e.1 ∧ ∀ {n : ℕ} (t : RayTable n) (j : Fin n), (ea.2 t).col j = e.2 (t.col j)) lutA lut) (dist : Fin n → EReal) (surf : Fin n → ℤ)
    (t : RayTable n) (j : Fin n) : (interactA lutA dist surf t).col j = interactCol lut (dist j, surf j) (t.col j) := by
  have h : ∀ (tA : RayTable n) (c : Col), tA.col j = c →
      (lutA.foldl (interactOne dist surf) tA).col j = lut.foldl (fun c e => if (dist j, surf j).2 = e.1 then e.2 (c.advance (dist j, surf j).1.toReal) else c) c := by
    induction hl with
    | nil => exact fun _ _ h => h
    | cons h1 _ ih =>
      intro tA c hc
      simp only [List.foldl_cons]
      refine ih _ _ ?_
      rw [interactOne_col dist surf tA _ _ h1.1 h1.2, hc]
  unfold interactA interactCol lutPass
  refine h _ _ ?_
  unfold RayTable.setMasked
  rw [col_setDirection]
  simp only
  by_cases hm : surf j = -1
  · rw [if_pos hm]
    simp only [scatter_in (mask := fun j => surf j = -1) hm]
    rfl
  · rw [if_neg hm]
    simp only [scatter_out (mask := fun j => surf j = -1) hm]
    rfl

/-- the numbers of a row of the result, in the order of the columns of the table (`_pyrayt.py` lines 154-165) -/
def Row.cells (r : Row) : Fin 15 → ℝ :=
  ![r.generation, r.intensity, r.wavelength, r.index, r.id, (r.surface : ℝ), r.start 0, r.start 1, r.start 2, r.stop 0, r.stop 1, r.stop 2, r.tilt 0, r.tilt 1, r.tilt 2]

theorem colNorm_three (a : Tab ℝ 3 n) (j : Fin n) : colNorm a j = norm3 (fun i => a i j) := by
  simp [colNorm, norm3, Fin.sum_univ_three]

theorem insertA_eq (t next : RayTable n) (surf : Fin n → ℤ) : insertA t next surf = List.ofFn fun j => (mkRow (t.col j) (next.col j) (surf j)).cells := by
  unfold insertA
  simp only
  congr 1
  funext j i
  have hn : ∀ i : Fin 3, divRows (fun i : Fin 3 => t.rays 1 i.castSucc) (colNorm fun i : Fin 3 => t.rays 1 i.castSucc) i j = (mkRow (t.col j) (next.col j) (surf j)).tilt i := by
    intro i
    simp only [divRows, Pi.div_apply, colNorm_three, mkRow, trim]
    rfl
  fin_cases i
  all_goals first | rfl | exact hn 0 | exact hn 1 | exact hn 2

end

end PyRayT
