import Verif.Proofs.Bundles4
import Verif.Props.Tracer2

/-!
# C109: the vectorised code treats every ray of a bundle as if it were alone
-/

namespace PyRayT

open Classical Spec

/-! ### specification -/

/-- column `j` of one bundle holds the same numbers as column `k` of another one -/
def Spec.SameRay {n m : ℕ} (rays : Rays n) (j : Fin n) (rays' : Rays m) (k : Fin m) : Prop := ∀ part i, rays part i j = rays' part i k

/-- column `j` of one array holds the same entries as column `k` of another one -/
def Spec.SameColumn {α : Type*} {r n m : ℕ} (a : Fin r → Fin n → α) (j : Fin n) (b : Fin r → Fin m → α) (k : Fin m) : Prop := ∀ i, a i j = b i k

section
variable {n m : ℕ}

theorem sameRay_col {rays : Rays n} {rays' : Rays m} {j : Fin n} {k : Fin m} (h : SameRay rays j rays' k) : rays.col j = rays'.col k := by
  have h0 : (fun i => rays 0 i j) = fun i => rays' 0 i k := funext (h 0)
  have h1 : (fun i => rays 1 i j) = fun i => rays' 1 i k := funext (h 1)
  unfold Rays.col
  rw [h0, h1]

/-- **C109.** `intersect` of every primitive: the hits of a ray are the same in every bundle, whatever the other rays are, how many they are, at which place the ray is, and whatever
memory `np.empty` returns. They are those of the one-ray model. -/
theorem C109_primitives (p : Prim) (junk : Tab EReal 2 (2 * n)) (junk' : Tab EReal 2 (2 * m)) (rays : Rays n) (rays' : Rays m) (j : Fin n) (k : Fin m) (h : SameRay rays j rays' k) :
    SameColumn (p.intersectA junk rays) j (p.intersectA junk' rays') k ∧ (p.intersectA junk rays 0 j, p.intersectA junk rays 1 j) = p.intersect (rays.col j) := by
  have h1 := intersectA_col junk p rays j
  have h2 := intersectA_col junk' p rays' k
  rw [← sameRay_col h, ← h1] at h2
  refine ⟨fun i => ?_, h1⟩
  have h3 := congrArg Prod.fst h2
  have h4 := congrArg Prod.snd h2
  fin_cases i
  · exact h3.symm
  · exact h4.symm

/-- **C109.** `normal`: column by column -/
theorem C109_normals (p : Prim) (x : Tab ℝ 4 n) (y : Tab ℝ 4 m) (j : Fin n) (k : Fin m) (h : SameColumn x j y k) :
    SameColumn (p.normalA x) j (p.normalA y) k ∧ (fun i => p.normalA x i j) = p.normal fun i => x i j := by
  refine ⟨fun i => ?_, normalA_col p x j⟩
  have h1 := congrFun (normalA_col p x j) i
  have h2 := congrFun (normalA_col p y k) i
  rw [h1, h2, show (fun i => x i j) = fun i => y i k from funext h]

/-- **C109.** `get_world_normals`: column by column -/
theorem C109_world_normals (h : Heap) (a : ℕ) (x : Tab ℝ 4 n) (y : Tab ℝ 4 m) (j : Fin n) (k : Fin m) (hc : SameColumn x j y k) :
    SameColumn (surfaceNormalsA h a x) j (surfaceNormalsA h a y) k ∧ (fun i => surfaceNormalsA h a x i j) = surfaceNormal h a fun i => x i j := by
  refine ⟨fun i => ?_, surfaceNormalsA_col h a x j⟩
  have h1 := congrFun (surfaceNormalsA_col h a x j) i
  have h2 := congrFun (surfaceNormalsA_col h a y k) i
  rw [h1, h2, show (fun i => x i j) = fun i => y i k from funext hc]

/-- **C109.** `reflect` of an array of directions: with an array of normals every direction is reflected at its own normal, with one normal all of them are reflected at that one. -/
theorem C109_reflect (v normals : Tab ℝ 4 n) (normal : Vec4) (j : Fin n) :
    (fun i => reflectA v normals i j) = reflect (fun i => v i j) (fun i => normals i j) ∧ (fun i => reflectSingleA v normal i j) = reflect (fun i => v i j) normal := by
  refine ⟨?_, reflectSingleA_col v normal j⟩
  rw [reflectA_col]
  funext i
  simp only [reflect, Pi.sub_apply, Pi.smul_apply, smul_eq_mul, dot4]
  ring

/-- **C109.** `refract` of arrays: every ray with its own normal and its own two indices -/
theorem C109_refract (v normals : Tab ℝ 4 n) (n1 n2 : Fin n → ℝ) (nGlobal : ℝ) (j : Fin n) :
    (fun i => (refractA v normals n1 n2 nGlobal).1 i j) = (refract (fun i => v i j) (fun i => normals i j) (n1 j) (n2 j) nGlobal).2.1 ∧
      (refractA v normals n1 n2 nGlobal).2 j = (refract (fun i => v i j) (fun i => normals i j) (n1 j) (n2 j) nGlobal).2.2 := by
  have h := refractA_col v normals n1 n2 nGlobal j
  exact ⟨congrArg Prod.fst h, congrArg Prod.snd h⟩

variable {argsort : List EReal → List ℕ}

/-- **C109.** `array_csg` of two matrices is `array_csg` of their columns, with and without sorting. -/
theorem C109_csg (ha : IsArgsort argsort) {r s : ℕ} (a : Tab EReal r n) (b : Tab EReal s n) (op : Operation) (j : Fin n) :
    (List.ofFn fun i => arrayCsgA argsort a b op i j) = arrayCsg argsort (List.ofFn fun i => a i j) (List.ofFn fun i => b i j) op ∧
      (List.ofFn fun i => arrayCsgUnsortedA argsort a b op i j) = arrayCsgUnsorted argsort (List.ofFn fun i => a i j) (List.ofFn fun i => b i j) op :=
  ⟨arrayCsgA_col ha a b op j, arrayCsgUnsortedA_col ha a b op j⟩

/-- **C109.** `intersect` of any object, composites included: the matrices have the same number of rows for every bundle, and the hits and surfaces of a ray are the same in every
bundle. They are those of the one-ray model. -/
theorem C109_intersect (ha : IsArgsort argsort) (junk junk' : ∀ n, Tab EReal 2 (2 * n)) (h : Heap) (fuel a : ℕ) (rays : Rays n) (rays' : Rays m) (j : Fin n) (k : Fin m)
    (hs : SameRay rays j rays' k) :
    (intersectA argsort junk fuel h a rays).rows = (intersectA argsort junk' fuel h a rays').rows ∧
    (List.ofFn fun i => (intersectA argsort junk fuel h a rays).hits i j) = (List.ofFn fun i => (intersectA argsort junk' fuel h a rays').hits i k) ∧
    (List.ofFn fun i => (intersectA argsort junk fuel h a rays).surfaces i j) = (List.ofFn fun i => (intersectA argsort junk' fuel h a rays').surfaces i k) ∧
    ((List.ofFn fun i => (intersectA argsort junk fuel h a rays).hits i j), (List.ofFn fun i => (intersectA argsort junk fuel h a rays).surfaces i j)) =
      intersectObj argsort fuel h a (rays.col j) := by
  have h1 := intersectA_col_obj ha junk h fuel a rays j
  have h2 := intersectA_col_obj ha junk' h fuel a rays' k
  rw [← sameRay_col hs, ← h1] at h2
  exact ⟨by rw [intersectA_rows, intersectA_rows], (congrArg Prod.fst h2).symm, (congrArg Prod.snd h2).symm, h1⟩

/-- **C109.** `trace` of the materials: column by column -/
theorem C109_materials (s : Scene) (a : ℕ) (t : RayTable n) (j : Fin n) :
    ((s.material a).traceA (surfaceNormalsA s.heap a) t).col j = (s.material a).trace (surfaceNormal s.heap a) (t.col j) :=
  traceA_col _ _ (fun _ _ => surfaceNormalsA_col _ _ _ _) _ t j

end

/-! ### the tracer -/

section
variable {argsort : List EReal → List ℕ}

theorem new_sim (ha : IsArgsort argsort) (junk : ∀ n, Tab EReal 2 (2 * n)) (depth : ℕ) (s : Scene) (objs : List ℕ) (sources : List (ℕ → AnyTable)) (n : ℕ) (limit : ℤ) (ph : Phase) (hp : ph ≠ .interact) :
    TracerA.Sim { TracerA.new sources (objs.map (s.componentA argsort junk depth)) n limit with phase := ph }
      { Tracer.new (sources.map fun src k => colsOf (src k)) (objs.map (s.component argsort depth)) n limit with phase := ph } := by
  have hc : List.Forall₂ ComponentA.Refines (objs.map (s.componentA argsort junk depth)) (objs.map (s.component argsort depth)) := by
    rw [List.forall₂_map_left_iff, List.forall₂_map_right_iff]
    exact List.forall₂_same.2 fun a _ => componentA_refines ha junk depth s a
  refine ⟨?_, hc, rfl, rfl, ?_, rfl, rfl, rfl, rfl, rfl, rfl, ?_, ?_, fun h => absurd h hp⟩
  · show List.Forall₂ _ sources (sources.map _)
    rw [List.forall₂_map_right_iff]
    exact List.forall₂_same.2 fun _ _ _ => rfl
  · show List.Forall₂ _ ((objs.map (s.componentA argsort junk depth)).flatMap ComponentA.surfaces) ((objs.map (s.component argsort depth)).flatMap Component.surfaces)
    clear hp ph
    induction objs with
    | nil => exact .nil
    | cons a l ih =>
      simp only [List.map_cons, List.flatMap_cons] at hc ⊢
      cases hc with
      | cons h1 h2 => exact List.rel_append h1.2 (ih h2)
  · simp [colsOf, TracerA.new, Tracer.new]
  · simp [TracerA.new, Tracer.new]

/-- **C109.** The vectorised tracer and the one-ray model of the tracer do the same: for objects of a scene and sources with any numbers of rays, one run ends if and only if the
other one does, after the same number of steps, with the same table, ray for ray and row for row. -/
theorem C109_trace (ha : IsArgsort argsort) (junk : ∀ n, Tab EReal 2 (2 * n)) (depth : ℕ) (s : Scene) (objs : List ℕ) (sources : List (ℕ → AnyTable)) (n : ℕ) (limit : ℤ) (k : ℕ)
    (table : List (Fin 15 → ℝ)) (complete : Bool) :
    (∃ u, TracerA.Traces k (TracerA.new sources (objs.map (s.componentA argsort junk depth)) n limit) u ∧ u.frame = table ∧ u.complete = complete) ↔
      ∃ t, Tracer.Traces k (Tracer.new (sources.map fun src k => colsOf (src k)) (objs.map (s.component argsort depth)) n limit) t ∧ t.frame.map Row.cells = table ∧ t.complete = complete := by
  have hs := new_sim ha junk depth s objs sources n limit .initialize (by decide)
  constructor
  · rintro ⟨u, hu, rfl, rfl⟩
    obtain ⟨t, ht, h⟩ := TracerA.Sim.runs hu hs
    exact ⟨t, ht, h.frame.symm, h.complete.symm⟩
  · rintro ⟨t, ht, rfl, rfl⟩
    obtain ⟨u, hu, h⟩ := TracerA.Sim.runs_back ht hs
    exact ⟨u, hu, h.frame, h.complete⟩

theorem col_congr {n m : ℕ} {t : RayTable n} {t' : RayTable m} {j : Fin n} {k : Fin m} (h : ∀ row, t row j = t' row k) : t.col j = t'.col k := by
  have h0 : (fun r => t.rays 0 r j) = fun r => t'.rays 0 r k := funext fun r => h _
  have h1 : (fun r => t.rays 1 r j) = fun r => t'.rays 1 r k := funext fun r => h _
  refine Col.eq_of ?_ (h _) (h _) (h _) (h _) (h _)
  simp only [RayTable.col]
  rw [h0, h1]

theorem Row.cells_id (r : Row) (x : ℝ) : ({ r with id := x } : Row).cells = Function.update r.cells 4 x := by
  funext i
  fin_cases i <;> simp [Row.cells, Function.update]

theorem scene_lut_ignoresId (s : Scene) (depth : ℕ) (objs : List ℕ) :
    ∀ e ∈ (objs.map (s.component argsort depth)).flatMap Component.surfaces, IgnoresId e.2 := by
  intro e he
  obtain ⟨c, hc, he⟩ := List.mem_flatMap.1 he
  obtain ⟨a, -, rfl⟩ := List.mem_map.1 hc
  obtain ⟨x, -, rfl⟩ := List.mem_map.1 he
  exact material_ignoresId (surfaceNormal s.heap x.2) (s.material x.2)

/-- **C109.** The vectorised tracer traces every ray as if it were alone. `one` is a table of one column, the `i`-th ray of all rays with its number `i`. If a trace of all rays ends, a trace
of this ray ends, and its table consists of those rows of the first one that have the number `i` (now 0, since the only ray has the number 0), whatever `np.empty` returns in the two runs. -/
theorem C109_alone (ha : IsArgsort argsort) (junk junk' : ∀ n, Tab EReal 2 (2 * n)) (depth : ℕ) (s : Scene) (objs : List ℕ) (sources : List (ℕ → AnyTable)) (n : ℕ) (limit : ℤ)
    {k : ℕ} {u : TracerA} (hu : TracerA.Traces k (TracerA.new sources (objs.map (s.componentA argsort junk depth)) n limit) u)
    (i : Fin (hstackAll (sources.map fun src => src n)).1) (one : RayTable 1)
    (hone : ∀ row, one row 0 = (hstackAll (sources.map fun src => src n)).2.write (.id fun j => (j.val : ℝ)) row i) :
    ∃ k' u', TracerA.Traces k' (TracerA.new [fun _ => ⟨1, one⟩] (objs.map (s.componentA argsort junk' depth)) n limit) u' ∧
      u'.frame = (u.frame.filter fun row : Fin 15 → ℝ => decide (row 4 = (i.val : ℝ))).map fun row => Function.update row 4 0 := by
  obtain ⟨t, ht, h1, -⟩ := (C109_trace ha junk depth s objs sources n limit k u.frame u.complete).1 ⟨u, hu, rfl, rfl⟩
  set T := Tracer.new (sources.map fun src k => colsOf (src k)) (objs.map (s.component argsort depth)) n limit with hT
  have hcols : (T.sources.flatMap fun s => s T.raysPerSource) = colsOf (hstackAll (sources.map fun src => src n)) := by
    rw [colsOf_hstackAll, List.flatMap_map]
    exact List.flatMap_map _ _ _
  have he : Emitted T i.val (one.col 0) := by
    refine ⟨(hstackAll (sources.map fun src => src n)).2.col i, ?_, ?_⟩
    · rw [hcols, colsOf, List.getElem?_ofFn]
      simp [i.isLt]
    · exact (col_congr hone).trans (col_setId _ _ _)
  obtain ⟨k', t', ht', hf⟩ := C29_independent (scene_lut_ignoresId s depth objs) ht he
  have hTT : ({ T with sources := [fun _ => [one.col 0]] } : Tracer) =
      Tracer.new ([fun _ => ⟨1, one⟩].map fun (src : ℕ → AnyTable) k => colsOf (src k)) (objs.map (s.component argsort depth)) n limit := by
    rw [hT]
    simp [Tracer.new, colsOf]
  rw [hTT] at ht'
  obtain ⟨u', hu', h2, -⟩ := (C109_trace ha junk' depth s objs [fun _ => ⟨1, one⟩] n limit k' (t'.frame.map Row.cells) t'.complete).2 ⟨t', ht', rfl, rfl⟩
  refine ⟨k', u', hu', ?_⟩
  rw [h2, hf, ← h1, List.filter_map, List.map_map, List.map_map]
  have hid : ∀ r : Row, r.cells 4 = r.id := fun r => rfl
  congr 1
  · funext r
    exact Row.cells_id r 0

end

/-! ### concrete cases -/

/-- two rays: one along the z axis towards the origin, one parallel to it at a distance of 5 -/
def twoRays : Rays 2 := fun part i j => if part = 0 then (if j = 0 then point 0 0 (-3) i else point 5 0 (-3) i) else vector 0 0 1 i

/-- the bundle with the unit sphere: the first ray hits at 2 and 4, the second one misses -/
example (junk : Tab EReal 2 (2 * 2)) :
    (Prim.intersectA junk (.sphere 1) twoRays 0 0, Prim.intersectA junk (.sphere 1) twoRays 1 0) = (((4 : ℝ) : EReal), ((2 : ℝ) : EReal)) ∧
      (Prim.intersectA junk (.sphere 1) twoRays 0 1, Prim.intersectA junk (.sphere 1) twoRays 1 1) = (⊤, ⊤) := by
  have h0 := (C109_primitives (.sphere 1) junk junk twoRays twoRays 0 0 fun _ _ => rfl).2
  have h1 := (C109_primitives (.sphere 1) junk junk twoRays twoRays 1 1 fun _ _ => rfl).2
  refine ⟨h0.trans ?_, h1.trans ?_⟩
  · have : √(4 : ℝ) = 2 := by
      rw [show (4 : ℝ) = 2 ^ 2 by norm_num]
      exact Real.sqrt_sq (by norm_num)
    simp [Prim.intersect, sphereIntersect, polyRoots, Rays.col, twoRays, point, vector]
    norm_num [this]
  · simp [Prim.intersect, sphereIntersect, polyRoots, Rays.col, twoRays, point, vector]
    norm_num

/-- the first ray of `twoRays` is the only ray of `Rays.single` -/
example : SameRay twoRays 0 (Rays.single ⟨point 0 0 (-3), vector 0 0 1⟩) 0 := by
  intro part i
  fin_cases part <;> rfl

/-- a table with one ray from the origin along the z axis, up or down -/
noncomputable def axisTable (σ : ℝ) : RayTable 1 := fun row _ => ![0, 0, 0, 1, 0, 0, σ, 0, 0, 100, 0.633, 1, 0] row

theorem axisTable_col (σ : ℝ) : (axisTable σ).col 0 = axisCol 0 σ 100 0 := by
  refine Col.eq_of ?_ ?_ ?_ ?_ ?_ ?_
  · simp only [RayTable.col, axisCol, axisRay]
    congr 1
    · funext i; fin_cases i <;> rfl
    · funext i; fin_cases i <;> rfl
  · simp [RayTable.col, axisCol, RayTable.generation, RayTable.metadata, axisTable]
  · rfl
  · rfl
  · rfl
  · rfl

/-- the vectorised tracer with two sources inside a mirror ball: the trace ends with a table that has rows -/
example (argsort : List EReal → List ℕ) (ha : IsArgsort argsort) (junk : ∀ n, Tab EReal 2 (2 * n)) :
    ∃ k u, TracerA.Traces k (TracerA.new [fun _ => ⟨1, axisTable 1⟩, fun _ => ⟨1, axisTable (-1)⟩] ([0].map ((ball .mirror).componentA argsort junk 1)) 1 3) u ∧ u.complete = true ∧
      ∃ k' u', TracerA.Traces k' (TracerA.new [fun _ => ⟨1, (axisTable (-1)).write (.id fun _ => ((1 : ℕ) : ℝ))⟩] ([0].map ((ball .mirror).componentA argsort junk 1)) 1 3) u' ∧
        u'.frame = (u.frame.filter fun row : Fin 15 → ℝ => decide (row 4 = ((1 : ℕ) : ℝ))).map fun row => Function.update row 4 0 := by
  have hT : Tracer.new ([fun _ => ⟨1, axisTable 1⟩, fun _ => ⟨1, axisTable (-1)⟩].map fun (src : ℕ → AnyTable) k => colsOf (src k)) ([0].map ((ball .mirror).component argsort 1)) 1 3 =
      twoSources argsort := by
    simp [twoSources, colsOf, axisTable_col]
  have ok := twoSources_ok argsort ha
  obtain ⟨n, t', h, -, hc, -⟩ := C26_terminates (twoSources argsort) (by simp [twoSources, Tracer.new])
    (by simp [twoSources, Tracer.new]) (fun s hs c hc => (ok.emits s hs c hc).1)
  obtain ⟨u, hu, h1, h2⟩ := (C109_trace ha junk 1 (ball .mirror) [0] [fun _ => ⟨1, axisTable 1⟩, fun _ => ⟨1, axisTable (-1)⟩] 1 3 n _ _).2 ⟨t', by rw [hT]; exact h, rfl, rfl⟩
  refine ⟨n, u, hu, h2.trans hc, C109_alone ha junk junk 1 (ball .mirror) [0] _ 1 3 hu ⟨1, by simp [hstackAll]⟩ _ fun row => ?_⟩
  fin_cases row <;> rfl

/-- a trace with one source: there are rows in every generation up to the limit -/
example (argsort : List EReal → List ℕ) (ha : IsArgsort argsort) (junk : ∀ n, Tab EReal 2 (2 * n)) :
    ∃ k u, TracerA.Traces k (TracerA.new [fun _ => ⟨1, axisTable 1⟩] ([0].map ((ball .mirror).componentA argsort junk 1)) 1 3) u ∧ ∃ row ∈ u.frame, row 0 = 2 := by
  obtain ⟨n, t', h, ok, hg⟩ := resonator_rows argsort ha
  have hT : Tracer.new ([fun _ => ⟨1, axisTable 1⟩].map fun (src : ℕ → AnyTable) k => colsOf (src k)) ([0].map ((ball .mirror).component argsort 1)) 1 3 =
      ballTracer argsort .mirror 0 1 100 3 := by
    simp [ballTracer, colsOf, axisTable_col]
  obtain ⟨u, hu, h1, -⟩ := (C109_trace ha junk 1 (ball .mirror) [0] [fun _ => ⟨1, axisTable 1⟩] 1 3 n _ _).2 ⟨t', by rw [hT]; exact h, rfl, rfl⟩
  obtain ⟨r, hr, hr2, -⟩ := (hg 2).2 (by norm_num)
  exact ⟨n, u, hu, r.cells, by rw [h1]; exact List.mem_map_of_mem hr, by simpa [Row.cells] using hr2⟩

end PyRayT
