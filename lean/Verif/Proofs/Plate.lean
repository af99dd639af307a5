import Verif.Proofs.Bench

/-! A plate of glass in front of a screen, for the examples of C86. -/

namespace PyRayT

open Classical Matrix Spec

variable (argsort : List EReal → List ℕ)

/-- `refract` gives the direction that satisfies Snell's law -/
theorem refract_value {v n w : Vec4} {n1 n2 ng far : ℝ} (hv : dot4 v v = 1) (hn : dot4 n n = 1) (h1 : 0 < n1) (h2 : 0 < n2) (hg : 0 < ng)
    (hfar : far = if 0 < dot4 v n then ng else n2) (hw : dot4 w w = 1) (hsin : n1 * Spec.sinTo v n < far)
    (hs : ∀ i, n1 * (v i - dot4 v n * n i) = far * (w i - dot4 w n * n i)) (hpos : 0 < dot4 v n → 0 < dot4 w n)
    (hneg : dot4 v n ≤ 0 → dot4 w n < 0) : (refract v n n1 n2 ng).2.1 = w ∧ (refract v n n1 n2 ng).2.2 = far := by
  have hv0 : v ≠ 0 := by rintro rfl; simp [dot4] at hv
  have hnv : norm4 v = 1 := norm4_eq_one.2 hv
  have hfp : 0 < far := by rw [hfar]; split <;> assumption
  have a := C22_snell v n n1 n2 ng hv0 (norm4_eq_one.2 hn) h1 h2 hg
  have ef : Spec.farIndex v n n2 ng = far := by rw [hfar]; rfl
  simp only [hnv, div_one, ef] at a
  obtain ⟨a1, a2, -, a4, a5, a6⟩ := a hsin
  refine ⟨?_, a6⟩
  generalize (refract v n n1 n2 ng).2.1 = w' at a1 a2 a4 a5
  have hw' := norm4_eq_one.1 a1
  have hac : ∀ i, w i - dot4 w n * n i = w' i - dot4 w' n * n i := fun i => by
    have := (hs i).symm.trans (a2 i)
    exact mul_left_cancel₀ hfp.ne' this
  funext i
  by_cases hp : 0 < dot4 v n
  · refine eq_of_across hw hw' (n := -n) (by simpa [dot4] using hn) (fun i => ?_) ?_ ?_ i
    · rw [dot4_neg_right, dot4_neg_right]; simpa using hac i
    · rw [dot4_neg_right]; linarith [hpos hp]
    · rw [dot4_neg_right]; linarith [a4 hp]
  · exact eq_of_across hw hw' hn hac (hneg (not_lt.1 hp)) (a5 (not_lt.1 hp)) i

/-- a cuboid with its corners at plus and minus `r` in x and y, between `lo` and `hi` in z -/
def tile (r lo hi : ℝ) : Prim := .cube ![-r, -r, lo] ![r, r, hi]

/-- a ray in the plane x = 0 -/
def planeRay (y z dy dz : ℝ) : Ray := ⟨point 0 y z, vector 0 dy dz⟩

theorem slab_zero {r : ℝ} (hr : 0 ≤ r) : slab (((-r : ℝ) : EReal), (r : EReal)) 0 0 = (⊥, ⊤) := by
  unfold slab
  have h : isclose0 0 := isclose0_zero
  simp [h, sort2, hr]

theorem slab_pos {lo hi o d : ℝ} (hd : 1e-8 < d) (hl : lo ≤ hi) :
    slab ((lo : EReal), (hi : EReal)) o d = ((((lo - o) / d : ℝ) : EReal), (((hi - o) / d : ℝ) : EReal)) := by
  have hp : ¬ isclose0 d := by
    unfold isclose0
    rw [abs_of_pos (by linarith [show (0 : ℝ) < 1e-8 by norm_num])]
    exact not_le.2 hd
  have hd0 : 0 < d := by linarith [show (0 : ℝ) < 1e-8 by norm_num]
  unfold slab
  simp only [hp, not_false_eq_true, if_true, addMask_False]
  rw [← EReal.coe_sub, ← EReal.coe_mul, ← EReal.coe_sub, ← EReal.coe_mul]
  have : (lo - o) * d⁻¹ ≤ (hi - o) * d⁻¹ := mul_le_mul_of_nonneg_right (by linarith) (by positivity)
  have h' : (((lo - o) * d⁻¹ : ℝ) : EReal) ≤ (((hi - o) * d⁻¹ : ℝ) : EReal) := EReal.coe_le_coe_iff.2 this
  simp only [sort2, min_eq_left h', max_eq_right h', div_eq_mul_inv]

theorem tile_intersect {r lo hi y z dy dz : ℝ} (hr : 0 ≤ r) (hl : lo ≤ hi) (hy : 1e-8 < dy) (hz : 1e-8 < dz) :
    (tile r lo hi).intersect (planeRay y z dy dz) =
      let h0 : ℝ := max ((-r - y) / dy) ((lo - z) / dz)
      let h1 : ℝ := min ((r - y) / dy) ((hi - z) / dz)
      if h0 < h1 then ((h0 : EReal), (h1 : EReal)) else (⊤, ⊤) := by
  have e0 : slab (toBox (cubeSpans ![-r, -r, lo] ![r, r, hi]) 0) ((planeRay y z dy dz).o 0) ((planeRay y z dy dz).d 0) = (⊥, ⊤) := by
    have := slab_zero hr
    simpa [toBox, cubeSpans, planeRay, point, vector, min_eq_left (show -r ≤ r by linarith), max_eq_right (show -r ≤ r by linarith)] using this
  have e1 : slab (toBox (cubeSpans ![-r, -r, lo] ![r, r, hi]) 1) ((planeRay y z dy dz).o 1) ((planeRay y z dy dz).d 1) =
      ((((-r - y) / dy : ℝ) : EReal), (((r - y) / dy : ℝ) : EReal)) := by
    rw [← slab_pos hy (by linarith)]
    simp [toBox, cubeSpans, planeRay, point, vector, min_eq_left (show -r ≤ r by linarith), max_eq_right (show -r ≤ r by linarith)]
  have e2 : slab (toBox (cubeSpans ![-r, -r, lo] ![r, r, hi]) 2) ((planeRay y z dy dz).o 2) ((planeRay y z dy dz).d 2) =
      ((((lo - z) / dz : ℝ) : EReal), (((hi - z) / dz : ℝ) : EReal)) := by
    rw [← slab_pos hz hl]
    simp [toBox, cubeSpans, planeRay, point, vector, min_eq_left hl, max_eq_right hl]
  simp only [tile, Prim.intersect, boxIntersect, e0, e1, e2]
  rw [max_eq_right (bot_le : (⊥ : EReal) ≤ _), min_eq_right (le_top : _ ≤ (⊤ : EReal)), ← EReal.coe_strictMono.monotone.map_max,
    ← EReal.coe_strictMono.monotone.map_min]
  simp only [EReal.coe_lt_coe_iff]

/-- a plate of glass of index 4/3 between z = -1 and z = 1, and a screen behind it -/
noncomputable def plate : Scene :=
  ⟨newPrim (newPrim Heap.empty (tile 1 (-1) 1)) (tile 100 4 5), fun x => if x = 0 then .glass (.basic (4 / 3)) else .absorber⟩

theorem plate_zero : (plate.heap.obj 0).kind = .prim (tile 1 (-1) 1) ∧ (plate.heap.obj 0).objT = 1 ∧ (plate.heap.obj 0).world = 1 ∧
    (plate.heap.obj 0).oid = 0 ∧ (plate.heap.obj 0).nscale = 1 := by
  simp [plate, newPrim, Heap.alloc, Heap.empty]

theorem plate_one : (plate.heap.obj 1).kind = .prim (tile 100 4 5) ∧ (plate.heap.obj 1).objT = 1 ∧ (plate.heap.obj 1).oid = 1 ∧
    plate.heap.size = 2 := by
  simp [plate, newPrim, Heap.alloc, Heap.empty]

theorem plate_reaches : ReachesBy argsort Movement.IsAffine 1 Heap.empty plate.heap :=
  .step (.newPrim _) (.step (.newPrim _) (.refl _) trivial (fun _ _ h => by cases h) rfl) trivial (fun _ _ h => by cases h) rfl

noncomputable def plateCol (y z dy dz index : ℝ) (g : ℕ) : Col :=
  { ray := planeRay y z dy dz, generation := g, intensity := 100, wavelength := 0.633, index, id := 0 }

theorem moved_plateCol (y z dy dz index : ℝ) (g : ℕ) (d : ℝ) :
    moved (plateCol y z dy dz index g) d = plateCol (y + d * dy) (z + d * dz) dy dz index g := by
  unfold moved plateCol planeRay
  congr 2
  funext i; fin_cases i <;> simp [point, vector]

theorem plate_surfaces0 : surfaceIds 1 plate.heap 0 = [(0, 0)] := by
  simp only [surfaceIds, plate_zero.1, plate_zero.2.2.2.1]

theorem plate_surfaces1 : surfaceIds 1 plate.heap 1 = [(1, 1)] := by
  simp only [surfaceIds, plate_one.1, plate_one.2.2.1]

noncomputable def plateComponents : List Component := [0, 1].map (plate.component argsort 1)

theorem planeRay_map_one (y z dy dz : ℝ) : (planeRay y z dy dz).map 1 = planeRay y z dy dz := by simp [Ray.map]

theorem plate_hits0 {y z dy dz h0 h1 : ℝ} (hy : 1e-8 < dy) (hz : 1e-8 < dz) (e0 : h0 = max ((-1 - y) / dy) ((-1 - z) / dz))
    (e1 : h1 = min ((1 - y) / dy) ((1 - z) / dz)) (hlt : h0 < h1) :
    (plate.component argsort 1 0).intersect (planeRay y z dy dz) = ([(h0 : EReal), (h1 : EReal)], [0, 0]) := by
  show intersectObj argsort 1 plate.heap 0 _ = _
  simp only [intersectObj, plate_zero.1, leafIntersect, plate_zero.2.1, plate_zero.2.2.2.1, planeRay_map_one]
  rw [tile_intersect zero_le_one (by norm_num) hy hz]
  simp only [← e0, ← e1, if_pos hlt]
  have hle : (h0 : EReal) ≤ (h1 : EReal) := EReal.coe_le_coe_iff.2 hlt.le
  simp [sort2, min_eq_left hle, max_eq_right hle]

theorem plate_hits1 {y z dy dz h0 h1 : ℝ} (hy : 1e-8 < dy) (hz : 1e-8 < dz) (e0 : h0 = max ((-100 - y) / dy) ((4 - z) / dz))
    (e1 : h1 = min ((100 - y) / dy) ((5 - z) / dz)) (hlt : h0 < h1) :
    (plate.component argsort 1 1).intersect (planeRay y z dy dz) = ([(h0 : EReal), (h1 : EReal)], [1, 1]) := by
  show intersectObj argsort 1 plate.heap 1 _ = _
  simp only [intersectObj, plate_one.1, leafIntersect, plate_one.2.1, plate_one.2.2.1, planeRay_map_one]
  rw [tile_intersect (by norm_num) (by norm_num) hy hz]
  simp only [← e0, ← e1, if_pos hlt]
  have hle : (h0 : EReal) ≤ (h1 : EReal) := EReal.coe_le_coe_iff.2 hlt.le
  simp [sort2, min_eq_left hle, max_eq_right hle]

/-- the nearest of the four hits -/
theorem plate_nearest {y z dy dz a0 a1 b0 b1 d : ℝ} {k i : ℕ}
    (h0 : (plate.component argsort 1 0).intersect (planeRay y z dy dz) = ([(a0 : EReal), (a1 : EReal)], [0, 0]))
    (h1 : (plate.component argsort 1 1).intersect (planeRay y z dy dz) = ([(b0 : EReal), (b1 : EReal)], [1, 1]))
    (hd : 0 < d) (hle : ∀ h ∈ [a0, a1, b0, b1], 0 < h → d ≤ h)
    (hc : (k = 0 ∧ ((i = 0 ∧ d = a0) ∨ (i = 1 ∧ d = a1 ∧ d ≠ a0))) ∨ (k = 1 ∧ i = 0 ∧ d = b0 ∧ d ≠ a0 ∧ d ≠ a1)) :
    Nearest (plateComponents argsort) (planeRay y z dy dz) d k := by
  simp only [List.mem_cons, List.not_mem_nil, or_false, forall_eq_or_imp, forall_eq] at hle
  refine ⟨hd, ?_, ?_⟩
  · intro c hc h hh hp
    simp only [plateComponents, List.map_cons, List.map_nil, List.mem_cons, List.not_mem_nil, or_false] at hc
    rcases hc with rfl | rfl
    · rw [h0] at hh
      simp only [List.mem_cons, List.not_mem_nil, or_false] at hh
      rcases hh with rfl | rfl
      · exact EReal.coe_le_coe_iff.2 (hle.1 (by exact_mod_cast hp))
      · exact EReal.coe_le_coe_iff.2 (hle.2.1 (by exact_mod_cast hp))
    · rw [h1] at hh
      simp only [List.mem_cons, List.not_mem_nil, or_false] at hh
      rcases hh with rfl | rfl
      · exact EReal.coe_le_coe_iff.2 (hle.2.2.1 (by exact_mod_cast hp))
      · exact EReal.coe_le_coe_iff.2 (hle.2.2.2 (by exact_mod_cast hp))
  · rcases hc with ⟨rfl, ⟨rfl, e⟩ | ⟨rfl, e, hne⟩⟩ | ⟨rfl, rfl, e, n0, n1⟩
    · refine ⟨0, _, 0, rfl, fun j hj => by omega, ?_, fun j hj => by omega, ?_⟩
      · rw [h0, e]; rfl
      · rw [h0]; rfl
    · refine ⟨0, _, 1, rfl, fun j hj => by omega, ?_, fun j hj => ?_, ?_⟩
      · rw [h0, e]; rfl
      · obtain rfl : j = 0 := by omega
        rw [h0]
        simp only [List.getElem?_cons_zero, ne_eq, Option.some.injEq, EReal.coe_eq_coe_iff]
        exact fun e' => hne e'.symm
      · rw [h0]; rfl
    · refine ⟨1, plate.component argsort 1 1, 0, rfl, fun j hj c' hc' => ?_, ?_, fun j hj => by omega, ?_⟩
      · obtain rfl : j = 0 := by omega
        have : c' = plate.component argsort 1 0 := by
          simpa [plateComponents] using hc'.symm
        rw [this, h0]
        simp [n0, n1]
      · rw [h1, e]; rfl
      · rw [h1]; rfl

noncomputable def plateTracer : Tracer :=
  Tracer.new [fun _ => [plateCol (-4.75) (-4) 0.8 0.6 1 0]] ([0, 1].map (plate.component argsort 1)) 1 3

theorem glass_plateCol {nf : Vec4 → Vec4} {y z dy dz n dy' dz' n' : ℝ} {g : ℕ}
    (h : (refract (vector 0 dy dz) (nf (point 0 y z)) n (4 / 3) 1).2.1 = vector 0 dy' dz' ∧
      (refract (vector 0 dy dz) (nf (point 0 y z)) n (4 / 3) 1).2.2 = n') :
    { (Material.glass (.basic (4 / 3))).trace nf (plateCol y z dy dz n g) with generation := (g : ℝ) + 1 } =
      plateCol y z dy' dz' n' (g + 1) := by
  simp only [Material.trace, plateCol, planeRay, IndexModel.indexAt, h.1, h.2]
  push_cast
  rfl

theorem plate_normal {y σ : ℝ} (hy : |y| < 0.9) (hσ : σ = 1 ∨ σ = -1) :
    surfaceNormal plate.heap 0 (point 0 y σ) = vector 0 0 σ := by
  have e : surfaceNormal plate.heap 0 (point 0 y σ) = worldNormal (plate.heap.obj 0) (tile 1 (-1) 1) (point 0 y σ) := by
    simp only [surfaceNormal, plate_zero.1]
  obtain ⟨h1, h2⟩ := abs_lt.1 hy
  have n1 : ¬ isclose y 1 := by
    unfold isclose; rw [abs_of_neg (by linarith)]; norm_num; linarith
  have n2 : ¬ isclose y (-1) := by
    unfold isclose; rw [abs_of_pos (by linarith)]; norm_num; linarith
  have n3 : ¬ isclose (0 : ℝ) 1 := by unfold isclose; norm_num
  have n4 : ¬ isclose (0 : ℝ) (-1) := by unfold isclose; norm_num
  have n5 : ¬ isclose (-1 : ℝ) 1 := by unfold isclose; norm_num
  have c0 : cubeNormalComp (cubeSpans ![-1, -1, -1] ![1, 1, 1] 0) 0 = 0 := cubeNormalComp_none (by simpa [cubeSpans] using n3)
    (by simpa [cubeSpans] using n4)
  have c1 : cubeNormalComp (cubeSpans ![-1, -1, -1] ![1, 1, 1] 1) y = 0 := cubeNormalComp_none (by simpa [cubeSpans] using n1)
    (by simpa [cubeSpans] using n2)
  have c2 : cubeNormalComp (cubeSpans ![-1, -1, -1] ![1, 1, 1] 2) σ = σ := by
    rcases hσ with rfl | rfl
    · exact cubeNormalComp_hi (by simpa [cubeSpans] using isclose_self 1)
    · exact cubeNormalComp_lo (by simpa [cubeSpans] using n5) (by simpa [cubeSpans] using isclose_self (-1))
  have hq : σ ^ 2 = 1 := by rcases hσ with rfl | rfl <;> norm_num
  have hn : Prim.normal (tile 1 (-1) 1) (point 0 y σ) = vector 0 0 σ := by
    simp only [tile, Prim.normal]
    have p0 : point 0 y σ 0 = 0 := rfl
    have p1 : point 0 y σ 1 = y := rfl
    have p2 : point 0 y σ 2 = σ := rfl
    rw [p0, p1, p2, c0, c1, c2]
    funext i; fin_cases i <;> simp [normalize, vector, norm4, hq]
  rw [e, worldNormal, plate_zero.2.2.2.2, plate_zero.2.1, one_smul, transpose_one, one_mulVec, one_mulVec, hn]
  funext i
  fin_cases i <;> simp [normalize, zeroW, vector, norm4, hq]

theorem plate_journey1 : Nearest (plateComponents argsort) (planeRay (-4.75) (-4) 0.8 0.6) 5 0 ∧
    Journey (plateTracer argsort) (plateCol (-4.75) (-4) 0.8 0.6 1 0) 1
      (plateCol (-0.75 + 1e-6 * 0.6) (-1 + 1e-6 * 0.8) 0.6 0.8 (4 / 3) 1) := by
  have hn : Nearest (plateComponents argsort) (planeRay (-4.75) (-4) 0.8 0.6) 5 ((0 : ℕ) : ℤ) := by
    refine plate_nearest argsort (a0 := 5) (a1 := 7.1875) (b0 := 8 / 0.6) (b1 := 15) (k := 0) (i := 0)
      (plate_hits0 argsort (by norm_num) (by norm_num) ?_ ?_ (by norm_num))
      (plate_hits1 argsort (by norm_num) (by norm_num) ?_ ?_ (by norm_num)) (by norm_num) ?_ (Or.inl ⟨rfl, Or.inl ⟨rfl, rfl⟩⟩)
    · norm_num
    · norm_num
    · norm_num
    · norm_num
    · norm_num
  refine ⟨hn, ?_⟩
  have hj := Journey.next (t := plateTracer argsort) (Journey.start (c0 := plateCol (-4.75) (-4) 0.8 0.6 1 0))
    (not_extinct_of_unit (by simp [plateCol, planeRay, norm4, vector]; norm_num)) hn
    (f := fun c => (plate.material 0).trace (surfaceNormal plate.heap 0) c)
    (by simp [plateTracer, Tracer.new, Scene.component, plate_surfaces0])
  rw [moved_plateCol] at hj
  have hm : plate.material 0 = .glass (.basic (4 / 3)) := by simp [plate]
  simp only [hm] at hj
  rw [show (-4.75 + 5 * 0.8 : ℝ) = -0.75 by norm_num, show (-4 + 5 * 0.6 : ℝ) = -1 by norm_num] at hj
  rw [glass_plateCol (dy' := 0.6) (dz' := 0.8) (n' := 4 / 3)] at hj
  · rw [moved_plateCol] at hj
    exact hj
  · rw [plate_normal (by norm_num) (Or.inr rfl)]
    apply refract_value
    · simp [dot4, vector]; norm_num
    · simp [dot4, vector]
    · norm_num
    · norm_num
    · norm_num
    · rw [if_neg]; simp [dot4, vector]; norm_num
    · simp [dot4, vector]; norm_num
    · rw [one_mul, Spec.sinTo, Real.sqrt_lt' (by norm_num)]
      simp [dot4, vector]; norm_num
    · intro i; fin_cases i <;> simp [dot4, vector] <;> norm_num
    · simp [dot4, vector]; norm_num
    · simp [dot4, vector]; norm_num

theorem plate_journey2 : Nearest (plateComponents argsort) (planeRay (-0.75 + 1e-6 * 0.6) (-1 + 1e-6 * 0.8) 0.6 0.8) (2.5 - 1e-6) 0 ∧
    Journey (plateTracer argsort) (plateCol (-4.75) (-4) 0.8 0.6 1 0) 2
      (plateCol (0.75 + 1e-6 * 0.8) (1 + 1e-6 * 0.6) 0.8 0.6 1 2) ∧
    Nearest (plateComponents argsort) (planeRay (0.75 + 1e-6 * 0.8) (1 + 1e-6 * 0.6) 0.8 0.6) (5 - 1e-6) 1 := by
  have hn : Nearest (plateComponents argsort) (planeRay (-0.75 + 1e-6 * 0.6) (-1 + 1e-6 * 0.8) 0.6 0.8) (2.5 - 1e-6) ((0 : ℕ) : ℤ) := by
    refine plate_nearest argsort (a0 := -1e-6) (a1 := 2.5 - 1e-6) (b0 := 6.25 - 1e-6) (b1 := 7.5 - 1e-6) (k := 0) (i := 1)
      (plate_hits0 argsort (by norm_num) (by norm_num) ?_ ?_ (by norm_num))
      (plate_hits1 argsort (by norm_num) (by norm_num) ?_ ?_ (by norm_num)) (by norm_num) ?_
      (Or.inl ⟨rfl, Or.inr ⟨rfl, rfl, by norm_num⟩⟩)
    · norm_num
    · norm_num
    · norm_num
    · norm_num
    · norm_num
  have hn2 : Nearest (plateComponents argsort) (planeRay (0.75 + 1e-6 * 0.8) (1 + 1e-6 * 0.6) 0.8 0.6) (5 - 1e-6) ((1 : ℕ) : ℤ) := by
    refine plate_nearest argsort (a0 := -2.1875 - 1e-6) (a1 := -1e-6) (b0 := 5 - 1e-6) (b1 := 4 / 0.6 - 1e-6) (k := 1) (i := 0)
      (plate_hits0 argsort (by norm_num) (by norm_num) ?_ ?_ (by norm_num))
      (plate_hits1 argsort (by norm_num) (by norm_num) ?_ ?_ (by norm_num)) (by norm_num) ?_
      (Or.inr ⟨rfl, rfl, rfl, by norm_num, by norm_num⟩)
    · norm_num
    · norm_num
    · norm_num
    · norm_num
    · norm_num
  refine ⟨hn, ?_, hn2⟩
  have hj := Journey.next (t := plateTracer argsort) (plate_journey1 argsort).2
    (not_extinct_of_unit (by simp [plateCol, planeRay, norm4, vector]; norm_num)) hn
    (f := fun c => (plate.material 0).trace (surfaceNormal plate.heap 0) c)
    (by simp [plateTracer, Tracer.new, Scene.component, plate_surfaces0])
  rw [moved_plateCol] at hj
  have hm : plate.material 0 = .glass (.basic (4 / 3)) := by simp [plate]
  simp only [hm] at hj
  rw [show (-0.75 + 1e-6 * 0.6 + (2.5 - 1e-6) * 0.6 : ℝ) = 0.75 by norm_num,
    show (-1 + 1e-6 * 0.8 + (2.5 - 1e-6) * 0.8 : ℝ) = 1 by norm_num] at hj
  rw [glass_plateCol (dy' := 0.8) (dz' := 0.6) (n' := 1)] at hj
  · rw [moved_plateCol] at hj
    exact hj
  · rw [plate_normal (by norm_num) (Or.inl rfl)]
    apply refract_value
    · simp [dot4, vector]; norm_num
    · simp [dot4, vector]
    · norm_num
    · norm_num
    · norm_num
    · rw [if_pos]; simp [dot4, vector]; norm_num
    · simp [dot4, vector]; norm_num
    · rw [show (1 : ℝ) = 4 / 3 * (3 / 4) by norm_num]
      refine mul_lt_mul_of_pos_left ?_ (by norm_num)
      rw [Spec.sinTo, Real.sqrt_lt' (by norm_num)]
      simp [dot4, vector]; norm_num
    · intro i; fin_cases i <;> simp [dot4, vector] <;> norm_num
    · simp [dot4, vector]; norm_num
    · simp [dot4, vector]; norm_num

end PyRayT
