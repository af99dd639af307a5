import Mathlib.Analysis.SpecialFunctions.Trigonometric.Inverse
import Verif.Spec.MirrorBox
import Verif.Props.Fermat
import Verif.Proofs.MirrorHall

/-!
# Property C102: flat mirrors, mirror boxes and corner reflectors
-/

namespace PyRayT

open Classical Matrix Spec

variable {argsort : List EReal → List ℕ} {fuel : ℕ} {s : Scene} {objs : List ℕ} {depth : ℕ}

/-- unit vector along a coordinate axis -/
def axisVec (i : Fin 3) : Vec4 := fun j => if j = i.castSucc then 1 else 0

/-- the faces of a rectangularly placed cuboid have their normals along the images of the axes -/
theorem rectangular_normal {w : Mat4} (hw : Rectangular w) (hd : w.det ≠ 0) (i : Fin 3) :
    0 < dot4 (w *ᵥ axisVec i) (w *ᵥ axisVec i) ∧
    dot4 (w *ᵥ axisVec i) (w *ᵥ axisVec i) • zeroW ((w⁻¹)ᵀ *ᵥ axisVec i) = w *ᵥ axisVec i := by
  have hu : IsUnit w.det := isUnit_iff_ne_zero.2 hd
  set c := w *ᵥ axisVec i with hc
  have ce : ∀ k, c k = w k i.castSucc := by
    intro k
    rw [hc, mulVec4]
    fin_cases i <;> simp [axisVec]
  have c3 : c 3 = 0 := by
    rw [ce, hw.1]
    fin_cases i <;> rfl
  have hne : c ≠ 0 := by
    intro h0
    have : axisVec i = w⁻¹ *ᵥ c := by rw [hc, mulVec_mulVec, nonsing_inv_mul _ hu, one_mulVec]
    rw [h0, mulVec_zero] at this
    have := congrFun this i.castSucc
    simp [axisVec] at this
  have hpos : 0 < dot4 c c := by
    by_contra hn
    apply hne
    have h0 : c 0 * c 0 + c 1 * c 1 + c 2 * c 2 + c 3 * c 3 ≤ 0 := by simpa [dot4] using hn
    funext k
    fin_cases k <;> simp <;> nlinarith [mul_self_nonneg (c 0), mul_self_nonneg (c 1), mul_self_nonneg (c 2), mul_self_nonneg (c 3)]
  refine ⟨hpos, ?_⟩
  -- wᵀ c = |c|² e_i + t e_3
  have h1 : wᵀ *ᵥ c = dot4 c c • axisVec i + (w 0 3 * c 0 + w 1 3 * c 1 + w 2 3 * c 2) • (![0, 0, 0, 1] : Vec4) := by
    funext k
    rw [mulVec4]
    simp only [transpose_apply, Pi.add_apply, Pi.smul_apply, smul_eq_mul, c3, dot4]
    have h01 := hw.2 0 1 (by decide); have h02 := hw.2 0 2 (by decide); have h12 := hw.2 1 2 (by decide)
    simp at h01 h02 h12
    simp only [ce]
    fin_cases i <;> fin_cases k <;> simp [axisVec] <;> linarith
  have h2 : (w⁻¹)ᵀ *ᵥ (![0, 0, 0, 1] : Vec4) = ![0, 0, 0, 1] := by
    have e : wᵀ *ᵥ (![0, 0, 0, 1] : Vec4) = ![0, 0, 0, 1] := by
      funext k
      rw [mulVec4]
      simp only [transpose_apply, hw.1]
      fin_cases k <;> simp
    have : (w⁻¹)ᵀ *ᵥ (wᵀ *ᵥ (![0, 0, 0, 1] : Vec4)) = ![0, 0, 0, 1] := by
      rw [mulVec_mulVec, ← transpose_mul, mul_nonsing_inv _ hu, transpose_one, one_mulVec]
    rwa [e] at this
  have h3 : c = dot4 c c • ((w⁻¹)ᵀ *ᵥ axisVec i) + (w 0 3 * c 0 + w 1 3 * c 1 + w 2 3 * c 2) • (![0, 0, 0, 1] : Vec4) := by
    have : (w⁻¹)ᵀ *ᵥ (wᵀ *ᵥ c) = c := by
      rw [mulVec_mulVec, ← transpose_mul, mul_nonsing_inv _ hu, transpose_one, one_mulVec]
    rw [← this]
    conv_rhs => rw [this]
    rw [h1, mulVec_add, mulVec_smul, mulVec_smul, h2]
  funext k
  have hk := congrFun h3 k
  simp only [Pi.add_apply, Pi.smul_apply, smul_eq_mul] at hk ⊢
  fin_cases k <;> simp [zeroW] at hk ⊢ <;> linarith

theorem rectangular_dot {w : Mat4} (hw : Rectangular w) {e : Vec4} (he : e 3 = 0) (i : Fin 3) :
    dot4 (w *ᵥ e) (w *ᵥ axisVec i) = e i.castSucc * dot4 (w *ᵥ axisVec i) (w *ᵥ axisVec i) := by
  have h01 := hw.2 0 1 (by decide); have h02 := hw.2 0 2 (by decide); have h12 := hw.2 1 2 (by decide)
  have r30 : w 3 0 = 0 := by rw [hw.1]; rfl
  have r31 : w 3 1 = 0 := by rw [hw.1]; rfl
  have r32 : w 3 2 = 0 := by rw [hw.1]; rfl
  simp at h01 h02 h12
  simp only [dot4, mulVec4, he, r30, r31, r32]
  fin_cases i <;> simp [axisVec]
  · linear_combination e 1 * h01 + e 2 * h02
  · linear_combination e 0 * h01 + e 2 * h12
  · linear_combination e 0 * h02 + e 1 * h12

/-- a reflection at a face of the box reverses one of the local components of the direction -/
theorem reflect_local {w : Mat4} (hw : Rectangular w) (hd : w.det ≠ 0) {u v n : Vec4} (hu : u 3 = 0) {i : Fin 3} {μ : ℝ}
    (hn : n = μ • (w *ᵥ axisVec i)) (h1 : dot4 n n = 1) (hv : ∀ k, v k = u k - 2 * dot4 u n * n k) (j : Fin 3) :
    (w⁻¹ *ᵥ v) j.castSucc = (if j = i then -1 else 1) * (w⁻¹ *ᵥ u) j.castSucc := by
  have hun : IsUnit w.det := isUnit_iff_ne_zero.2 hd
  set e := w⁻¹ *ᵥ u with he
  have hue : u = w *ᵥ e := by rw [he, mulVec_mulVec, mul_nonsing_inv _ hun, one_mulVec]
  have e3 : e 3 = 0 := by rw [← hu, hue, affine_three ⟨hw.1, hd⟩]
  have hdot : dot4 u (w *ᵥ axisVec i) = e i.castSucc * dot4 (w *ᵥ axisVec i) (w *ᵥ axisVec i) := by
    rw [hue]; exact rectangular_dot hw e3 i
  have hμ : μ * μ * dot4 (w *ᵥ axisVec i) (w *ᵥ axisVec i) = 1 := by
    rw [← h1, hn]; simp [dot4]; ring
  have hv' : v = w *ᵥ (e - (2 * e i.castSucc) • axisVec i) := by
    funext k
    rw [mulVec_sub, mulVec_smul, ← hue, hv k, hn]
    have : dot4 u (μ • (w *ᵥ axisVec i)) = μ * dot4 u (w *ᵥ axisVec i) := by simp [dot4]; ring
    rw [this, hdot]
    simp only [Pi.sub_apply, Pi.smul_apply, smul_eq_mul]
    linear_combination -2 * e i.castSucc * (w *ᵥ axisVec i) k * hμ
  rw [hv', mulVec_mulVec, nonsing_inv_mul _ hun, one_mulVec]
  simp only [Pi.sub_apply, Pi.smul_apply, smul_eq_mul, axisVec]
  by_cases h : j = i
  · subst h; simp; ring
  · rw [if_neg (fun hh => h (Fin.castSucc_injective _ hh)), if_neg h]; simp

/-- the points of a ray: its start, then the ends of its rows -/
noncomputable def rayPoints (rows : ℕ → Row) : ℕ → Vec4
  | 0 => (rows 0).begin
  | g + 1 => (rows g).finish

theorem row_piece (ha : IsArgsort argsort) {sources : List (ℕ → List Col)} {m : ℕ} {limit : ℤ}
    (b : Bench argsort fuel s objs depth sources m) {k : ℕ} {f : Tracer}
    (ht : Tracer.Traces k (Tracer.new sources (objs.map (s.component argsort depth)) m limit) f) {n : ℕ} {rows : ℕ → Row}
    (hrows : ∀ g ≤ n, rows g ∈ f.frame) (hfol : ∀ g < n, Follows (rows g) (rows (g + 1))) {g : ℕ} (hg : g ≤ n) :
    ∃ L : ℝ, 0 < L ∧ rayPoints rows (g + 1) = rayPoints rows g + L • (rows g).dir ∧
      √((rayPoints rows (g + 1) 0 - rayPoints rows g 0) ^ 2 + (rayPoints rows (g + 1) 1 - rayPoints rows g 1) ^ 2 +
        (rayPoints rows (g + 1) 2 - rayPoints rows g 2) ^ 2) = L := by
  have ok := b.ok ha limit
  obtain ⟨d, hd, -, hst⟩ := C28_segment ok ht _ (hrows g hg)
  have key : ∃ L : ℝ, 0 < L ∧ rayPoints rows (g + 1) = rayPoints rows g + L • (rows g).dir := by
    rcases Nat.eq_zero_or_pos g with rfl | hpos
    · refine ⟨d, hd, ?_⟩
      funext i
      fin_cases i <;> simp [rayPoints, Row.finish, Row.begin, Row.dir, point, vector, hst]
    · obtain ⟨g, rfl⟩ : ∃ g', g = g' + 1 := ⟨g - 1, by omega⟩
      obtain ⟨δ, hδ, hconn⟩ : ∃ δ : ℝ, 0 < δ ∧ ∀ i, (rows (g + 1)).start i = (rows g).stop i + δ * (rows (g + 1)).tilt i :=
        ⟨1e-6, by norm_num, (C28_connected ok ht _ _ (hrows g (by omega)) (hrows (g + 1) hg) (hfol g (by omega)).1 (hfol g (by omega)).2).1⟩
      refine ⟨d + δ, by positivity, ?_⟩
      funext i
      fin_cases i <;> simp [rayPoints, Row.finish, Row.dir, point, vector, hst, hconn] <;> ring
  obtain ⟨L, hL, e⟩ := key
  refine ⟨L, hL, e, ?_⟩
  have hunit := b.unit ha ht (hrows g hg)
  simp only [dot4, Row.dir, vector, cons_val] at hunit
  rw [e]
  simp only [Pi.add_apply, Pi.smul_apply, smul_eq_mul, add_sub_cancel_left]
  simp only [Row.dir, vector, cons_val]
  rw [show (L * (rows g).tilt 0) ^ 2 + (L * (rows g).tilt 1) ^ 2 + (L * (rows g).tilt 2) ^ 2 = L ^ 2 by linear_combination L ^ 2 * hunit,
    Real.sqrt_sq hL.le]

/-- The interaction at the end of a row is a reflection: the surface is a mirror, or a glass beyond the critical angle. -/
def Spec.Reflects (m : Material) (r : Row) (n : Vec4) : Prop :=
  m = .mirror ∨ ∃ g, m = .glass g ∧ (if 0 < dot4 r.dir n then 1 else g.indexAt r.wavelength) ≤ r.index * Spec.sinTo r.dir n

theorem reflects_dir {m : Material} {r : Row} {n w : Vec4} {n2 : ℝ} (hr : Reflects m r n) (hi : Interacts m r.wavelength n r.dir r.index w n2) :
    ∀ k, w k = r.dir k - 2 * dot4 r.dir n * n k := by
  rcases hr with rfl | ⟨g, rfl, hle⟩
  · exact hi.1
  · rcases hi with ⟨hlt, -⟩ | ⟨-, h, -⟩
    · exact absurd hlt (not_lt.2 hle)
    · exact h

/-- **C102, boxes.** Let a ray be reflected `n` times by the faces of one cuboid, moved, turned and scaled in any way that keeps it rectangular: by mirror
faces, or from inside a cuboid of glass beyond the critical angle. In the coordinates of the cuboid each component of the direction keeps its size,
and is reversed once for each reflection at a face across it. The ray ends where the straight line of the same length, folded into the
cuboid, would end. -/
theorem C102_box (ha : IsArgsort argsort) {sources : List (ℕ → List Col)} {m : ℕ} {limit : ℤ}
    (b : Bench argsort fuel s objs depth sources m) {k : ℕ} {f : Tracer}
    (ht : Tracer.Traces k (Tracer.new sources (objs.map (s.component argsort depth)) m limit) f) {n : ℕ} {rows : ℕ → Row}
    (hrows : ∀ g ≤ n, rows g ∈ f.frame) (hfol : ∀ g < n, Follows (rows g) (rows (g + 1)))
    {a x id : ℕ} (haa : a ∈ objs) (hx : (id, x) ∈ surfaceIds depth s.heap a) {p q : Fin 3 → ℝ} (hk : (s.heap.obj x).kind = .prim (.cube p q))
    (hw : Rectangular (s.heap.obj x).world) (hs : ∀ g < n, (rows g).surface = (id : ℤ)) {face : ℕ → Fin 3} {side : ℕ → Bool}
    (hface : ∀ g < n, OnFace p q (face g) (side g) ((s.heap.obj x).world⁻¹ *ᵥ (rows g).finish))
    (hrefl : ∀ g < n, Reflects (s.material x) (rows g) (surfaceNormal s.heap x (rows g).finish)) (j : Fin 3) :
    ((s.heap.obj x).world⁻¹ *ᵥ (rows n).dir) j.castSucc =
      (-1) ^ ((Finset.range n).filter fun g => face g = j).card * ((s.heap.obj x).world⁻¹ *ᵥ (rows 0).dir) j.castSucc ∧
    ∀ F, Folds (min (p j) (q j)) (max (p j) (q j)) F →
      F (((s.heap.obj x).world⁻¹ *ᵥ (rows n).finish) j.castSucc) =
        F (((s.heap.obj x).world⁻¹ *ᵥ (rows 0).begin) j.castSucc +
          opticalPath (fun _ => 1) (rayPoints rows) (n + 1) * ((s.heap.obj x).world⁻¹ *ᵥ (rows 0).dir) j.castSucc) := by
  have hinv := reaches_inv argsort empty_inv b.history.reaches
  obtain ⟨hxs, -, -⟩ := surfaceIds_spec hinv depth a (b.exist a haa) _ hx
  obtain ⟨hdet, hobj, -⟩ := hinv.synced x hxs
  set w := (s.heap.obj x).world with hwd
  -- one reflection
  have hstep : ∀ g < n, ∀ j : Fin 3, (w⁻¹ *ᵥ (rows (g + 1)).dir) j.castSucc = (if j = face g then -1 else 1) * (w⁻¹ *ᵥ (rows g).dir) j.castSucc := by
    intro g hg j
    obtain ⟨hn, -, hi⟩ := b.optics ha ht (hrows g hg.le) (hrows (g + 1) hg) (hfol g hg) haa hx (hs g hg)
    have hv := reflects_dir (hrefl g hg) hi
    obtain ⟨hpos, hnorm⟩ := rectangular_normal hw hdet (face g)
    obtain ⟨σ, hσ⟩ : ∃ σ : ℝ, Prim.normal (.cube p q) ((s.heap.obj x).objT *ᵥ (rows g).finish) = σ • axisVec (face g) := by
      rw [hobj, cube_face_normal (hface g hg)]
      exact ⟨if side g then 1 else -1, by funext k; simp only [axisVec, Pi.smul_apply, smul_eq_mul]; split <;> simp⟩
    have hz : ∀ (t : ℝ) (v : Vec4), zeroW (t • v) = t • zeroW v := by
      intro t v; funext k; fin_cases k <;> simp [zeroW]
    have hz2 : zeroW ((w⁻¹)ᵀ *ᵥ axisVec (face g)) = (dot4 (w *ᵥ axisVec (face g)) (w *ᵥ axisVec (face g)))⁻¹ • (w *ᵥ axisVec (face g)) := by
      rw [← hnorm, smul_smul]
      rw [hnorm, inv_mul_cancel₀ hpos.ne', one_smul]
    obtain ⟨μ, hμ⟩ : ∃ μ : ℝ, surfaceNormal s.heap x (rows g).finish = μ • (w *ᵥ axisVec (face g)) := by
      simp only [surfaceNormal, hk, worldNormal]
      rw [hσ, hobj, mulVec_smul, hz, hz2, normalize_smul_eq, smul_smul, smul_smul, smul_smul]
      exact ⟨_, rfl⟩
    exact reflect_local hw hdet rfl hμ hn hv j
  constructor
  · have : ∀ i ≤ n, (w⁻¹ *ᵥ (rows i).dir) j.castSucc =
        (-1) ^ ((Finset.range i).filter fun g => face g = j).card * (w⁻¹ *ᵥ (rows 0).dir) j.castSucc := by
      intro i
      induction i with
      | zero => intro _; simp
      | succ i ih =>
        intro hi
        rw [hstep i hi, ih (by omega), Finset.range_add_one, Finset.filter_insert]
        by_cases h : face i = j
        · rw [if_pos h.symm, if_pos h, Finset.card_insert_of_notMem (by simp)]
          ring
        · rw [if_neg (Ne.symm h), if_neg h, one_mul]
    exact this n le_rfl
  · intro F hF
    -- the folded line
    have hfold : ∀ i ≤ n, ∀ t : ℝ, F ((w⁻¹ *ᵥ rayPoints rows i) j.castSucc + t * (w⁻¹ *ᵥ (rows i).dir) j.castSucc) =
        F ((w⁻¹ *ᵥ (rows 0).begin) j.castSucc + (opticalPath (fun _ => 1) (rayPoints rows) i + t) * (w⁻¹ *ᵥ (rows 0).dir) j.castSucc) := by
      intro i
      induction i with
      | zero => intro _ t; simp [opticalPath, rayPoints]
      | succ i ih =>
        intro hi t
        obtain ⟨L, -, hL, hlen⟩ := row_piece ha b ht hrows hfol (show i ≤ n by omega)
        have hpt : (w⁻¹ *ᵥ rayPoints rows (i + 1)) j.castSucc = (w⁻¹ *ᵥ rayPoints rows i) j.castSucc + L * (w⁻¹ *ᵥ (rows i).dir) j.castSucc := by
          rw [hL, mulVec_add, mulVec_smul]; rfl
        have hpath : opticalPath (fun _ => 1) (rayPoints rows) (i + 1) = opticalPath (fun _ => 1) (rayPoints rows) i + L := by
          unfold opticalPath
          rw [Finset.sum_range_succ, hlen, one_mul]
        have hnext : F ((w⁻¹ *ᵥ rayPoints rows (i + 1)) j.castSucc + t * (w⁻¹ *ᵥ (rows (i + 1)).dir) j.castSucc) =
            F ((w⁻¹ *ᵥ rayPoints rows (i + 1)) j.castSucc + t * (w⁻¹ *ᵥ (rows i).dir) j.castSucc) := by
          rw [hstep i hi]
          by_cases h : j = face i
          · rw [if_pos h]
            have hon := (hface i hi).1
            rw [← h] at hon
            have hon : (w⁻¹ *ᵥ rayPoints rows (i + 1)) j.castSucc = _ := hon
            rw [hon]
            cases side i
            · simp only [Bool.false_eq_true, if_false]
              rw [← hF.low]
              congr 1
              ring
            · simp only [if_true]
              rw [← hF.high]
              congr 1
              ring
          · rw [if_neg h, one_mul]
        rw [hnext, hpt, hpath, add_assoc, ← add_mul, ih (by omega), add_assoc]
    obtain ⟨L, -, hL, hlen⟩ := row_piece ha b ht hrows hfol le_rfl
    have hpath : opticalPath (fun _ => 1) (rayPoints rows) (n + 1) = opticalPath (fun _ => 1) (rayPoints rows) n + L := by
      unfold opticalPath
      rw [Finset.sum_range_succ, hlen, one_mul]
    rw [hpath, ← hfold n le_rfl]
    have : (w⁻¹ *ᵥ rayPoints rows (n + 1)) j.castSucc = (w⁻¹ *ᵥ rayPoints rows n) j.castSucc + L * (w⁻¹ *ᵥ (rows n).dir) j.castSucc := by
      rw [hL, mulVec_add, mulVec_smul]; rfl
    rw [← this]
    rfl

/-- foldings exist -/
theorem folds_exist {lo hi : ℝ} (h : lo < hi) : ∃ F, Folds lo hi F := by
  have hw : 0 < hi - lo := by linarith
  have hpi := Real.pi_pos
  refine ⟨fun x => lo + (hi - lo) / Real.pi * Real.arccos (Real.cos (Real.pi * ((x - lo) / (hi - lo)))), ⟨?_, ?_, ?_⟩⟩
  · intro x h1 h2
    have a1 : 0 ≤ (x - lo) / (hi - lo) := div_nonneg (by linarith) hw.le
    have a2 : (x - lo) / (hi - lo) ≤ 1 := (div_le_one hw).2 (by linarith)
    show lo + (hi - lo) / Real.pi * Real.arccos (Real.cos (Real.pi * ((x - lo) / (hi - lo)))) = x
    rw [Real.arccos_cos (by positivity) (by nlinarith)]
    field_simp
    ring
  · intro x
    show lo + (hi - lo) / Real.pi * Real.arccos (Real.cos (Real.pi * ((2 * lo - x - lo) / (hi - lo)))) = _
    rw [show Real.pi * ((2 * lo - x - lo) / (hi - lo)) = -(Real.pi * ((x - lo) / (hi - lo))) by ring, Real.cos_neg]
  · intro x
    show lo + (hi - lo) / Real.pi * Real.arccos (Real.cos (Real.pi * ((2 * hi - x - lo) / (hi - lo)))) = _
    rw [show Real.pi * ((2 * hi - x - lo) / (hi - lo)) = 2 * Real.pi - Real.pi * ((x - lo) / (hi - lo)) by field_simp; ring, Real.cos_two_pi_sub]

section
variable {sources : List (ℕ → List Col)} {m : ℕ} {limit : ℤ}

/-- **C102, corner reflectors.** A ray reflected by three mirrors (or total reflections) with mutually perpendicular normals, one after the other and in any order, leaves
exactly opposite to the direction in which it came. -/
theorem C102_corner (ha : IsArgsort argsort) (b : Bench argsort fuel s objs depth sources m) {k : ℕ} {f : Tracer}
    (ht : Tracer.Traces k (Tracer.new sources (objs.map (s.component argsort depth)) m limit) f) {rows : ℕ → Row}
    (hrows : ∀ g ≤ 3, rows g ∈ f.frame) (hfol : ∀ g < 3, Follows (rows g) (rows (g + 1))) {x : ℕ → ℕ}
    (hx : ∀ g < 3, ∃ a ∈ objs, ∃ id, (id, x g) ∈ surfaceIds depth s.heap a ∧ (rows g).surface = (id : ℤ))
    (hrefl : ∀ g < 3, Reflects (s.material (x g)) (rows g) (surfaceNormal s.heap (x g) (rows g).finish))
    (hperp : ∀ g < 3, ∀ g' < g, dot4 (surfaceNormal s.heap (x g) (rows g).finish) (surfaceNormal s.heap (x g') (rows g').finish) = 0) :
    ∀ i, (rows 3).tilt i = -(rows 0).tilt i := by
  have hstep : ∀ g < 3, dot4 (surfaceNormal s.heap (x g) (rows g).finish) (surfaceNormal s.heap (x g) (rows g).finish) = 1 ∧
      ∀ i, (rows (g + 1)).dir i = (rows g).dir i -
        2 * dot4 (rows g).dir (surfaceNormal s.heap (x g) (rows g).finish) * surfaceNormal s.heap (x g) (rows g).finish i := by
    intro g hg
    obtain ⟨a, haa, id, hid, hsf⟩ := hx g hg
    obtain ⟨hn, -, hi⟩ := b.optics ha ht (hrows g hg.le) (hrows (g + 1) hg) (hfol g hg) haa hid hsf
    exact ⟨hn, reflects_dir (hrefl g hg) hi⟩
  obtain ⟨u0, h0⟩ := hstep 0 (by norm_num)
  obtain ⟨u1, h1⟩ := hstep 1 (by norm_num)
  obtain ⟨u2, h2⟩ := hstep 2 (by norm_num)
  simp only [zero_add, Nat.reduceAdd] at h0 h1 h2
  have p10 := hperp 1 (by norm_num) 0 (by norm_num)
  have p20 := hperp 2 (by norm_num) 0 (by norm_num)
  have p21 := hperp 2 (by norm_num) 1 (by norm_num)
  have t0 : surfaceNormal s.heap (x 0) (rows 0).finish 3 = 0 := surfaceNormal_three _ _ _
  have t1 : surfaceNormal s.heap (x 1) (rows 1).finish 3 = 0 := surfaceNormal_three _ _ _
  have t2 : surfaceNormal s.heap (x 2) (rows 2).finish 3 = 0 := surfaceNormal_three _ _ _
  generalize surfaceNormal s.heap (x 0) (rows 0).finish = n0 at *
  generalize surfaceNormal s.heap (x 1) (rows 1).finish = n1 at *
  generalize surfaceNormal s.heap (x 2) (rows 2).finish = n2 at *
  simp only [dot4, t0, t1, t2, mul_zero, add_zero] at u0 u1 u2 p10 p20 p21
  -- the three normals form a basis
  have hA : (!![n0 0, n0 1, n0 2; n1 0, n1 1, n1 2; n2 0, n2 1, n2 2] : Matrix (Fin 3) (Fin 3) ℝ) *
      (!![n0 0, n0 1, n0 2; n1 0, n1 1, n1 2; n2 0, n2 1, n2 2] : Matrix (Fin 3) (Fin 3) ℝ)ᵀ = 1 := by
    ext i j
    rw [Matrix.mul_apply, Fin.sum_univ_three, Matrix.one_apply]
    fin_cases i <;> fin_cases j <;> simp <;> linarith
  have hB := mul_eq_one_comm.1 hA
  have hc : ∀ i j : Fin 3, n0 i.castSucc * n0 j.castSucc + n1 i.castSucc * n1 j.castSucc + n2 i.castSucc * n2 j.castSucc = if i = j then 1 else 0 := by
    intro i j
    have := congrFun (congrFun hB i) j
    rw [Matrix.mul_apply, Fin.sum_univ_three, Matrix.one_apply] at this
    fin_cases i <;> fin_cases j <;> simpa using this
  have c00 := hc 0 0; have c01 := hc 0 1; have c02 := hc 0 2; have c11 := hc 1 1; have c12 := hc 1 2; have c22 := hc 2 2
  simp at c00 c01 c02 c11 c12 c22
  have w0 : (rows 0).dir 3 = 0 := rfl
  have e1 : dot4 (rows 1).dir n1 = dot4 (rows 0).dir n1 := by
    generalize dot4 (rows 0).dir n0 = A at h0
    simp only [dot4, t1, mul_zero, add_zero]
    linear_combination n1 0 * h0 0 + n1 1 * h0 1 + n1 2 * h0 2 - 2 * A * p10
  have e2 : dot4 (rows 2).dir n2 = dot4 (rows 0).dir n2 := by
    generalize dot4 (rows 0).dir n0 = A at h0
    generalize dot4 (rows 1).dir n1 = B at h1
    simp only [dot4, t2, mul_zero, add_zero]
    linear_combination n2 0 * h0 0 + n2 1 * h0 1 + n2 2 * h0 2 + n2 0 * h1 0 + n2 1 * h1 1 + n2 2 * h1 2 - 2 * A * p20 - 2 * B * p21
  have key : ∀ i, (rows 3).dir i = (rows 0).dir i - 2 * dot4 (rows 0).dir n0 * n0 i - 2 * dot4 (rows 0).dir n1 * n1 i - 2 * dot4 (rows 0).dir n2 * n2 i := by
    intro i
    rw [h2, e2, h1, e1, h0]
  have k0 := key 0
  have k1 := key 1
  have k2 := key 2
  simp only [dot4, w0, t0, t1, t2, mul_zero, add_zero] at k0 k1 k2
  intro i
  fin_cases i
  · show (rows 3).dir 0 = -(rows 0).dir 0
    linear_combination k0 - 2 * (rows 0).dir 0 * c00 - 2 * (rows 0).dir 1 * c01 - 2 * (rows 0).dir 2 * c02
  · show (rows 3).dir 1 = -(rows 0).dir 1
    linear_combination k1 - 2 * (rows 0).dir 0 * c01 - 2 * (rows 0).dir 1 * c11 - 2 * (rows 0).dir 2 * c12
  · show (rows 3).dir 2 = -(rows 0).dir 2
    linear_combination k2 - 2 * (rows 0).dir 0 * c02 - 2 * (rows 0).dir 1 * c12 - 2 * (rows 0).dir 2 * c22

/-- **C102, pairs of mirrors.** After reflections at two flat mirrors (or total reflections), a ray keeps its component along every direction common to both
mirrors. If it travels across their common edge, it has been turned by twice the angle between their normals, whatever the
angle at which it came. -/
theorem C102_pair (ha : IsArgsort argsort) (b : Bench argsort fuel s objs depth sources m) {k : ℕ} {f : Tracer}
    (ht : Tracer.Traces k (Tracer.new sources (objs.map (s.component argsort depth)) m limit) f) {rows : ℕ → Row}
    (hrows : ∀ g ≤ 2, rows g ∈ f.frame) (hfol : ∀ g < 2, Follows (rows g) (rows (g + 1))) {x : ℕ → ℕ}
    (hx : ∀ g < 2, ∃ a ∈ objs, ∃ id, (id, x g) ∈ surfaceIds depth s.heap a ∧ (rows g).surface = (id : ℤ))
    (hrefl : ∀ g < 2, Reflects (s.material (x g)) (rows g) (surfaceNormal s.heap (x g) (rows g).finish)) {n0 n1 : Vec4}
    (hn0 : n0 = surfaceNormal s.heap (x 0) (rows 0).finish) (hn1 : n1 = surfaceNormal s.heap (x 1) (rows 1).finish) :
    (∀ c, dot4 c n0 = 0 → dot4 c n1 = 0 → dot4 c (rows 2).dir = dot4 c (rows 0).dir) ∧
    ((rows 0).dir 0 * (n0 1 * n1 2 - n0 2 * n1 1) + (rows 0).dir 1 * (n0 2 * n1 0 - n0 0 * n1 2) + (rows 0).dir 2 * (n0 0 * n1 1 - n0 1 * n1 0) = 0 →
      ∀ α, dot4 n0 n1 = Real.cos α → dot4 (rows 0).dir (rows 2).dir = Real.cos (2 * α)) := by
  have hstep : ∀ g < 2, dot4 (surfaceNormal s.heap (x g) (rows g).finish) (surfaceNormal s.heap (x g) (rows g).finish) = 1 ∧
      ∀ i, (rows (g + 1)).dir i = (rows g).dir i -
        2 * dot4 (rows g).dir (surfaceNormal s.heap (x g) (rows g).finish) * surfaceNormal s.heap (x g) (rows g).finish i := by
    intro g hg
    obtain ⟨a, haa, id, hid, hsf⟩ := hx g hg
    obtain ⟨hn, -, hi⟩ := b.optics ha ht (hrows g hg.le) (hrows (g + 1) hg) (hfol g hg) haa hid hsf
    exact ⟨hn, reflects_dir (hrefl g hg) hi⟩
  obtain ⟨u0, h0⟩ := hstep 0 (by norm_num)
  obtain ⟨u1, h1⟩ := hstep 1 (by norm_num)
  simp only [zero_add, Nat.reduceAdd] at h0 h1
  have t0 : n0 3 = 0 := by rw [hn0]; exact surfaceNormal_three _ _ _
  have t1 : n1 3 = 0 := by rw [hn1]; exact surfaceNormal_three _ _ _
  have hu := b.unit ha ht (hrows 0 (by norm_num))
  rw [← hn0] at u0 h0
  rw [← hn1] at u1 h1
  have w0 : (rows 0).dir 3 = 0 := rfl
  generalize (rows 0).dir = u at *
  generalize (rows 1).dir = v at *
  generalize (rows 2).dir = w at *
  constructor
  · intro c c0 c1
    have hw : ∀ i, w i = u i - 2 * dot4 u n0 * n0 i - 2 * dot4 v n1 * n1 i := fun i => by rw [h1, h0]
    generalize dot4 v n1 = B at *
    generalize dot4 u n0 = A at *
    simp only [dot4] at c0 c1 ⊢
    simp only [hw]
    linear_combination -2 * A * c0 - 2 * B * c1
  · intro htri α hα
    rw [Real.cos_two_mul, ← hα]
    have e1 : dot4 v n1 = dot4 u n1 - 2 * dot4 u n0 * dot4 n0 n1 := by
      simp only [dot4, h0]; ring
    have e2 : dot4 u w = dot4 u u - 2 * dot4 u n0 * dot4 u n0 - 2 * dot4 v n1 * dot4 u n1 := by
      have hw : ∀ i, w i = u i - 2 * dot4 u n0 * n0 i - 2 * dot4 v n1 * n1 i := fun i => by rw [h1, h0]
      generalize dot4 v n1 = B at *
      simp only [dot4] at hw ⊢
      simp only [hw]
      ring
    rw [e2, e1, hu]
    simp only [dot4, t0, t1, w0, mul_zero, add_zero] at u0 u1 hu ⊢
    linear_combination 2 * (u 0 * (n0 1 * n1 2 - n0 2 * n1 1) + u 1 * (n0 2 * n1 0 - n0 0 * n1 2) + u 2 * (n0 0 * n1 1 - n0 1 * n1 0)) * htri + (-2 * (n0 0 * n0 0 + n0 1 * n0 1 + n0 2 * n0 2) * (n1 0 * n1 0 + n1 1 * n1 1 + n1 2 * n1 2) + 2 * (n0 0 * n1 0 + n0 1 * n1 1 + n0 2 * n1 2) ^ 2) * hu + (-2 * (n1 0 * n1 0 + n1 1 * n1 1 + n1 2 * n1 2) + 2 * (u 0 * n1 0 + u 1 * n1 1 + u 2 * n1 2) ^ 2) * u0 + (-2 + 2 * (u 0 * n0 0 + u 1 * n0 1 + u 2 * n0 2) ^ 2) * u1

end

/-! ### Example: a hall with mirrors for walls -/

/-- the walls at which the ray is reflected -/
theorem hall_walls {rows : ℕ → Row} (p0 : (rows 0).finish = point (8 / 15) (1 / 2) 1) (p1 : (rows 1).finish = point (13 / 15) 1 0)
    (p2 : (rows 2).finish = point 1 (4 / 5) (-2 / 5)) {face : ℕ → Fin 3} (hface : face = fun g => if g = 0 then 2 else if g = 1 then 1 else 0) :
    ∀ g < 3, OnFace ![-1, -1, -1] ![1, 1, 1] (face g) true (rows g).finish := by
  intro g hg
  subst hface
  interval_cases g
  · rw [p0]
    refine hall_face (by simp [point]) fun i hi => ?_
    fin_cases i <;> simp [point] at hi ⊢ <;> norm_num [abs_lt]
  · rw [p1]
    refine hall_face (by simp [point]) fun i hi => ?_
    fin_cases i <;> simp [point] at hi ⊢ <;> norm_num [abs_lt]
  · rw [p2]
    refine hall_face (by simp [point]) fun i hi => ?_
    fin_cases i <;> simp [point] at hi ⊢ <;> norm_num [abs_lt]

/-- non-vacuity of `C102_corner` and `C102_pair`: the ray is turned back by three walls -/
example (argsort : List EReal → List ℕ) (ha : IsArgsort argsort) : ∃ (k : ℕ) (t' : Tracer) (rows : ℕ → Row), Tracer.Traces k (hallTracer argsort) t' ∧
    (∀ g ≤ 3, rows g ∈ t'.frame) ∧ (∀ g < 3, Follows (rows g) (rows (g + 1))) ∧ (∀ i, (rows 3).tilt i = -(rows 0).tilt i) ∧
    dot4 (vector 1 0 0) (rows 2).dir = dot4 (vector 1 0 0) (rows 0).dir := by
  obtain ⟨k, t', rows, h, hm, hf, hs, p0, p1, p2⟩ := hall_rows argsort ha
  have hw := hall_walls p0 p1 p2 rfl
  have hn : ∀ g < 3, surfaceNormal hall.heap 0 (rows g).finish = _ := fun g hg => hall_normal (hw g hg)
  have hx : ∀ g < 3, ∃ a ∈ [0], ∃ id, (id, (fun _ => 0 : ℕ → ℕ) g) ∈ surfaceIds 1 hall.heap a ∧ (rows g).surface = (id : ℤ) :=
    fun g hg => ⟨0, by simp, 0, by simp [hall_surfaces], by rw [hs g hg.le]; rfl⟩
  refine ⟨k, t', rows, h, hm, hf, ?_, ?_⟩
  · refine C102_corner ha (hall_bench argsort) h hm hf (x := fun _ => 0) hx (fun g _ => Or.inl rfl) fun g hg g' hg' => ?_
    simp only [hn g hg, hn g' (by omega)]
    interval_cases g <;> interval_cases g' <;> simp [dot4]
  · refine (C102_pair ha (hall_bench argsort) h (fun g hg => hm g (by omega)) (fun g hg => hf g (by omega)) (x := fun _ => 0)
      (fun g hg => hx g (by omega)) (fun g _ => Or.inl rfl) rfl rfl).1 _ ?_ ?_
    · simp only [hn 0 (by norm_num)]; simp [dot4, vector]
    · simp only [hn 1 (by norm_num)]; simp [dot4, vector]

/-- non-vacuity of `C102_box`: the same ray -/
example (argsort : List EReal → List ℕ) (ha : IsArgsort argsort) : ∃ (k : ℕ) (t' : Tracer) (rows : ℕ → Row), Tracer.Traces k (hallTracer argsort) t' ∧
    (∀ g ≤ 3, rows g ∈ t'.frame) ∧ (∀ g < 3, Follows (rows g) (rows (g + 1))) ∧
    ∀ j : Fin 3, ∀ F, Folds (-1) 1 F → F ((rows 3).finish j.castSucc) =
      F ((rows 0).begin j.castSucc + opticalPath (fun _ => 1) (rayPoints rows) 4 * (rows 0).dir j.castSucc) := by
  obtain ⟨k, t', rows, h, hm, hf, hs, p0, p1, p2⟩ := hall_rows argsort ha
  refine ⟨k, t', rows, h, hm, hf, fun j F hF => ?_⟩
  have hw : (hall.heap.obj 0).world = 1 := hall_obj.2.2.2.2.2
  have := (C102_box ha (hall_bench argsort) h hm hf (a := 0) (x := 0) (id := 0) (by simp) (by simp [hall_surfaces]) hall_obj.1
    (by rw [hw]; exact ⟨by funext i; fin_cases i <;> rfl, fun i j hij => by fin_cases i <;> fin_cases j <;> simp [Matrix.one_apply] at hij ⊢⟩)
    (fun g hg => hs g hg.le) (side := fun _ => true) (face := fun g => if g = 0 then 2 else if g = 1 then 1 else 0)
    (by intro g hg; rw [hw, inv_one, one_mulVec]; exact hall_walls p0 p1 p2 rfl g hg) (fun g _ => Or.inl rfl) j).2 F
      (by have e1 : (![-1, -1, -1] : Fin 3 → ℝ) j = -1 := by fin_cases j <;> rfl
          have e2 : (![1, 1, 1] : Fin 3 → ℝ) j = 1 := by fin_cases j <;> rfl
          rw [e1, e2, min_eq_left (by norm_num), max_eq_right (by norm_num)]; exact hF)
  rwa [hw, inv_one, one_mulVec, one_mulVec, one_mulVec] at this

end PyRayT
