import Verif.Proofs.LensRay
import Verif.Props.Room

/-!
# Property C88: `lensmakers_equation` and the traced lens

`thick_lens` builds the lens from two spheres and an aperture, the tracer sends rays through it surface by surface, and
`lensmakers_equation` computes a focal length from the same radii, thickness and index. Here the three are shown to agree: rays that come
in parallel to the axis leave with the focal length of the formula, in the limit of rays close to the axis.
-/

namespace PyRayT

open Classical Matrix Spec Lens

variable {argsort : List EReal → List ℕ} {fuel : ℕ}

/-- the normal of a sphere whose centre is on the axis -/
theorem sphere_leaf_normal {s : Scene} {x : ℕ} {R c k κ : ℝ} {m : Option Material} (hT : (s.heap.obj x).objT = (s.heap.obj x).world⁻¹)
    (hl : IsLeaf s x (.sphere R, turn * moveMatrix 0 0 c, k, m)) (hk : k = κ * |R|) (hR : R ≠ 0) {X Y Z : ℝ}
    (hon : Y ^ 2 + Z ^ 2 + (X - c) ^ 2 = R ^ 2) :
    surfaceNormal s.heap x (point X Y Z) = vector (κ * (X - c)) (κ * Y) (κ * Z) := by
  have hR' : 0 < |R| := abs_pos.2 hR
  have hnorm : norm4 ![Y, Z, X - c, 0] = |R| := by
    simp only [norm4]
    rw [← Real.sqrt_sq_eq_abs, ← hon]
    congr 1; simp
  have e := turn_worldNormal (o := s.heap.obj x) (a := 0) (b := 0) (c := c) (by rw [hT, hl.2.1]) (.sphere R) X Y Z
    (n1 := Y / |R|) (n2 := Z / |R|) (n3 := (X - c) / |R|) (by
      simp only [Prim.normal]
      funext i
      have e : (![point (Y - 0) (Z - 0) (X - c) 0, point (Y - 0) (Z - 0) (X - c) 1, point (Y - 0) (Z - 0) (X - c) 2, 0] : Vec4) = ![Y, Z, X - c, 0] := by
        funext j; fin_cases j <;> simp [point]
      rw [e]
      simp only [normalize, hnorm]
      fin_cases i <;> simp [vector]) (by
      simp only [norm4, vector]
      rw [Real.sqrt_eq_one]
      simp
      have := sq_abs R
      field_simp
      linarith)
  simp only [surfaceNormal, hl.1]
  rw [e, hl.2.2.1]
  simp only [hk]
  funext i
  fin_cases i <;> simp [vector] <;> field_simp

theorem aperture_disc {ap : Aperture} (h : goodAperture ap) : ∃ ρ > 0, ρ ≤ rim ap ∧ ∀ y z, y ^ 2 + z ^ 2 < ρ → inAperture ap y z := by
  cases ap with
  | scalar d =>
    have h : 0 < d := h
    exact ⟨(d / 2) ^ 2, by positivity, le_rfl, fun y z h => h⟩
  | pair a b =>
    obtain ⟨h1, h2⟩ : 0 < a ∧ 0 < b := h
    refine ⟨min ((a / 2) ^ 2) ((b / 2) ^ 2), by positivity, ?_, fun y z h => ?_⟩
    · refine (min_le_left _ _).trans ?_
      simp only [rim]
      have := sq_nonneg (b / 2)
      linarith
    · rw [lt_min_iff] at h
      refine ⟨abs_lt_of_sq_lt_sq ?_ (by linarith), abs_lt_of_sq_lt_sq ?_ (by linarith)⟩
      · nlinarith [h.1, sq_nonneg z]
      · nlinarith [h.2, sq_nonneg y]

/-- where a ray parallel to the axis meets the front -/
theorem lens_front (hst : IsStableArgsort argsort) {s0 s : Scene} (h0 : Ready argsort fuel s0) (hfu : 3 ≤ fuel) {T : CTree} {m : Material}
    {R1 R2 t n ρ : ℝ} {ap : Aperture} {y z x0 : ℝ}
    (hrun : thickLens argsort fuel (some R1) (some R2) t ap m s0 = (.ok T.root, s))
    (c : Ctx argsort fuel s0 s [(T, (thickLensMade (some R1) (some R2) t ap m).map turn)])
    (g : Lens.Good R1 R2 t n ρ (y ^ 2 + z ^ 2)) (hn : n ≠ 0) (h1 : R1 ≠ 0) (h2 : R2 ≠ 0)
    (fits : LensFits (some R1) (some R2) t ap) (hρ : ∀ y z, y ^ 2 + z ^ 2 < ρ → inAperture ap y z) (hρ2 : ρ ≤ rim ap)
    {depth : ℕ} (hdep : 3 ≤ depth) (hx0 : x0 < x1 R1 t (y ^ 2 + z ^ 2)) :
    ((x1 R1 t (y ^ 2 + z ^ 2) - x0 : ℝ) : EReal) ∈ (intersectObj argsort depth s.heap T.root (Spec.axisRay 1 x0 y z)).1 ∧
    ∀ d : ℝ, d ≤ x1 R1 t (y ^ 2 + z ^ 2) - x0 → ∀ id, Reports argsort s T.root depth (Spec.axisRay 1 x0 y z) d id →
      x0 + d = x1 R1 t (y ^ 2 + z ^ 2) ∧ ∃ x < s.heap.size, id = (s.heap.obj x).oid ∧
        ((s.heap.obj x).oid, x) ∈ surfaceIds depth s.heap T.root ∧ IsLeaf s x (lensLeaf1 R1 t m) := by
  have hx1 : x1 R1 t (y ^ 2 + z ^ 2) = -t / 2 + sag (some R1) (y ^ 2 + z ^ 2) := by rw [Lens.sag_eq h1]; unfold x1; ring
  have hthick : -t / 2 + sag (some R1) (y ^ 2 + z ^ 2) < t / 2 + sag (some R2) (y ^ 2 + z ^ 2) := by
    rw [← hx1, Lens.sag_eq h2]; linarith [g.thick]
  have hits := fun v => C45_axis_rays_partial hst h0 hfu fits m hrun (hρ y z g.low) hthick (σ := 1) (.inl rfl) x0 hdep v
  rw [← hx1] at hits hthick
  refine ⟨(hits _).2 (.inl (by ring)), fun d hd id hrep => ?_⟩
  have hd' : x0 + d = x1 R1 t (y ^ 2 + z ^ 2) := by
    obtain ⟨i, hi, -⟩ := hrep
    rcases (hits d).1 (List.mem_iff_getElem?.2 ⟨i, hi⟩) with h | h
    · linarith
    · linarith
  refine ⟨hd', ?_⟩
  obtain ⟨lo, hi, hle, hfull, hreach⟩ := lens_reach fits
  obtain ⟨-, -, fdepth⟩ := thickLens_solid_facts (R1 := R1) (R2 := R2) (t := t) (ap := ap) m
  obtain ⟨x, hx, l, hll, e, hm, hlf, b1, b2⟩ := c.reports hst.1 (thickLens_all fits m (axisRay_good (.inl rfl) _ _ _) (axisRay_clear _ _ _ _))
    (fdepth.le.trans hdep) hrep
  rw [thickLens_leaves hfull] at hll
  have hat : (Spec.axisRay 1 x0 y z).at d = point (x1 R1 t (y ^ 2 + z ^ 2)) y z := by rw [axisRay_at, ← hd', mul_one]
  rw [hat] at b1 b2
  have hp := g.hpath
  have hp0 : 0 < Lens.path R1 R2 t n (y ^ 2 + z ^ 2) := by norm_num at hp; linarith
  simp only [List.mem_cons, List.not_mem_nil, or_false] at hll
  rcases hll with rfl | rfl | rfl
  · exfalso
    have := g.in_aperture hn h1 h2 fits hρ hρ2 hle hreach le_rfl hp0.le
    simp only [zero_mul, add_zero, one_mul] at this
    exact b1 this
  · exact ⟨x, hx, e, hm, hlf⟩
  · exfalso
    have := g.side2 hn h1 h2 le_rfl hp0
    simp only [zero_mul, add_zero, one_mul, one_pow] at this
    unfold sideIn at this
    simp only [lensLeaf2] at b1 b2
    rw [sphereLeaf_interior] at b1
    rw [sphereLeaf_outside] at b2
    split at this
    · exact b1 this
    · exact b2 this

/-- Entering the lens: the row in the glass. -/
theorem lens_entered (hst : IsStableArgsort argsort) {s0 s : Scene} (h0 : Ready argsort fuel s0) (hfu : 3 ≤ fuel) {T : CTree} {g : IndexModel}
    {R1 R2 t n ρ lam : ℝ} {ap : Aperture} (hrun : thickLens argsort fuel (some R1) (some R2) t ap (.glass g) s0 = (.ok T.root, s))
    (c : Ctx argsort fuel s0 s [(T, (thickLensMade (some R1) (some R2) t ap (.glass g)).map turn)])
    (hng : g.indexAt lam = n) (hn : 0 < n) (n1 : R1 ≠ 0) (n2 : R2 ≠ 0)
    (fits : LensFits (some R1) (some R2) t ap) (hρ : ∀ y z, y ^ 2 + z ^ 2 < ρ → inAperture ap y z) (hρ2 : ρ ≤ rim ap)
    {objs : List ℕ} {depth : ℕ} {sources : List (ℕ → List Col)} {N : ℕ} {limit : ℤ} {k : ℕ} {t' : Tracer}
    (b : Bench argsort fuel s objs depth sources N) (haa : T.root ∈ objs) (hdep : 3 ≤ depth)
    (htr : Tracer.Traces k (Tracer.new sources (objs.map (s.component argsort depth)) N limit) t') {r0 r1 : Row}
    (hr0 : r0 ∈ t'.frame) (hr1 : r1 ∈ t'.frame) (f01 : Follows r0 r1) (hlam : r0.wavelength = lam) (hair : r0.index = 1) (htilt : r0.tilt = ![1, 0, 0])
    (gd : Lens.Good R1 R2 t n ρ (r0.start 1 ^ 2 + r0.start 2 ^ 2)) (hx0 : r0.start 0 < x1 R1 t (r0.start 1 ^ 2 + r0.start 2 ^ 2))
    {e0 : ℕ × ℕ} (he0 : e0 ∈ surfaceIds depth s.heap T.root) (hs0 : r0.surface = (e0.1 : ℤ)) :
    r1.index = n ∧ rowRay r1 = Lens.inner R1 t n (r0.start 1) (r0.start 2) 1e-6 := by
  subst hng
  set n := g.indexAt lam with hndef
  have hr : Reaches argsort fuel Heap.empty s.heap := b.history.reaches
  have hinv := reaches_inv argsort empty_inv hr
  have ok := b.ok hst.1 limit
  have u0 := b.unit hst.1 htr hr0
  have u1 := b.unit hst.1 htr hr1
  obtain ⟨hstart, -⟩ := C28_connected ok htr r0 r1 hr0 hr1 f01.1 f01.2
  obtain ⟨d0, d0pos, near0, at0⟩ := row_arrives ok htr hr0
  have rep0 := nearest_reports hst.1 hr b.exist b.distinct near0 haa (id := e0.1) (y := e0.2) he0 hs0
  set y := r0.start 1 with hy
  set z := r0.start 2 with hz
  set q := y ^ 2 + z ^ 2 with hq
  have hcomp : s.component argsort depth T.root ∈ objs.map (s.component argsort depth) := List.mem_map.2 ⟨_, haa, rfl⟩
  -- the front
  have hray0 : rowRay r0 = Spec.axisRay 1 (r0.start 0) y z := by
    unfold rowRay Spec.axisRay
    rw [htilt]; rfl
  rw [hray0] at rep0 near0 at0
  obtain ⟨hfm, hfl⟩ := lens_front hst h0 hfu hrun c gd hn.ne' n1 n2 fits hρ hρ2 hdep hx0
  have hd0 : d0 ≤ x1 R1 t q - r0.start 0 := by
    have := near0.2.1 _ hcomp _ hfm (by rw [← EReal.coe_zero, EReal.coe_lt_coe_iff]; linarith)
    exact EReal.coe_le_coe_iff.1 this
  obtain ⟨hd0', x, hxs, hxid, hxm, hxl⟩ := hfl d0 hd0 _ rep0
  have fin0 : r0.finish = point (x1 R1 t q) y z := by rw [← at0, axisRay_at, mul_one, hd0']
  obtain ⟨hN1, -, hI1⟩ := b.optics hst.1 htr hr0 hr1 f01 haa hxm (by exact_mod_cast hxid)
  rw [hxl.2.2.2 _ rfl] at hI1
  have hcos := Lens.cosAt_sq gd.q1.le n1
  have hNv1 : surfaceNormal s.heap x r0.finish = vector (-cosAt R1 q) (y / R1) (z / R1) := by
    rw [fin0, sphere_leaf_normal (κ := 1 / R1) (hinv.synced x hxs).2.1 hxl (by
      split
      · rename_i h; rw [abs_of_pos h]; field_simp
      · rename_i h; rw [abs_of_nonpos (not_lt.1 h)]; field_simp) n1 (by
      change q + _ = _
      unfold x1
      have : q = R1 ^ 2 * (1 - cosAt R1 q ^ 2) := by rw [hcos]; field_simp; ring
      linear_combination this)]
    funext i
    fin_cases i
    · simp [vector, x1]; field_simp; ring
    · simp [vector]; ring
    · simp [vector]; ring
    · simp [vector]
  rw [hNv1, hlam] at hI1
  rw [hNv1] at hN1
  have hu0 : r0.dir = vector 1 0 0 := by unfold Row.dir; rw [htilt]; rfl
  have hdot0 : dot4 r0.dir (vector (-cosAt R1 q) (y / R1) (z / R1)) = -cosAt R1 q := by rw [hu0]; simp [dot4, vector]
  have hcpos := Lens.cosAt_pos n1 gd.q1
  rw [hair] at hI1
  obtain ⟨hi1, hdir1⟩ := interacts_enter u0 hN1 u1 hn (by rw [hdot0]; linarith) (by
    rw [one_mul, sinTo, hdot0, neg_sq, hcos, sub_sub_cancel, Real.sqrt_lt' hn, div_lt_iff₀ (by positivity)]
    have := gd.qn
    linarith [mul_pow n R1 2]) hI1
  rw [hdot0] at hdir1
  have hm1 : √(1 - (1 / n) ^ 2 * (1 - (-cosAt R1 q) ^ 2)) = m1 R1 n q := by
    unfold m1
    congr 1
    rw [neg_sq, hcos]; field_simp; ring
  rw [hm1] at hdir1
  have t10 : r1.tilt 0 = a1 R1 n q := by
    have := hdir1 0
    rw [hu0] at this
    simp [Row.dir, vector] at this
    rw [this]; unfold a1; ring
  have t11 : r1.tilt 1 = b1 R1 n q * y := by
    have := hdir1 1
    rw [hu0] at this
    simp [Row.dir, vector] at this
    rw [this]; unfold b1; ring
  have t12 : r1.tilt 2 = b1 R1 n q * z := by
    have := hdir1 2
    rw [hu0] at this
    simp [Row.dir, vector] at this
    rw [this]; unfold b1; ring
  have hst0 : r0.stop 0 = x1 R1 t q := congrFun fin0 0
  have hst1 : r0.stop 1 = y := congrFun fin0 1
  have hst2 : r0.stop 2 = z := congrFun fin0 2
  have hray1 : rowRay r1 = Lens.inner R1 t n y z 1e-6 := by
    have hoff : (Tracer.new sources (objs.map (s.component argsort depth)) N limit).offset = 1e-6 := rfl
    unfold rowRay Lens.inner
    rw [hstart 0, hstart 1, hstart 2, t10, t11, t12, hst0, hst1, hst2, hoff]
    simp only
    congr 1
    funext i
    fin_cases i <;> simp [point, hq] <;> ring
  exact ⟨hi1, hray1⟩

/-- **C88.** After `thick_lens(r1, r2, t, ...)` of a glass with index n at the wavelength λ has been called, on any scene built before, let
`lensmakers_equation(r1, r2, n, t)` be `f`. For every ε there is a δ such that, in every trace on a bench that contains the lens, for every
ray of that wavelength in air parallel to the axis, closer to it than √δ, that meets the lens from the front and then the lens again:

* it is in the glass between the two, and in air behind;
* its height before the lens over its slope behind it is the negative focal length: tilt_y · E = -tilt_x · y with |E - f| < ε;
* the line of the row behind the lens crosses the axis at a distance below ε from the focal point, x = t/2 + f (1 - (n - 1) t / (n r1)). -/
theorem C88_paraxial (hst : IsStableArgsort argsort) {s0 : Scene} (h0 : Ready argsort fuel s0) (hfu : 3 ≤ fuel) {R1 R2 t f lam : ℝ} {ap : Aperture}
    (fits : LensFits (some R1) (some R2) t ap) (ht : 1e-6 < t) (hf1 : 0 < R1 → t < 2 * R1) (hf2 : R2 < 0 → t < -2 * R2) (g : IndexModel)
    (hn : 0 < g.indexAt lam) (hf : lensmakersEquation R1 R2 (g.indexAt lam) t = some f)
    (hback : g.indexAt lam * R1 ≠ (g.indexAt lam - 1) * t) :
    ∃ s a, thickLens argsort fuel (some R1) (some R2) t ap (.glass g) s0 = (.ok a, s) ∧
      ∀ ε > 0, ∃ δ > 0, ∀ (objs : List ℕ) (depth : ℕ) (sources : List (ℕ → List Col)) (N : ℕ) (limit : ℤ) (k : ℕ) (t' : Tracer),
        Bench argsort fuel s objs depth sources N → a ∈ objs → 3 ≤ depth →
        Tracer.Traces k (Tracer.new sources (objs.map (s.component argsort depth)) N limit) t' →
        ∀ r0 ∈ t'.frame, ∀ r1 ∈ t'.frame, ∀ r2 ∈ t'.frame, Follows r0 r1 → Follows r1 r2 →
          r0.wavelength = lam → r0.index = 1 → r0.tilt = ![1, 0, 0] →
          0 < r0.start 1 ^ 2 + r0.start 2 ^ 2 → r0.start 1 ^ 2 + r0.start 2 ^ 2 < δ →
          r0.start 0 < -t / 2 + sag (some R1) (r0.start 1 ^ 2 + r0.start 2 ^ 2) →
          (∃ e ∈ surfaceIds depth s.heap a, r0.surface = (e.1 : ℤ)) → (∃ e ∈ surfaceIds depth s.heap a, r1.surface = (e.1 : ℤ)) →
          r1.index = g.indexAt lam ∧ r2.index = 1 ∧
          (∃ E, |E - f| < ε ∧ r2.tilt 1 * E = -(r2.tilt 0 * r0.start 1) ∧ r2.tilt 2 * E = -(r2.tilt 0 * r0.start 2)) ∧
          (∃ X τ, |X - (t / 2 + f * (1 - (g.indexAt lam - 1) * t / (g.indexAt lam * R1)))| < ε ∧
            r1.stop 0 + τ * r2.tilt 0 = X ∧ r1.stop 1 + τ * r2.tilt 1 = 0 ∧ r1.stop 2 + τ * r2.tilt 2 = 0) := by
  obtain ⟨s, T, hrun, c⟩ := thickLens_makes h0 hfu (some R1) (some R2) t fits.opening (.glass g)
  refine ⟨s, T.root, hrun, fun ε hε => ?_⟩
  obtain ⟨ρ, hρ0, hρ2, hρ⟩ := aperture_disc fits.opening
  obtain ⟨δ, hδ, hgood⟩ := eventually_good (R2 := R2) hε hf hn ht hρ0 hf1 hf2 hback
  have n1 : R1 ≠ 0 := by
    have := fits.wide1 R1 rfl; rintro rfl; norm_num at this; linarith [rim_pos fits.opening]
  have n2 : R2 ≠ 0 := by
    have := fits.wide2 R2 rfl; rintro rfl; norm_num at this; linarith [rim_pos fits.opening]
  refine ⟨δ, hδ, ?_⟩
  intro objs depth sources N limit k t' b haa hdep htr r0 hr0 r1 hr1 r2 hr2 f01 f12 hlam hair htilt q0 qδ hx0 ⟨e0, he0, hs0⟩ ⟨e1, he1, hs1⟩
  obtain ⟨gd, hb2, hfoc, hcross⟩ := hgood _ q0 qδ
  have hr : Reaches argsort fuel Heap.empty s.heap := b.history.reaches
  have hinv := reaches_inv argsort empty_inv hr
  have ok := b.ok hst.1 limit
  have u1 := b.unit hst.1 htr hr1
  have u2 := b.unit hst.1 htr hr2
  obtain ⟨d1, d1pos, near1, at1⟩ := row_arrives ok htr hr1
  have rep1 := nearest_reports hst.1 hr b.exist b.distinct near1 haa (id := e1.1) (y := e1.2) he1 hs1
  have hcomp : s.component argsort depth T.root ∈ objs.map (s.component argsort depth) := List.mem_map.2 ⟨_, haa, rfl⟩
  have hx0' : r0.start 0 < x1 R1 t (r0.start 1 ^ 2 + r0.start 2 ^ 2) := by
    rw [Lens.sag_eq n1] at hx0; unfold x1; linarith
  obtain ⟨hi1, hray1⟩ := lens_entered hst h0 hfu hrun c rfl hn n1 n2 fits hρ hρ2 b haa hdep htr hr0 hr1 f01 hlam hair htilt gd hx0' he0 hs0
  set n := g.indexAt lam with hndef
  set y := r0.start 1 with hy
  set z := r0.start 2 with hz
  set q := y ^ 2 + z ^ 2 with hq
  have hdir : r1.dir = vector (a1 R1 n q) (b1 R1 n q * y) (b1 R1 n q * z) := congrArg Ray.d hray1
  have t10 : r1.tilt 0 = a1 R1 n q := congrFun hdir 0
  have t11 : r1.tilt 1 = b1 R1 n q * y := congrFun hdir 1
  have t12 : r1.tilt 2 = b1 R1 n q * z := congrFun hdir 2
  rw [hray1] at rep1 near1 at1
  obtain ⟨hbl, hbh⟩ := lens_inner hst.1 c gd hn.ne' n1 n2 fits hρ hρ2 hdep
  have hd1 : d1 + 1e-6 ≤ path R1 R2 t n q := by
    by_contra hc
    obtain ⟨w, hw, w0, w1⟩ := hbh (d1 + 1e-6 - path R1 R2 t n q) (by linarith)
    have := near1.2.1 _ hcomp _ hw (by exact_mod_cast w0)
    have := EReal.coe_le_coe_iff.1 this
    linarith
  obtain ⟨hd1', x', hxs', hxid', hxm', hxl'⟩ := hbl d1 d1pos _ rep1 hd1
  have fin1 : r1.finish = point (x2 R1 R2 t n q) (Lens.c2 R1 R2 t n q * y) (Lens.c2 R1 R2 t n q * z) := by
    rw [← at1, Lens.inner_at, hd1']; rfl
  obtain ⟨hN2, -, hI2⟩ := b.optics hst.1 htr hr1 hr2 f12 haa hxm' (by exact_mod_cast hxid')
  rw [hxl'.2.2.2 _ rfl] at hI2
  have hNv2 : surfaceNormal s.heap x' r1.finish = vector (κ R1 R2 t n q) (-(Lens.c2 R1 R2 t n q * y / R2)) (-(Lens.c2 R1 R2 t n q * z / R2)) := by
    rw [fin1, sphere_leaf_normal (κ := -1 / R2) (hinv.synced x' hxs').2.1 hxl' (by
      split
      · rename_i h; rw [abs_of_neg h]; field_simp
      · rename_i h; rw [abs_of_nonneg (not_lt.1 h)]; field_simp) n2 (by
      rw [height_eq]
      exact gd.back_point hn.ne' n1 n2)]
    funext i
    fin_cases i
    · simp [vector, κ]; ring
    · simp [vector]; ring
    · simp [vector]; ring
    · simp [vector]
  rw [hNv2] at hI2 hN2
  have hdot1 : dot4 r1.dir (vector (κ R1 R2 t n q) (-(Lens.c2 R1 R2 t n q * y / R2)) (-(Lens.c2 R1 R2 t n q * z / R2))) = cosIn R1 R2 t n q := by
    simp only [dot4, Row.dir, t10, t11, t12]
    unfold cosIn
    simp only [vector, hq]
    simp
    ring
  obtain ⟨hi2, hdir2⟩ := interacts_leave u1 hN2 u2 (by rw [hdot1]; exact gd.hin) (by
    rw [hi1, sinTo, hdot1]
    have := gd.noTir
    have hle : √(1 - cosIn R1 R2 t n q ^ 2) < 1 / n := by
      rw [Real.sqrt_lt' (by positivity), div_pow, one_pow, lt_div_iff₀ (by positivity)]
      linarith
    rwa [lt_div_iff₀ hn, mul_comm] at hle) hI2
  rw [hdot1, hi1] at hdir2
  have t20 : r2.tilt 0 = a2 R1 R2 t n q := by
    have := hdir2 0
    simp [Row.dir, vector, t10] at this
    rw [this]; unfold a2 cosOut; ring
  have t21 : r2.tilt 1 = b2 R1 R2 t n q * y := by
    have := hdir2 1
    simp [Row.dir, vector, t11] at this
    rw [this]; unfold b2 cosOut; ring
  have t22 : r2.tilt 2 = b2 R1 R2 t n q * z := by
    have := hdir2 2
    simp [Row.dir, vector, t12] at this
    rw [this]; unfold b2 cosOut; ring
  have s10 : r1.stop 0 = x2 R1 R2 t n q := congrFun fin1 0
  have s11 : r1.stop 1 = Lens.c2 R1 R2 t n q * y := congrFun fin1 1
  have s12 : r1.stop 2 = Lens.c2 R1 R2 t n q * z := congrFun fin1 2
  refine ⟨hi1, hi2, ⟨focal R1 R2 t n q, hfoc, ?_, ?_⟩, cross R1 R2 t n q, -(Lens.c2 R1 R2 t n q / b2 R1 R2 t n q), hcross, ?_, ?_, ?_⟩
  · rw [t20, t21]; unfold focal; field_simp
  · rw [t20, t22]; unfold focal; field_simp
  · rw [s10, t20]; unfold cross focal; field_simp
  · rw [s11, t21]; field_simp; ring
  · rw [s12, t22]; field_simp; ring

/-! ### A lens in a closed room -/

/-- a lens of radii 10 and -10, thickness 1 and index n > 1 has a focal length -/
theorem lens_focal {n : ℝ} (hn : 1 < n) : lensmakersEquation 10 (-10) n 1 = some (1 / ((n - 1) * (1 / 10 - 1 / (-10) + (n - 1) * 1 / (n * 10 * (-10))))) := by
  unfold lensmakersEquation
  simp only
  rw [if_neg]
  have h1 : n - 1 ≠ 0 := by linarith
  have h0 : n ≠ 0 := by linarith
  have h2 : (1 : ℝ) / 10 - 1 / (-10) + (n - 1) * 1 / (n * 10 * (-10)) = (19 * n + 1) / (100 * n) := by field_simp; ring
  rw [h2]
  have h3 : (19 * n + 1) / (100 * n) ≠ 0 := by positivity
  simp [h1, h0, h3]

/-- A case for the hypotheses of C88, for every δ and every wavelength at which the index of the glass is above 1: the lens in a dark sphere of
radius 1000, and one ray parallel to the axis. The ray goes through both surfaces of the lens. -/
theorem lens_room (hst : IsStableArgsort argsort) (g : IndexModel) : ∃ s0, Ready argsort 3 s0 ∧ ∃ s a,
    thickLens argsort 3 (some 10) (some (-10)) 1 (.scalar 2) (.glass g) s0 = (.ok a, s) ∧
    LensFits (some 10) (some (-10)) 1 (.scalar 2) ∧ ∀ lam, 1 < g.indexAt lam → (∃ f, lensmakersEquation 10 (-10) (g.indexAt lam) 1 = some f) ∧
    ∀ δ > 0, ∃ (objs : List ℕ) (sources : List (ℕ → List Col)) (k : ℕ) (t' : Tracer),
      Bench argsort 3 s objs 3 sources 1 ∧ a ∈ objs ∧ Tracer.Traces k (Tracer.new sources (objs.map (s.component argsort 3)) 1 5) t' ∧
      ∃ r0 ∈ t'.frame, ∃ r1 ∈ t'.frame, ∃ r2 ∈ t'.frame, Follows r0 r1 ∧ Follows r1 r2 ∧
        r0.wavelength = lam ∧ r0.index = 1 ∧ r0.tilt = ![1, 0, 0] ∧
        0 < r0.start 1 ^ 2 + r0.start 2 ^ 2 ∧ r0.start 1 ^ 2 + r0.start 2 ^ 2 < δ ∧
        r0.start 0 < -1 / 2 + sag (some 10) (r0.start 1 ^ 2 + r0.start 2 ^ 2) ∧
        (∃ e ∈ surfaceIds 3 s.heap a, r0.surface = (e.1 : ℤ)) ∧ (∃ e ∈ surfaceIds 3 s.heap a, r1.surface = (e.1 : ℤ)) := by
  obtain ⟨s0, -, h0, hsz, hk0, hw0, hm0⟩ := room_made (argsort := argsort) (fuel := 3)
  have fits := fits_biconvex
  obtain ⟨s, T, hrun, c⟩ := thickLens_makes h0 le_rfl (some 10) (some (-10)) 1 fits.opening (.glass g)
  refine ⟨s0, h0, s, T.root, hrun, fits, fun lam hlam => ?_⟩
  obtain ⟨n, hn⟩ : ∃ n, n = g.indexAt lam := ⟨_, rfl⟩
  rw [← hn] at hlam ⊢
  have hn0 : 0 < n := by linarith
  refine ⟨⟨_, lens_focal hlam⟩, fun δ hδ => ?_⟩
  obtain ⟨ρ, hρ0, hρ2, hρ⟩ := aperture_disc fits.opening
  obtain ⟨δ', hδ', hgood⟩ := eventually_good (R2 := -10) (ε := 1) one_pos (lens_focal hlam) hn0 (by norm_num) hρ0 (by norm_num) (by norm_num) (by linarith)
  set m := min δ (min δ' 1) with hm
  have hm0' : 0 < m := lt_min hδ (lt_min hδ' one_pos)
  have y2 : √(m / 2) ^ 2 = m / 2 := Real.sq_sqrt (by linarith)
  set y := √(m / 2) with hy
  have y0 : 0 ≤ y := Real.sqrt_nonneg _
  have y1 : y ≤ 1 := by
    have : m ≤ 1 := (min_le_right _ _).trans (min_le_right _ _)
    nlinarith
  obtain ⟨z, hz⟩ : ∃ z : ℝ, z = 0 := ⟨0, rfl⟩
  have hq : y ^ 2 + z ^ 2 = m / 2 := by rw [y2, hz]; ring
  obtain ⟨gd, -, -, -⟩ := hgood (y ^ 2 + z ^ 2) (by rw [hq]; linarith) (by
    have : m ≤ δ' := (min_le_right _ _).trans (min_le_left _ _)
    rw [hq]; linarith)
  set ray := Spec.axisRay 1 (-5) y z with hray
  set col : Col := ⟨ray, 0, 100, lam, 1, 0⟩ with hcol
  obtain ⟨fspine, fall, fdepth⟩ := thickLens_solid_facts (R1 := 10) (R2 := -10) (t := 1) (ap := .scalar 2) (.glass g)
  obtain ⟨lo, hi, hle, hfull, -⟩ := lens_reach fits
  have hleaves := thickLens_leaves (m := .glass g) hfull
  have hmt : ∀ l ∈ ((thickLensMade (some 10) (some (-10)) 1 (.scalar 2) (.glass g)).map turn).leaves, l.2.2.2 = some (.glass g) := by
    rw [hleaves]
    simp [lensLeaf1, lensLeaf2]
  have b : Bench argsort 3 s [T.root, 0] 3 [fun _ => [col]] 1 := by
    refine room_bench hsz hk0 hm0 c fdepth.le ?_ hmt ?_ ?_ ?_
    · rw [hleaves]
      simp [lensLeaf1, lensLeaf2, Sized, aperturePrim]
    · exact ⟨rfl, rfl, rfl, by simp [hcol, hray, Spec.axisRay, norm4, vector]⟩
    · exact one_pos
    · rintro g' hg
      cases hg
      show 0 < g.indexAt lam
      rw [← hn]; exact hn0
  have hkp : (s.heap.obj 0).kind = .prim (.sphere 1000) := (c.old 0 hsz).1.trans hk0
  have hTp : (s.heap.obj 0).objT = 1 := by
    have hinv := reaches_inv argsort empty_inv b.history.reaches
    rw [(hinv.synced 0 (b.exist 0 (by simp))).2.1, (c.old 0 hsz).2.1, hw0, inv_one]
  have hmat : ∀ e ∈ surfaceIds 3 s.heap T.root, s.material e.2 ≠ .absorber := by
    intro e he
    rw [c.material fdepth.le hmt e he]
    simp
  obtain ⟨k, t', htr, -, -, -⟩ := C26_terminates (Tracer.new [fun _ => [col]] ([T.root, 0].map (s.component argsort 3)) 1 5) (by simp [Tracer.new]) (by simp [Tracer.new])
    (by simp [Tracer.new, hcol])
  refine ⟨[T.root, 0], _, k, t', b, by simp, htr, ?_⟩
  have x1lo : -1 / 2 ≤ x1 10 1 (y ^ 2 + z ^ 2) := by
    have : cosAt 10 (y ^ 2 + z ^ 2) ≤ 1 := by
      unfold cosAt
      rw [Real.sqrt_le_one]
      have : 0 ≤ (y ^ 2 + z ^ 2) / 10 ^ 2 := by positivity
      linarith
    unfold x1; linarith
  have x1hi : x1 10 1 (y ^ 2 + z ^ 2) ≤ 10 := by
    have : 0 ≤ cosAt 10 (y ^ 2 + z ^ 2) := Real.sqrt_nonneg _
    unfold x1; linarith
  obtain ⟨hfront, -⟩ := lens_front hst h0 le_rfl hrun c gd hn0.ne' (by norm_num) (by norm_num) fits hρ hρ2 (depth := 3) le_rfl (x0 := -5) (by linarith)
  rcases C89_starts b hst.1 htr (i := 0) (c := col) rfl with ⟨r0, hr0, g0, -, hray0, hw, hi0⟩ | hmiss
  swap
  · exact absurd ⟨by exact_mod_cast (by linarith : (0 : ℝ) < x1 10 1 (y ^ 2 + z ^ 2) - -5), EReal.coe_lt_top _⟩
      (hmiss (s.component argsort 3 T.root) (by simp) _ hfront)
  have s00 : r0.start 0 = -5 := congrFun (congrArg Ray.o hray0) 0
  have s01 : r0.start 1 = y := congrFun (congrArg Ray.o hray0) 1
  have s02 : r0.start 2 = z := congrFun (congrArg Ray.o hray0) 2
  have t0 : r0.tilt = ![1, 0, 0] := by
    funext i
    have h0 : r0.tilt 0 = 1 := congrFun (congrArg Ray.d hray0) 0
    have h1 : r0.tilt 1 = 0 := congrFun (congrArg Ray.d hray0) 1
    have h2 : r0.tilt 2 = 0 := congrFun (congrArg Ray.d hray0) 2
    fin_cases i
    · exact h0
    · exact h1
    · exact h2
  have three : ∀ {v : Fin 3 → ℝ}, |v 0| ≤ 20 → |v 1| ≤ 20 → |v 2| ≤ 20 → ∀ i, |v i| ≤ 20 := by
    intro v h0 h1 h2 i
    fin_cases i
    · exact h0
    · exact h1
    · exact h2
  obtain ⟨he0, r1, hr1, f01⟩ := room_step b hst.1 htr hkp hTp hr0 (fun e he _ => hmat e he)
    (three (by rw [s00]; norm_num) (by rw [s01, abs_of_nonneg y0]; linarith) (by rw [s02, hz]; norm_num))
    ⟨x1 10 1 (y ^ 2 + z ^ 2) - -5, by linarith, by linarith, by rw [hray0]; exact hfront⟩ (by rw [g0]; norm_num)
  have hx0 : r0.start 0 < -1 / 2 + sag (some 10) (r0.start 1 ^ 2 + r0.start 2 ^ 2) := by
    rw [s00, s01, s02, Lens.sag_eq (by norm_num)]
    unfold x1 at x1lo
    linarith
  obtain ⟨e0, he0', hs0⟩ := he0
  obtain ⟨-, hray1⟩ := lens_entered hst h0 le_rfl hrun c (lam := lam) (n := n) hn.symm hn0 (by norm_num) (by norm_num) fits hρ hρ2 b (by simp) le_rfl htr
    hr0 hr1 f01 hw hi0 t0 (by rw [s01, s02]; exact gd) (by rw [s00, s01, s02]; linarith) he0' hs0
  rw [s01, s02] at hray1
  have hpath : Lens.path 10 (-10) 1 n (y ^ 2 + z ^ 2) ≤ 20 := by
    have e := gd.back_point hn0.ne' (by norm_num) (by norm_num)
    have hpos : 0 ≤ Lens.c2 10 (-10) 1 n (y ^ 2 + z ^ 2) ^ 2 * (y ^ 2 + z ^ 2) := by positivity
    have : x2 10 (-10) 1 n (y ^ 2 + z ^ 2) - (-10 + 1 / 2) ≤ 10 := abs_le_of_sq_le_sq' (by linarith) (by norm_num) |>.2
    unfold x2 at this
    have := gd.ha
    have := gd.hpath
    nlinarith
  obtain ⟨-, hhit⟩ := lens_inner hst.1 c gd hn0.ne' (by norm_num) (by norm_num) fits hρ hρ2 (depth := 3) le_rfl
  obtain ⟨w, hw1, hw2, hw3⟩ := hhit 1 one_pos
  have hb1 : |b1 10 n (y ^ 2 + z ^ 2) * y| ≤ 1 := by
    have := gd.near1
    rw [← sq_le_one_iff_abs_le_one]
    norm_num at this
    have hz2 : 0 ≤ (b1 10 n (y ^ 2 + z ^ 2) * z) ^ 2 := sq_nonneg _
    rw [mul_pow] at hz2 ⊢
    linarith
  have ha1 : |a1 10 n (y ^ 2 + z ^ 2)| ≤ 1 := by
    have hu := (C35_unit_tilts (b.ok hst.1 5) htr r1 hr1).1
    have e : r1.tilt 0 = a1 10 n (y ^ 2 + z ^ 2) := congrFun (congrArg Ray.d hray1) 0
    rw [← e, ← sq_le_one_iff_abs_le_one]
    nlinarith [sq_nonneg (r1.tilt 1), sq_nonneg (r1.tilt 2)]
  have s10 : r1.start 0 = x1 10 1 (y ^ 2 + z ^ 2) + 1e-6 * a1 10 n (y ^ 2 + z ^ 2) := congrFun (congrArg Ray.o hray1) 0
  have s11 : r1.start 1 = (1 + 1e-6 * b1 10 n (y ^ 2 + z ^ 2)) * y := congrFun (congrArg Ray.o hray1) 1
  have s12 : r1.start 2 = (1 + 1e-6 * b1 10 n (y ^ 2 + z ^ 2)) * z := congrFun (congrArg Ray.o hray1) 2
  rw [abs_le] at ha1 hb1
  obtain ⟨he1, r2, hr2, f12⟩ := room_step b hst.1 htr hkp hTp hr1 (fun e he _ => hmat e he)
    (three (by rw [s10, abs_le]; norm_num; constructor <;> linarith) (by rw [s11, abs_le]; norm_num; constructor <;> linarith) (by rw [s12, hz]; norm_num))
    ⟨w, hw2, by linarith, by rw [hray1]; exact hw1⟩ (by rw [f01.2, g0]; norm_num)
  refine ⟨r0, hr0, r1, hr1, r2, hr2, f01, f12, hw, hi0, t0, ?_, ?_, hx0, ⟨e0, he0', hs0⟩, he1⟩
  · rw [s01, s02, hq]; linarith
  · have : m ≤ δ := min_le_left _ _
    rw [s01, s02, hq]; linarith

/-- All hypotheses of C88 for a lens of index 1.5 in red light. -/
example (hst : IsStableArgsort argsort) : ∃ s0, Ready argsort 3 s0 ∧ ∃ s a,
    thickLens argsort 3 (some 10) (some (-10)) 1 (.scalar 2) (.glass (.basic (3 / 2))) s0 = (.ok a, s) ∧
    LensFits (some 10) (some (-10)) 1 (.scalar 2) ∧ (∃ f, lensmakersEquation 10 (-10) (IndexModel.indexAt (.basic (3 / 2)) 0.633) 1 = some f) ∧
    ∀ δ > 0, ∃ (objs : List ℕ) (sources : List (ℕ → List Col)) (k : ℕ) (t' : Tracer),
      Bench argsort 3 s objs 3 sources 1 ∧ a ∈ objs ∧ Tracer.Traces k (Tracer.new sources (objs.map (s.component argsort 3)) 1 5) t' ∧
      ∃ r0 ∈ t'.frame, ∃ r1 ∈ t'.frame, ∃ r2 ∈ t'.frame, Follows r0 r1 ∧ Follows r1 r2 ∧
        r0.wavelength = 0.633 ∧ r0.index = 1 ∧ r0.tilt = ![1, 0, 0] ∧
        0 < r0.start 1 ^ 2 + r0.start 2 ^ 2 ∧ r0.start 1 ^ 2 + r0.start 2 ^ 2 < δ ∧
        r0.start 0 < -1 / 2 + sag (some 10) (r0.start 1 ^ 2 + r0.start 2 ^ 2) ∧
        (∃ e ∈ surfaceIds 3 s.heap a, r0.surface = (e.1 : ℤ)) ∧ (∃ e ∈ surfaceIds 3 s.heap a, r1.surface = (e.1 : ℤ)) := by
  obtain ⟨s0, h0, s, a, hrun, fits, h⟩ := lens_room hst (.basic (3 / 2))
  obtain ⟨hf, hδ⟩ := h 0.633 (by norm_num [IndexModel.indexAt])
  exact ⟨s0, h0, s, a, hrun, fits, hf, hδ⟩

end PyRayT
