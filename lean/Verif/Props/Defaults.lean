import Verif.Model.Defaults
import Verif.Props.Components
import Verif.Props.Components2
import Verif.Props.Sources
import Verif.Props.Tracer2
import Verif.Proofs.PrimAll

/-!
# C103: what calls with omitted arguments build
-/

namespace PyRayT

open Classical Matrix Spec

/-- the aperture in effect: the one given, otherwise a disc of diameter 1 -/
def Spec.ApertureOf (k : Kwargs) (ap : Aperture) : Prop := k.aperture = some ap ∨ k.aperture = none ∧ ap = .scalar 1

/-- the material in effect for a lens: the one given, otherwise a glass of index 3/2 at every wavelength -/
def Spec.LensMaterial (k : Kwargs) (m : Material) : Prop :=
  k.material = some m ∨ k.material = none ∧ ∃ g, m = .glass g ∧ ∀ w, g.indexAt w = 3 / 2

/-- the material in effect for a mirror: the one given, otherwise the mirror -/
def Spec.MirrorMaterial (k : Kwargs) (m : Material) : Prop := k.material = some m ∨ k.material = none ∧ m = .mirror

/-- the displacement in effect: the one given, otherwise none -/
def Spec.OffAxisOf (k : Kwargs) (off : ℝ × ℝ) : Prop := k.offAxis = some off ∨ k.offAxis = none ∧ off.1 = 0 ∧ off.2 = 0

theorem Spec.ApertureOf.eq {k : Kwargs} {ap : Aperture} (h : Spec.ApertureOf k ap) : k.aperture.getD .default = ap := by
  rcases h with h | ⟨h, rfl⟩ <;> simp [h, Aperture.default]

theorem Spec.OffAxisOf.eq {k : Kwargs} {off : ℝ × ℝ} (h : Spec.OffAxisOf k off) : k.offAxis.getD (0, 0) = off := by
  rcases h with h | ⟨h, h1, h2⟩
  · simp [h]
  · rw [h]
    exact Prod.ext h1.symm h2.symm

theorem lensMaterial_getD (k : Kwargs) : Spec.LensMaterial k (k.material.getD defaultGlass) := by
  cases h : k.material with
  | none => exact .inr ⟨h, _, rfl, fun w => by simp only [IndexModel.indexAt]; norm_num⟩
  | some m => exact .inl (by simp [h])

theorem mirrorMaterial_getD (k : Kwargs) : Spec.MirrorMaterial k (k.material.getD .mirror) := by
  cases h : k.material with
  | none => exact .inr ⟨h, rfl⟩
  | some m => exact .inl (by simp [h])

variable {argsort : List EReal → List ℕ} {fuel : ℕ}

/-- **C103 (lenses).** `thick_lens`, called with any of the keywords omitted and any further keywords, builds the lens with the aperture given, or of
diameter 1; its surfaces all have the material given, or one glass of index 3/2 at every wavelength. -/
theorem C103_thick_lens (ha : IsArgsort argsort) {s0 : Scene} (h0 : Ready argsort fuel s0) (hf : 3 ≤ fuel) {r1 r2 : Option ℝ} {t : ℝ} (k : Kwargs)
    {ap : Aperture} (hap : Spec.ApertureOf k ap) (fits : Spec.LensFits r1 r2 t ap) :
    ∃ s a m, thickLensCall argsort fuel r1 r2 t k s0 = (.ok a, s) ∧
      Spec.Built argsort fuel s0 s a Spec.clearOfAxis (Spec.inLens r1 r2 t ap) (Spec.offLens r1 r2 t ap) ∧
      Spec.LensMaterial k m ∧ ∀ depth, 3 ≤ depth → ∀ e ∈ surfaceIds depth s.heap a, s.material e.2 = m := by
  obtain ⟨s, a, e, hb, hm⟩ := C45_thick_lens_partial ha h0 hf fits (k.material.getD defaultGlass)
  refine ⟨s, a, _, ?_, hb, lensMaterial_getD k, hm⟩
  rw [← e, thickLensCall, Kwargs.lens, hap.eq]

/-- **C103 (plano-convex lenses).** -/
theorem C103_plano_convex (ha : IsArgsort argsort) {s0 : Scene} (h0 : Ready argsort fuel s0) (hf : 2 ≤ fuel) {r t : ℝ} (hr : 0 < r) (k : Kwargs)
    {ap : Aperture} (hap : Spec.ApertureOf k ap) (fits : Spec.LensFits none (some (-r)) t ap) :
    ∃ s a m, planoConvexLensCall argsort fuel r t k s0 = (.ok a, s) ∧
      Spec.Built argsort fuel s0 s a Spec.clearOfAxis (Spec.inLens none (some (-r)) t ap) (Spec.offLens none (some (-r)) t ap) ∧
      Spec.LensMaterial k m ∧ ∀ depth, 3 ≤ depth → ∀ e ∈ surfaceIds depth s.heap a, s.material e.2 = m := by
  obtain ⟨s, a, e, hb, hm⟩ := C46_plano_convex_partial ha h0 hf hr fits (k.material.getD defaultGlass)
  refine ⟨s, a, _, ?_, hb, lensMaterial_getD k, hm⟩
  rw [← e, planoConvexLensCall, Kwargs.lens, hap.eq]

/-- **C103 (biconvex lenses with equal radii).** -/
theorem C103_biconvex (ha : IsArgsort argsort) {s0 : Scene} (h0 : Ready argsort fuel s0) (hf : 3 ≤ fuel) {r t : ℝ} (hr : 0 < r) (k : Kwargs)
    {ap : Aperture} (hap : Spec.ApertureOf k ap) (fits : Spec.LensFits (some r) (some (-r)) t ap) :
    ∃ s a m, biconvexLensCall argsort fuel r r t k s0 = (.ok a, s) ∧
      Spec.Built argsort fuel s0 s a Spec.clearOfAxis (Spec.inLens (some r) (some (-r)) t ap) (Spec.offLens (some r) (some (-r)) t ap) ∧
      Spec.LensMaterial k m ∧ ∀ depth, 3 ≤ depth → ∀ e ∈ surfaceIds depth s.heap a, s.material e.2 = m := by
  obtain ⟨s, a, e, hb, hm⟩ := C46_biconvex_partial ha h0 hf hr fits (k.material.getD defaultGlass)
  refine ⟨s, a, _, ?_, hb, lensMaterial_getD k, hm⟩
  rw [← e, biconvexLensCall, Kwargs.lens, hap.eq]

/-- **C103 (plane mirrors).** -/
theorem C103_plane_mirror (ha : IsArgsort argsort) {s0 : Scene} (h0 : Ready argsort fuel s0) (hf : 1 ≤ fuel) {t : ℝ} (ht : 0 ≤ t) (k : Kwargs)
    {ap : Aperture} (hap : Spec.ApertureOf k ap) (hgood : Spec.goodAperture ap) {off : ℝ × ℝ} (hoff : Spec.OffAxisOf k off) :
    ∃ s a i, planeMirrorCall argsort fuel t k s0 = (.ok a, s) ∧
      Spec.Built argsort fuel s0 s a Spec.clearOfAxis (fun x y z => Spec.inAperture ap (y - off.1) (z - off.2) ∧ |x| < t / 2)
        (fun x y z => Spec.offAperture ap (y - off.1) (z - off.2) ∨ t / 2 < |x|) ∧
      (∀ depth, 1 ≤ depth → surfaceIds depth s.heap a = [(i, a)]) ∧ Spec.MirrorMaterial k (s.material a) := by
  obtain ⟨s, a, i, e, hb, hs, hm, -⟩ := C52_plane_mirror_partial ha h0 hf ht hgood off (k.material.getD .mirror)
  refine ⟨s, a, i, ?_, hb, hs, hm ▸ mirrorMaterial_getD k⟩
  rw [← e, planeMirrorCall, Kwargs.mirror, hap.eq, hoff.eq]

/-- **C103 (spherical mirrors).** The sphere has the material in effect, the opening absorbs. -/
theorem C103_spherical_mirror (ha : IsArgsort argsort) {s0 : Scene} (h0 : Ready argsort fuel s0) (hf : 2 ≤ fuel) {r t : ℝ} (hr : r ≠ 0) (ht : 0 ≤ t)
    (k : Kwargs) {ap : Aperture} (hap : Spec.ApertureOf k ap) (hgood : Spec.goodAperture ap) {off : ℝ × ℝ} (hoff : Spec.OffAxisOf k off)
    (hw : √(off.1 ^ 2 + off.2 ^ 2) + √(Spec.rim ap) ≤ |r|) :
    ∃ s a i x j y, sphericalMirrorCall argsort fuel r t k s0 = (.ok a, s) ∧
      Spec.Built argsort fuel s0 s a Spec.clearOfAxis (Spec.inSpherical r t ap off) (Spec.offSpherical r t ap off) ∧
      (∀ depth, 3 ≤ depth → surfaceIds depth s.heap a = [(i, x), (j, y)]) ∧ s.material x = .absorber ∧ Spec.MirrorMaterial k (s.material y) := by
  obtain ⟨s, a, i, x, j, y, e, hb, hs, -, hx, hy, -⟩ := C47_spherical_mirror ha h0 hf hr ht hgood off hw (k.material.getD .mirror)
  refine ⟨s, a, i, x, j, y, ?_, hb, hs, hx, hy ▸ mirrorMaterial_getD k⟩
  rw [← e, sphericalMirrorCall, Kwargs.mirror, hap.eq, hoff.eq]

/-- **C103 (parabolic mirrors).** -/
theorem C103_parabolic_mirror (ha : IsArgsort argsort) {s0 : Scene} (h0 : Ready argsort fuel s0) (hfu : 2 ≤ fuel) {f t : ℝ} (hf : 1e-8 < 4 * f)
    (ht : 0 ≤ t) (k : Kwargs) {ap : Aperture} (hap : Spec.ApertureOf k ap) (hgood : Spec.goodAperture ap) (hbig : 4 * f * 1e-7 < Spec.rim ap)
    {off : ℝ × ℝ} (hoff : Spec.OffAxisOf k off) :
    ∃ s a i x j y, parabolicMirrorCall argsort fuel f t k s0 = (.ok a, s) ∧
      Spec.Built argsort fuel s0 s a (fun ray => Spec.clearOfAxis ray ∧ Spec.clearOfParabola f ray) (Spec.inParabolic f t ap off)
        (Spec.offParabolic f t ap off) ∧
      (∀ depth, 3 ≤ depth → surfaceIds depth s.heap a = [(i, x), (j, y)]) ∧ s.material x = .absorber ∧ Spec.MirrorMaterial k (s.material y) := by
  obtain ⟨s, a, i, x, j, y, e, hb, hs, -, hx, hy, -⟩ := C48_parabolic_mirror_partial ha h0 hfu hf ht hgood hbig off (k.material.getD .mirror)
  refine ⟨s, a, i, x, j, y, ?_, hb, hs, hx, hy ▸ mirrorMaterial_getD k⟩
  rw [← e, parabolicMirrorCall, Kwargs.mirror, hap.eq, hoff.eq]

/-- **C103 (prisms).** Without a material, a prism is of BK7: its index is given by the Sellmeier formula with the published coefficients. -/
theorem C103_prism (ha : IsArgsort argsort) {s0 : Scene} (h0 : Ready argsort fuel s0) (hf : 3 ≤ fuel) {side width : ℝ} (hs : 0 < side) (hw : 0 < width)
    (k : Option Material) :
    ∃ s a m, equilateralPrismCall argsort fuel side width k s0 = (.ok a, s) ∧
      Spec.Built argsort fuel s0 s a Spec.clearOfPrism (Spec.inPrism side width) (Spec.offPrism side width) ∧
      (k = some m ∨ k = none ∧ ∃ g, m = .glass g ∧ ∀ w, g.indexAt w = √(1 + 1.03961212 * w ^ 2 / (w ^ 2 - 0.00600069867) +
        0.231792344 * w ^ 2 / (w ^ 2 - 0.0200179144) + 1.01046945 * w ^ 2 / (w ^ 2 - 103.560653))) ∧
      ∀ depth, 3 ≤ depth → ∀ e ∈ surfaceIds depth s.heap a, s.material e.2 = m := by
  obtain ⟨s, a, e, hb, hm⟩ := C49_prism ha h0 hf hs hw (k.getD (.glass glassBK7))
  refine ⟨s, a, _, e, hb, ?_, hm⟩
  cases k with
  | some m => exact .inl rfl
  | none =>
    refine .inr ⟨rfl, _, rfl, fun w => ?_⟩
    simp only [glassBK7, IndexModel.indexAt]

/-- the two hits delimit a set: strictly between them whenever strictly inside, and within the closed set whenever between them -/
def Spec.Delimits (p : Prim) (r : Ray) (inner closed : ℝ → ℝ → ℝ → Prop) : Prop :=
  ∀ t : ℝ, (inner (r.at t 0) (r.at t 1) (r.at t 2) → SBtw (sort2 (p.intersect r)) t) ∧
    (Btw (sort2 (p.intersect r)) t → closed (r.at t 0) (r.at t 1) (r.at t 2))

/-- an argument with its default: the value given, otherwise the default -/
def Spec.Given {α : Type} (arg : Option α) (default value : α) : Prop := arg = some value ∨ arg = none ∧ value = default

theorem Spec.Given.eq {α : Type} {arg : Option α} {d v : α} (h : Spec.Given arg d v) : arg.getD d = v := by
  rcases h with h | ⟨h, rfl⟩ <;> simp [h]

theorem delimits_of {p : Prim} {r : Ray} {inner closed : ℝ → ℝ → ℝ → Prop} (hs : Spec.Sees p r)
    (hi : ∀ q : Vec4, inner (q 0) (q 1) (q 2) → Spec.Interior p q) (hc : ∀ q : Vec4, Spec.Closed p q → closed (q 0) (q 1) (q 2)) :
    Spec.Delimits p r inner closed :=
  fun _ => ⟨fun h => prim_sbtw hs (hi _ h), fun h => hc _ (prim_btw hs h)⟩

theorem centred_lt {a b x : ℝ} (h : b = -a) : (min a b < x ∧ x < max a b) ↔ |x| < |a| := by
  subst h
  rw [abs_lt]
  rcases le_total 0 a with h | h
  · rw [min_eq_right (by linarith), max_eq_left (by linarith), abs_of_nonneg h]
  · rw [min_eq_left (by linarith), max_eq_right (by linarith), abs_of_nonpos h, neg_neg]

theorem centred_le {a b x : ℝ} (h : b = -a) : (min a b ≤ x ∧ x ≤ max a b) ↔ |x| ≤ |a| := by
  subst h
  rw [abs_le]
  rcases le_total 0 a with h | h
  · rw [min_eq_right (by linarith), max_eq_left (by linarith), abs_of_nonneg h]
  · rw [min_eq_left (by linarith), max_eq_right (by linarith), abs_of_nonpos h, neg_neg]

/-- **C103 (cylinders).** Radius 1, from z = -1 to z = 1 where not given. -/
theorem C103_cylinder {ro lo hi : Option ℝ} {ρ a b : ℝ} (hρ : Spec.Given ro 1 ρ) (ha : Spec.Given lo (-1) a) (hb : Spec.Given hi 1 b) (hab : a ≤ b)
    (r : Ray) (h2 : Clear (r.d 2)) (h3 : Clear (r.d 0 * r.d 0 + r.d 1 * r.d 1)) :
    Spec.Delimits (cylinderCall ro lo hi) r (fun x y z => x ^ 2 + y ^ 2 < ρ ^ 2 ∧ a < z ∧ z < b) (fun x y z => x ^ 2 + y ^ 2 ≤ ρ ^ 2 ∧ a ≤ z ∧ z ≤ b) := by
  rw [cylinderCall, hρ.eq, ha.eq, hb.eq]
  refine delimits_of ⟨hab, h3, h2⟩ (fun q h => ?_) (fun q h => ?_)
  · simpa only [Spec.Interior, min_eq_left hab, max_eq_right hab] using h
  · simpa only [Spec.Closed, min_eq_left hab, max_eq_right hab] using h

/-- **C103 (cuboids).** Where not given, the corners are (-1, -1, -1) and (1, 1, 1). -/
theorem C103_cuboid {lo hi : Option (Fin 3 → ℝ)} {a b : Fin 3 → ℝ} (ha : Spec.Given lo (fun _ => -1) a) (hb : Spec.Given hi (fun _ => 1) b)
    (hab : ∀ i, a i ≤ b i) (r : Ray) (h0 : Clear (r.d 0)) (h1 : Clear (r.d 1)) (h2 : Clear (r.d 2)) :
    Spec.Delimits (cuboidCall lo hi) r (fun x y z => (a 0 < x ∧ x < b 0) ∧ (a 1 < y ∧ y < b 1) ∧ a 2 < z ∧ z < b 2)
      (fun x y z => (a 0 ≤ x ∧ x ≤ b 0) ∧ (a 1 ≤ y ∧ y ≤ b 1) ∧ a 2 ≤ z ∧ z ≤ b 2) := by
  have e1 : (![-1, -1, -1] : Fin 3 → ℝ) = fun _ => -1 := by funext i; fin_cases i <;> rfl
  have e2 : (![1, 1, 1] : Fin 3 → ℝ) = fun _ => 1 := by funext i; fin_cases i <;> rfl
  rw [cuboidCall, e1, e2, ha.eq, hb.eq]
  refine delimits_of ⟨h0, h1, h2⟩ (fun q h => ?_) (fun q h => ?_)
  · intro i
    rw [min_eq_left (hab i), max_eq_right (hab i)]
    fin_cases i
    exacts [h.1, h.2.1, h.2.2]
  · have k := fun i => h i
    simp only [min_eq_left (hab _), max_eq_right (hab _)] at k
    exact ⟨k 0, k 1, k 2⟩

/-- **C103 (cuboids by their sides).** Centred at the origin, with sides 1 where not given; `from_length` has three equal sides. -/
theorem C103_cuboid_sides {xo yo zo : Option ℝ} {x y z : ℝ} (hx : Spec.Given xo 1 x) (hy : Spec.Given yo 1 y) (hz : Spec.Given zo 1 z)
    (r : Ray) (h0 : Clear (r.d 0)) (h1 : Clear (r.d 1)) (h2 : Clear (r.d 2)) :
    Spec.Delimits (cuboidSidesCall xo yo zo) r (fun p q s => |p| < |x| / 2 ∧ |q| < |y| / 2 ∧ |s| < |z| / 2)
      (fun p q s => |p| ≤ |x| / 2 ∧ |q| ≤ |y| / 2 ∧ |s| ≤ |z| / 2) ∧
    Spec.Delimits (cuboidLengthCall x) r (fun p q s => |p| < |x| / 2 ∧ |q| < |x| / 2 ∧ |s| < |x| / 2)
      (fun p q s => |p| ≤ |x| / 2 ∧ |q| ≤ |x| / 2 ∧ |s| ≤ |x| / 2) := by
  have main : ∀ (a b : Fin 3 → ℝ) (l : Fin 3 → ℝ), (∀ i, a i = -(l i / 2)) → (∀ i, b i = l i / 2) →
      Spec.Delimits (.cube a b) r (fun p q s => |p| < |l 0| / 2 ∧ |q| < |l 1| / 2 ∧ |s| < |l 2| / 2)
        (fun p q s => |p| ≤ |l 0| / 2 ∧ |q| ≤ |l 1| / 2 ∧ |s| ≤ |l 2| / 2) := by
    intro a b l ea eb
    have hl : ∀ i, |a i| = |l i| / 2 := fun i => by rw [ea, abs_neg, abs_div, abs_two]
    have hab : ∀ i, b i = -a i := fun i => by rw [ea, eb, neg_neg]
    refine delimits_of ⟨h0, h1, h2⟩ (fun q h => ?_) (fun q h => ?_)
    · intro i
      rw [centred_lt (hab i), hl]
      fin_cases i
      exacts [h.1, h.2.1, h.2.2]
    · have k := fun i => h i
      simp only [centred_le (hab _), hl] at k
      exact ⟨k 0, k 1, k 2⟩
  constructor
  · rw [cuboidSidesCall, hx.eq, hy.eq, hz.eq]
    refine main _ _ ![x, y, z] (fun i => ?_) (fun i => ?_) <;> fin_cases i <;> simp <;> ring
  · refine main _ _ ![x, x, x] (fun i => ?_) (fun i => ?_) <;> fin_cases i <;> simp <;> ring

/-- **C103 (paraboloids).** Focal length 1 and height 1 where not given. -/
theorem C103_paraboloid {fo ho : Option ℝ} {f h : ℝ} (hf : Spec.Given fo 1 f) (hh : Spec.Given ho 1 h) (f0 : 0 < f) (hpos : 0 < h) (r : Ray)
    (h2 : Clear (r.d 2)) (h3 : 1e-8 < r.d 0 * r.d 0 + r.d 1 * r.d 1) :
    Spec.Delimits (paraboloidCall fo ho) r (fun x y z => x ^ 2 + y ^ 2 < 4 * f * z ∧ z < h) (fun x y z => x ^ 2 + y ^ 2 ≤ 4 * f * z ∧ z ≤ h) := by
  rw [paraboloidCall, hf.eq, hh.eq]
  exact delimits_of ⟨f0, hpos, h2, .inl h3⟩ (fun q h => h) (fun q h => h)

/-- **C103 (planes).** Width and length 2 where not given: a ray that passes through the rectangle reports its distance twice, every other ray
reports no finite distance. -/
theorem C103_plane {wo lo : Option ℝ} {w l : ℝ} (hw : Spec.Given wo 2 w) (hl : Spec.Given lo 2 l) (w0 : 0 ≤ w) (l0 : 0 ≤ l) (r : Ray)
    (h0 : Clear (r.d 0)) (h1 : Clear (r.d 1)) (h2 : Clear (r.d 2)) (hd : r.d 2 ≠ 0) :
    ∀ t : ℝ, Btw (sort2 ((planeCall wo lo).intersect r)) t ↔ r.at t 2 = 0 ∧ |r.at t 0| ≤ w / 2 ∧ |r.at t 1| ≤ l / 2 := by
  intro t
  rw [planeCall, hw.eq, hl.eq]
  refine ⟨fun h => prim_btw (p := .plane w l) ⟨w0, l0, h0, h1, h2⟩ h, fun h => ?_⟩
  rw [Prim.intersect, plane_eq w l w0 l0 r ⟨h0, h1, h2⟩]
  have ht : t = -(r.o 2) / r.d 2 := by
    have := h.1
    simp only [Ray.at] at this
    rw [eq_div_iff hd]
    linarith
  subst ht
  rw [if_pos ⟨hd, h⟩]
  simp [Btw, sort2]

/-- **C103 (sources).** Wavelength 0.633 where not given; lines of rays are 1 wide, circles have diameter 1. -/
theorem C103_sources {wo so : Option ℝ} {wl s : ℝ} (hwl : Spec.Given wo 0.633 wl) (hs : Spec.Given so 1 s) (angle : ℝ) (w : Mat4) (hw : Rigid w)
    (n : ℕ) (hn : 1 < n) :
    (∀ j : Fin n, ((lineCall so wo w n).col j).wavelength = wl ∧ ((circleCall so wo w n).col j).wavelength = wl ∧
      ((coneCall angle wo w n).col j).wavelength = wl ∧ ((wedgeCall angle wo w n).col j).wavelength = wl) ∧
    ((lineCall so wo w n).col ⟨0, by omega⟩).ray.o = w *ᵥ point 0 (-(s / 2)) 0 ∧
    ((lineCall so wo w n).col ⟨n - 1, by omega⟩).ray.o = w *ᵥ point 0 (s / 2) 0 ∧
    ∀ j : Fin n, norm4 (((circleCall so wo w n).col j).ray.o - w *ᵥ point 0 0 0) = |s| / 2 := by
  simp only [lineCall, circleCall, coneCall, wedgeCall, hwl.eq, hs.eq]
  have wave : ∀ (k : SourceKind) (j : Fin n), ((k.generate wl w n).col j).wavelength = wl := by
    intro k j
    obtain ⟨c, -, e, -, -, -, h, -⟩ := (C36_bundle_partial k wl w (rigid_affine hw) n fun _ _ => hn).2 j
    rw [← e, h]
  obtain ⟨y, hy, -, hend⟩ := C36_line s wl w n
  obtain ⟨e0, e1, -⟩ := hend hn
  refine ⟨fun j => ⟨wave _ j, wave _ j, wave _ j, wave _ j⟩, ?_, ?_, fun j => (C36_circle s wl w hw n j).2.1⟩
  · rw [hy, e0]
  · rw [hy, e1]

/-- **C103 (lamps).** A lamp without a given angle is the lamp with 90 degrees. It emits from its rectangle into the half space in front of it: no
ray is turned away from its axis by more than a right angle. -/
theorem C103_lamp {ao wo : Option ℝ} {angle wl : ℝ} (hwl : Spec.Given wo 0.633 wl) (hangle : Spec.Given ao 90 angle) (h0 : 0 ≤ angle) (h180 : angle ≤ 180)
    (width length : ℝ) (w : Mat4) (hw : Rigid w) {n : ℕ} (s : Samples n)
    (hs : ∀ j, (0 ≤ s.u j ∧ s.u j < 1) ∧ (0 ≤ s.v j ∧ s.v j < 1) ∧ (0 ≤ s.y j ∧ s.y j < 1) ∧ 0 ≤ s.z j ∧ s.z j < 1) (j : Fin n) :
    lampCall width length ao wo w s = lampCall width length (some angle) (some wl) w s ∧
    ((lampCall width length ao wo w s).col j).wavelength = wl ∧
    (∃ y z, |y| ≤ |width| / 2 ∧ |z| ≤ |length| / 2 ∧ ((lampCall width length ao wo w s).col j).ray.o = w *ᵥ point 0 y z) ∧
    Real.arccos (dot4 ((lampCall width length ao wo w s).col j).ray.d (Spec.axis w)) ≤ angle * Real.pi / 180 ∧
    (ao = none → 0 ≤ dot4 ((lampCall width length ao wo w s).col j).ray.d (Spec.axis w)) := by
  simp only [lampCall, hwl.eq, hangle.eq, Option.getD_some]
  obtain ⟨ho, -, -, h, -, hwave⟩ := (C38_lamp ⟨width, length, angle, wl⟩ h0 h180 w hw s hs).2 j
  refine ⟨trivial, hwave, ho, h, fun e => ?_⟩
  have ea : angle = 90 := by
    rcases hangle with h | ⟨-, h⟩
    · simp [e] at h
    · exact h
  subst ea
  rw [← Real.arccos_le_pi_div_two]
  refine h.trans (le_of_eq ?_)
  show (90 : ℝ) * Real.pi / 180 = _
  ring

/-- **C103 (tracer).** A tracer takes 10 rays from each source and follows them for 10 generations where not told otherwise: it is the tracer that is told so; the trace ends within
`2 * limit + 2` steps, no row has a generation beyond the limit, and the ray ids are below the number of sources times the rays per source. -/
theorem C103_tracer {ro : Option ℕ} {lo : Option ℤ} {n : ℕ} {limit : ℤ} (hn : Spec.Given ro 10 n) (hl : Spec.Given lo 10 limit) (h1 : 1 ≤ limit)
    (sources : List (ℕ → List Col)) (components : List Component) (hs : sources ≠ [])
    (h0 : ∀ s ∈ sources, ∀ c ∈ s n, c.generation = 0) :
    Tracer.call sources components ro lo = Tracer.new sources components n limit ∧
    (∃ m t', Tracer.Traces m (Tracer.call sources components ro lo) t' ∧ (m : ℤ) ≤ 2 * limit + 2 ∧ t'.complete = true ∧
      ∀ r ∈ t'.frame, ∃ g : ℕ, r.generation = g ∧ (g : ℤ) < limit) ∧
    (TracerOk (Tracer.call sources components ro lo) → (∀ s ∈ sources, (s n).length = n) →
      ∀ m t', Tracer.Traces m (Tracer.call sources components ro lo) t' → ∀ r ∈ t'.frame, ∃ i : ℕ, r.id = i ∧ i < sources.length * n) := by
  rw [Tracer.call, hn.eq, hl.eq]
  refine ⟨rfl, ?_, fun ok hlen m t' h r hr => ?_⟩
  · obtain ⟨m, t', h, hm, hc, hg⟩ := C26_terminates (Tracer.new sources components n limit) h1 hs h0
    exact ⟨m, t', h, hm.trans (le_of_eq (by show 1 + 2 * limit + 1 = _; ring)), hc, hg⟩
  · obtain ⟨p, hp⟩ := List.getElem?_of_mem hr
    obtain ⟨j, k, g, s, c, hj, hk, -, -, hid, -⟩ := C34_source_ids ok h hlen p r hp
    refine ⟨_, hid, ?_⟩
    have h2 : j < sources.length := (List.getElem?_eq_some_iff.1 hj).1
    have h3 : k < (s n).length := (List.getElem?_eq_some_iff.1 hk).1
    rw [hlen s (List.mem_of_getElem? hj)] at h3
    calc j * n + k < j * n + n := by omega
      _ = (j + 1) * n := by ring
      _ ≤ sources.length * n := Nat.mul_le_mul_right _ h2

/-! ### Non-vacuity -/

theorem fits_default : Spec.LensFits (some 10) (some (-10)) 1 (.scalar 1) := by
  refine ⟨by norm_num, by simp [Spec.goodAperture], ?_, ?_, ?_, ?_⟩
  · intro r hr; simp only [Option.some.injEq] at hr; subst hr; norm_num [Spec.rim]
  · intro r hr; simp only [Option.some.injEq] at hr; subst hr; norm_num [Spec.rim]
  all_goals
    intro q h0 h1 r hr _
    simp only [Option.some.injEq] at hr; subst hr
    simp only [Spec.sag]
    norm_num
    have k : √(100 - q) ≤ 10 := by rw [Real.sqrt_le_left (by norm_num)]; linarith
    linarith [Real.sqrt_nonneg (100 - q)]

/-- `thick_lens(10, -10, 1, off_axis=(5, 5), colour=...)`: the aperture is 1, the point (0, 0.4, 0) is inside and (0, 0.6, 0) outside, and the
surfaces are of a glass of index 3/2 -/
example (ha : IsArgsort argsort) : ∃ s a m, thickLensCall argsort 3 (some 10) (some (-10)) 1 { offAxis := some (5, 5), others := ["colour"] }
      ⟨Heap.empty, fun _ => .absorber⟩ = (.ok a, s) ∧
    Spec.InsideAt (intersectObj argsort 3 s.heap a (Spec.axisRay 1 (-3) 0.4 0)).1 3 ∧
    ¬ Spec.InsideAt (intersectObj argsort 3 s.heap a (Spec.axisRay 1 (-3) 0.6 0)).1 3 ∧
    (∃ g, m = .glass g ∧ ∀ w, g.indexAt w = 3 / 2) ∧ ∀ e ∈ surfaceIds 3 s.heap a, s.material e.2 = m := by
  obtain ⟨s, a, m, e, hb, hm, hs⟩ := C103_thick_lens ha (ready_empty (argsort := argsort) (fuel := 3) fun _ => .absorber) le_rfl
    { offAxis := some (5, 5), others := ["colour"] } (.inr ⟨rfl, rfl⟩) fits_default
  refine ⟨s, a, m, e, ?_, ?_, ?_, hs 3 le_rfl⟩
  · apply (hb.hits _ (axisRay_good (.inl rfl) _ _ _) (axisRay_clear _ _ _ _) 3 le_rfl 3).1
    rw [axisRay_at]
    have h1 : (9.9 : ℝ) ≤ √(100 - 0.16) := Real.le_sqrt_of_sq_le (by norm_num)
    simp [Spec.inLens, Spec.inAperture, Spec.sag, point]
    norm_num at h1 ⊢
    constructor <;> linarith
  · apply (hb.hits _ (axisRay_good (.inl rfl) _ _ _) (axisRay_clear _ _ _ _) 3 le_rfl 3).2
    rw [axisRay_at]
    left
    simp [Spec.offAperture, point]
    norm_num
  · rcases hm with h | ⟨-, h⟩
    · simp at h
    · exact h

/-- a keyword that is given replaces only its own default -/
example (ha : IsArgsort argsort) : ∃ s a m, thickLensCall argsort 3 (some 10) (some (-10)) 1 { material := some .mirror }
      ⟨Heap.empty, fun _ => .absorber⟩ = (.ok a, s) ∧ m = Material.mirror ∧ ∀ e ∈ surfaceIds 3 s.heap a, s.material e.2 = m := by
  obtain ⟨s, a, m, e, -, hm, hs⟩ := C103_thick_lens ha (ready_empty (argsort := argsort) (fuel := 3) fun _ => .absorber) le_rfl
    { material := some .mirror } (.inr ⟨rfl, rfl⟩) fits_default
  refine ⟨s, a, m, e, ?_, hs 3 le_rfl⟩
  rcases hm with h | ⟨h, -⟩ <;> simp at h
  exact h.symm

/-- `spherical_mirror(4, 1)` and `parabolic_mirror(1, 1)` meet the conditions -/
example : √((0 : ℝ) ^ 2 + 0 ^ 2) + √(Spec.rim (.scalar 1)) ≤ |(4 : ℝ)| ∧ 4 * (1 : ℝ) * 1e-7 < Spec.rim (.scalar 1) := by
  have h : √((1 / 2 : ℝ) ^ 2) = 1 / 2 := Real.sqrt_sq (by norm_num)
  simp only [Spec.rim, h]
  norm_num

/-- `Cylinder()` and a ray in the direction (1, 0, 1) through the origin: strictly inside at the origin -/
example : SBtw (sort2 ((cylinderCall none none none).intersect ⟨point 0 0 0, vector 1 0 1⟩)) 0 := by
  refine (C103_cylinder (.inr ⟨rfl, rfl⟩) (.inr ⟨rfl, rfl⟩) (.inr ⟨rfl, rfl⟩) (by norm_num) ⟨point 0 0 0, vector 1 0 1⟩ (.inr ?_) (.inr ?_) 0).1 ?_
  · simp [vector]; norm_num
  · simp [vector]; norm_num
  · simp [Ray.at, point, vector]

end PyRayT
