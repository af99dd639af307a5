import Verif.Proofs.Components4

/-!
# Properties C45-C47, C49, C50: lenses, the spherical mirror, the prism, apertures
-/

namespace PyRayT

open Classical Matrix

/-- The ray through (x0, y, z) parallel to the optical axis, for σ = 1 towards +x and for σ = -1 towards -x. -/
def Spec.axisRay (σ x0 y z : ℝ) : Ray := ⟨point x0 y z, vector σ 0 0⟩

/-- The points of a lens: inside the opening and between the surface of radius `r1` with vertex at x = -t/2 and the surface of radius
`r2` with vertex at x = t/2. -/
def Spec.inLens (r1 r2 : Option ℝ) (t : ℝ) (ap : Aperture) (x y z : ℝ) : Prop :=
  Spec.inAperture ap y z ∧ -t / 2 + Spec.sag r1 (y ^ 2 + z ^ 2) < x ∧ x < t / 2 + Spec.sag r2 (y ^ 2 + z ^ 2)

/-- The points outside of it. -/
def Spec.offLens (r1 r2 : Option ℝ) (t : ℝ) (ap : Aperture) (x y z : ℝ) : Prop :=
  Spec.offAperture ap y z ∨ x < -t / 2 + Spec.sag r1 (y ^ 2 + z ^ 2) ∨ t / 2 + Spec.sag r2 (y ^ 2 + z ^ 2) < x

/-- The points of a spherical mirror with vertex at the origin and centre of curvature at x = r: between the surface and the back at
x = -t (r > 0) or x = t (r < 0), inside the displaced opening. -/
def Spec.inSpherical (r t : ℝ) (ap : Aperture) (off : ℝ × ℝ) (x y z : ℝ) : Prop :=
  Spec.inAperture ap (y - off.1) (z - off.2) ∧
    if 0 < r then -t < x ∧ x < Spec.sag (some r) (y ^ 2 + z ^ 2) else Spec.sag (some r) (y ^ 2 + z ^ 2) < x ∧ x < t

/-- The points outside of it. -/
def Spec.offSpherical (r t : ℝ) (ap : Aperture) (off : ℝ × ℝ) (x y z : ℝ) : Prop :=
  Spec.offAperture ap (y - off.1) (z - off.2) ∨
    if 0 < r then x < -t ∨ Spec.sag (some r) (y ^ 2 + z ^ 2) < x else x < Spec.sag (some r) (y ^ 2 + z ^ 2) ∨ t < x

/-- The prism: the triangle with the corners (-s/2, -√3 s/4), (s/2, -√3 s/4), (0, √3 s/4) in the XZ plane, and |y| < w/2. -/
def Spec.inPrism (s w x y z : ℝ) : Prop := |y| < w / 2 ∧ -(√3 / 4 * s) < z ∧ z < √3 / 4 * s - √3 * |x|

/-- The points outside of it. -/
def Spec.offPrism (s w x y z : ℝ) : Prop := w / 2 < |y| ∨ z < -(√3 / 4 * s) ∨ √3 / 4 * s - √3 * |x| < z

variable {argsort : List EReal → List ℕ} {fuel : ℕ}

theorem axisRay_at (σ x0 y z t : ℝ) : (Spec.axisRay σ x0 y z).at t = point (x0 + t * σ) y z := by
  funext i; fin_cases i <;> simp [Ray.at, Spec.axisRay, point, vector]

theorem axisRay_good {σ : ℝ} (hσ : σ = 1 ∨ σ = -1) (x0 y z : ℝ) : GoodRay (Spec.axisRay σ x0 y z) := by
  have h1 : (1e-8 : ℝ) < |σ| := by rcases hσ with rfl | rfl <;> norm_num
  refine ⟨by simp [Spec.axisRay, point], by simp [Spec.axisRay, vector], ?_, .inl ?_⟩
  · simp only [ClearDir, Spec.axisRay, vector, Clear]
    refine ⟨.inr (by simpa using h1), .inl (by simp), .inl (by simp)⟩
  · simp only [Spec.axisRay, vector]
    rcases hσ with rfl | rfl <;> simp

theorem axisRay_clear (σ x0 y z : ℝ) : Spec.clearOfAxis (Spec.axisRay σ x0 y z) := by
  left; simp [Spec.axisRay, vector]

/-- Where a ray runs through the object in one piece, exactly the two end points are hit. -/
theorem Spec.Built.chord {s0 s : Scene} {a : ℕ} {seen : Ray → Prop} {inside outside : ℝ → ℝ → ℝ → Prop}
    (h : Spec.Built argsort fuel s0 s a seen inside outside) (hst : IsStableArgsort argsort) {ray : Ray} (hray : GoodRay ray)
    (hseen : seen ray) {depth : ℕ} (hd : 3 ≤ depth) {c1 c2 : ℝ} (hc : c1 < c2)
    (hin : ∀ t, c1 < t → t < c2 → inside (ray.at t 0) (ray.at t 1) (ray.at t 2))
    (hout : ∀ t, t < c1 ∨ c2 < t → outside (ray.at t 0) (ray.at t 1) (ray.at t 2)) (v : ℝ) :
    (v : EReal) ∈ (intersectObj argsort depth s.heap a ray).1 ↔ v = c1 ∨ v = c2 := by
  have hb := fun v => h.bound hst ray hray hseen depth hd v
  have hh := fun t => h.hits ray hray hseen depth hd t
  have only : ∀ v : ℝ, (v : EReal) ∈ (intersectObj argsort depth s.heap a ray).1 → v = c1 ∨ v = c2 := by
    intro v hv
    obtain ⟨n1, n2⟩ := hb v hv
    rcases lt_trichotomy v c1 with h1 | h1 | h1
    · exact absurd (hout v (.inl h1)) n2
    · exact .inl h1
    · rcases lt_trichotomy v c2 with h2 | h2 | h2
      · exact absurd (hin v h1 h2) n1
      · exact .inr h2
      · exact absurd (hout v (.inr h2)) n2
  refine ⟨only v, ?_⟩
  have hm := (hh ((c1 + c2) / 2)).1 (hin _ (by linarith) (by linarith))
  rintro (rfl | rfl)
  · have ho := (hh (v - 1)).2 (hout _ (.inl (by linarith)))
    obtain ⟨w, hw, -, w2⟩ := crossing_hit (t := v - 1) (t' := (v + c2) / 2) (by linarith) (fun e => ho (e.2 hm))
    rcases only w hw with rfl | rfl
    · exact hw
    · linarith
  · have ho := (hh (v + 1)).2 (hout _ (.inr (by linarith)))
    obtain ⟨w, hw, w1, -⟩ := crossing_hit (t := (c1 + v) / 2) (t' := v + 1) (by linarith) (fun e => ho (e.1 hm))
    rcases only w hw with rfl | rfl
    · linarith
    · exact hw

/-- a described set with a point that the object built does not have is not the object -/
theorem Ctx.not_built (ha : IsArgsort argsort) {s0 s : Scene} {T : CTree} {M : Made} (h : Ctx argsort fuel s0 s [(T, M)])
    (hd3 : M.depth ≤ 3) (hn : M.NoUnion) {inside outside : ℝ → ℝ → ℝ → Prop}
    (hleaf : ∀ ray, GoodRay ray → Spec.clearOfAxis ray → M.solid.All fun p w => (p.Valid ∧ Affine w) ∧ Spec.Sees p (ray.map w⁻¹))
    {x y z : ℝ} (hin : inside x y z) (hout : M.solid.Outside (point x y z)) :
    ¬ Spec.Built argsort fuel s0 s T.root Spec.clearOfAxis inside outside := by
  intro hb
  have hb' := h.built ha hd3 hn hleaf (inside := fun x y z => M.solid.Interior (point x y z))
    (outside := fun x y z => M.solid.Outside (point x y z)) (fun _ _ _ => ⟨Iff.rfl, Iff.rfl⟩)
  have k1 := (hb.hits (Spec.axisRay 1 x y z) (axisRay_good (.inl rfl) _ _ _) (axisRay_clear _ _ _ _) 3 le_rfl 0).1
  have k2 := (hb'.hits (Spec.axisRay 1 x y z) (axisRay_good (.inl rfl) _ _ _) (axisRay_clear _ _ _ _) 3 le_rfl 0).2
  rw [axisRay_at] at k1 k2
  simp [point] at k1 k2
  exact k2 hout (k1 hin)

theorem map_leaves (w : Mat4) : ∀ M : Made, (M.map w).leaves = M.leaves.map fun l => (l.1, w * l.2.1, l.2.2)
  | .leaf _ _ _ _ => rfl
  | .node _ l r => by simp [Made.map, Made.leaves, map_leaves w l, map_leaves w r]

theorem cutSide_leaves (op : Operation) (r c : ℝ) (m : Option Material) (M : Made) : ∀ l ∈ (cutSide op r c m M).leaves, l ∈ M.leaves ∨ l.2.2.2 = m := by
  intro l hl
  unfold cutSide Made.join at hl
  split at hl <;> simp only [Made.flip, Made.leaves, List.mem_append, List.mem_singleton] at hl
  · exact hl.imp id (fun h => by rw [h])
  · exact hl.imp id (fun h => by rw [h])

/-! ### C45 -/

/-- **C45 (thick_lens).** When the surfaces fit the aperture (`LensFits`), `thick_lens(r1, r2, t)` succeeds and builds the lens described,
and all its surfaces have the given material; the other objects stay as they are. (`Built.hits` and `Built.bound` say what rays see of
it.) Missing from C45: radii for which the far side of a convex sphere is in front of the other surface; see `C45_far_side_false`. -/
theorem C45_thick_lens_partial (ha : IsArgsort argsort) {s0 : Scene} (h0 : Ready argsort fuel s0) (hf : 3 ≤ fuel) {r1 r2 : Option ℝ} {t : ℝ}
    {ap : Aperture} (fits : Spec.LensFits r1 r2 t ap) (m : Material) :
    ∃ s a, thickLens argsort fuel r1 r2 t ap m s0 = (.ok a, s) ∧
      Spec.Built argsort fuel s0 s a Spec.clearOfAxis (Spec.inLens r1 r2 t ap) (Spec.offLens r1 r2 t ap) ∧
      ∀ depth, 3 ≤ depth → ∀ e ∈ surfaceIds depth s.heap a, s.material e.2 = m := by
  obtain ⟨s, T, e, c⟩ := thickLens_makes h0 hf r1 r2 t fits.opening m
  have hd : ((thickLensMade r1 r2 t ap m).map turn).depth ≤ 3 := by
    rw [Made.map_depth]
    unfold thickLensMade
    cases r1 <;> cases r2 <;> simp [cutSide_depth, Made.depth]
  refine ⟨s, T.root, e, c.built ha hd (thickLens_noUnion r1 r2 t ap m)
    (fun ray hray hs => thickLens_all fits m hray hs) (fun x y z => thickLens_points fits m x y z), fun depth h3 => ?_⟩
  refine c.material (by omega) ?_
  rw [map_leaves]
  intro l' hl'
  obtain ⟨l, hl, rfl⟩ := List.mem_map.1 hl'
  clear hl'
  simp only
  unfold thickLensMade at hl
  have hbase : ∀ (T : ℝ) (c : ℝ), ∀ l ∈ (Made.leaf (aperturePrim ap T) (moveMatrix 0 0 c) 1 (some m)).leaves, l.2.2.2 = some m := by
    intro T c l hl
    simp only [Made.leaves, List.mem_singleton] at hl
    rw [hl]
  cases r1 <;> cases r2 <;> simp only at hl
  · exact hbase _ _ l hl
  · exact (cutSide_leaves _ _ _ _ _ l hl).elim (hbase _ _ l) id
  · exact (cutSide_leaves _ _ _ _ _ l hl).elim (hbase _ _ l) id
  · exact (cutSide_leaves _ _ _ _ _ l hl).elim (fun hl => (cutSide_leaves _ _ _ _ _ l hl).elim (hbase _ _ l) id) id

/-- **C45 (rays).** A ray parallel to the axis through the opening of such a lens meets it exactly at its two surfaces. -/
theorem C45_axis_rays_partial (hst : IsStableArgsort argsort) {s0 s : Scene} (h0 : Ready argsort fuel s0) (hf : 3 ≤ fuel) {r1 r2 : Option ℝ}
    {t : ℝ} {ap : Aperture} (fits : Spec.LensFits r1 r2 t ap) (m : Material) {a : ℕ} (hrun : thickLens argsort fuel r1 r2 t ap m s0 = (.ok a, s))
    {y z : ℝ} (hap : Spec.inAperture ap y z)
    (hthick : -t / 2 + Spec.sag r1 (y ^ 2 + z ^ 2) < t / 2 + Spec.sag r2 (y ^ 2 + z ^ 2)) {σ : ℝ} (hσ : σ = 1 ∨ σ = -1) (x0 : ℝ)
    {depth : ℕ} (hd : 3 ≤ depth) (v : ℝ) :
    (v : EReal) ∈ (intersectObj argsort depth s.heap a (Spec.axisRay σ x0 y z)).1 ↔
      x0 + v * σ = -t / 2 + Spec.sag r1 (y ^ 2 + z ^ 2) ∨ x0 + v * σ = t / 2 + Spec.sag r2 (y ^ 2 + z ^ 2) := by
  obtain ⟨s', a', e, hb, -⟩ := C45_thick_lens_partial hst.1 h0 hf fits m
  rw [hrun] at e
  simp only [Prod.mk.injEq, Except.ok.injEq] at e
  obtain ⟨rfl, rfl⟩ := e
  have hpt : ∀ t, (Spec.axisRay σ x0 y z).at t 0 = x0 + t * σ ∧ (Spec.axisRay σ x0 y z).at t 1 = y ∧ (Spec.axisRay σ x0 y z).at t 2 = z := by
    intro t; rw [axisRay_at]; simp [point]
  have hch := fun c1 c2 (hc : c1 < c2) => hb.chord hst (axisRay_good hσ x0 y z) (axisRay_clear σ x0 y z) hd hc
  rcases hσ with rfl | rfl
  · rw [hch (-t / 2 + Spec.sag r1 (y ^ 2 + z ^ 2) - x0) (t / 2 + Spec.sag r2 (y ^ 2 + z ^ 2) - x0) (by linarith)]
    · constructor <;> rintro (h | h)
      · left; linarith
      · right; linarith
      · left; linarith
      · right; linarith
    · intro v h1 h2
      obtain ⟨e0, e1, e2⟩ := hpt v
      rw [e0, e1, e2]
      exact ⟨hap, by linarith, by linarith⟩
    · intro v h
      obtain ⟨e0, e1, e2⟩ := hpt v
      rw [e0, e1, e2]
      rcases h with h | h
      · exact .inr (.inl (by linarith))
      · exact .inr (.inr (by linarith))
  · rw [hch (x0 - (t / 2 + Spec.sag r2 (y ^ 2 + z ^ 2))) (x0 - (-t / 2 + Spec.sag r1 (y ^ 2 + z ^ 2))) (by linarith)]
    · constructor <;> rintro (h | h)
      · right; linarith
      · left; linarith
      · right; linarith
      · left; linarith
    · intro v h1 h2
      obtain ⟨e0, e1, e2⟩ := hpt v
      rw [e0, e1, e2]
      exact ⟨hap, by linarith, by linarith⟩
    · intro v h
      obtain ⟨e0, e1, e2⟩ := hpt v
      rw [e0, e1, e2]
      rcases h with h | h
      · exact .inr (.inr (by linarith))
      · exact .inr (.inl (by linarith))

/-- **C45 is false without the last condition of `LensFits`.** `thick_lens(1, inf, 10, aperture=1)` should contain the points between the
convex surface with vertex x = -5 and the plane x = 5, such as the origin; but the lens ends where the sphere of radius 1 ends. -/
theorem C45_far_side_false (ha : IsArgsort argsort) {s0 : Scene} (h0 : Ready argsort fuel s0) (hf : 3 ≤ fuel) (m : Material) :
    ∃ s a, thickLens argsort fuel (some 1) none 10 (.scalar 1) m s0 = (.ok a, s) ∧
      ¬ Spec.Built argsort fuel s0 s a Spec.clearOfAxis (Spec.inLens (some 1) none 10 (.scalar 1)) (Spec.offLens (some 1) none 10 (.scalar 1)) := by
  have hap : Spec.goodAperture (.scalar 1) := one_pos
  obtain ⟨s, T, e, c⟩ := thickLens_makes h0 hf (some 1) none 10 hap m
  refine ⟨s, T.root, e, c.not_built ha ?_ (thickLens_noUnion _ _ _ _ _) ?_ (x := 0) (y := 0) (z := 0) ?_ ?_⟩
  · rw [Made.map_depth]; simp [thickLensMade, cutSide_depth, Made.depth]
  · intro ray hray hs
    obtain ⟨lo, hi, hle, hfull, -⟩ := fullThickness (some 1) none 10 (.scalar 1) (by norm_num) (by simp [Spec.rim]; norm_num) (by simp)
    have hb := base_all (ap := .scalar 1) (T := hi - lo) (by linarith) (a := 0) (b := 0) (c := (hi + lo) / 2) (n := 1) (m := some m) hray hs
    unfold thickLensMade
    rw [hfull]
    exact cutSide_all hray hb
  · simp only [Spec.inLens, Spec.inAperture, Spec.sag]
    norm_num
  · simp only [thickLensMade]
    rw [cutSide_outside]
    right
    simp only [sideOut]
    norm_num

theorem ready_empty (mats : ℕ → Material) : Ready argsort fuel ⟨Heap.empty, mats⟩ :=
  ⟨.refl _, fun b hb => absurd hb (by simp [Heap.empty])⟩

theorem fits_biconvex : Spec.LensFits (some 10) (some (-10)) 1 (.scalar 2) := by
  have hs : ∀ q : ℝ, 0 ≤ √(10 ^ 2 - q) := fun q => Real.sqrt_nonneg _
  refine ⟨by norm_num, by simp [Spec.goodAperture], ?_, ?_, ?_, ?_⟩
  · intro r hr; simp only [Option.some.injEq] at hr; subst hr; norm_num [Spec.rim]
  · intro r hr; simp only [Option.some.injEq] at hr; subst hr; norm_num [Spec.rim]
  · intro q h0 h1 r hr _
    simp only [Option.some.injEq] at hr; subst hr
    simp only [Spec.sag]
    norm_num
    have k : √(100 - q) ≤ 10 := by rw [Real.sqrt_le_left (by norm_num)]; linarith
    linarith [Real.sqrt_nonneg (100 - q)]
  · intro q h0 h1 r hr _
    simp only [Option.some.injEq] at hr; subst hr
    simp only [Spec.sag]
    norm_num
    have k : √(100 - q) ≤ 10 := by rw [Real.sqrt_le_left (by norm_num)]; linarith
    linarith [Real.sqrt_nonneg (100 - q)]

/-- non-vacuity of C45: a lens with radii 10 and -10, thickness 1 and opening 2 in an empty scene; the origin is inside, and the ray along
the axis meets it at x = -1/2 and x = 1/2 -/
example (hst : IsStableArgsort argsort) : ∃ s a, thickLens argsort 3 (some 10) (some (-10)) 1 (.scalar 2) defaultGlass
      ⟨Heap.empty, fun _ => .absorber⟩ = (.ok a, s) ∧
    Spec.inLens (some 10) (some (-10)) 1 (.scalar 2) 0 0 0 ∧
    Spec.InsideAt (intersectObj argsort 3 s.heap a (Spec.axisRay 1 (-3) 0 0)).1 3 ∧
    ((5 / 2 : ℝ) : EReal) ∈ (intersectObj argsort 3 s.heap a (Spec.axisRay 1 (-3) 0 0)).1 := by
  obtain ⟨s, a, e, hb, -⟩ := C45_thick_lens_partial hst.1 (ready_empty (argsort := argsort) (fuel := 3) fun _ => .absorber) le_rfl
    fits_biconvex defaultGlass
  have hs : √100 = 10 := by rw [show (100 : ℝ) = 10 ^ 2 by norm_num, Real.sqrt_sq (by norm_num)]
  have hin : Spec.inLens (some 10) (some (-10)) 1 (.scalar 2) 0 0 0 := by
    simp only [Spec.inLens, Spec.inAperture, Spec.sag]
    norm_num [hs]
  refine ⟨s, a, e, hin, ?_, ?_⟩
  · apply (hb.hits _ (axisRay_good (.inl rfl) _ _ _) (axisRay_clear _ _ _ _) 3 le_rfl 3).1
    rw [axisRay_at]
    simpa [point] using hin
  · rw [C45_axis_rays_partial hst (ready_empty _) le_rfl fits_biconvex defaultGlass e hin.1 (by simp [Spec.sag]; norm_num [hs]) (.inl rfl) _ le_rfl]
    left
    simp [Spec.sag]
    norm_num [hs]

/-! ### C46 -/

/-- **C46 (plano_convex_lens).** When the sphere fits, `plano_convex_lens(r, t)` builds the lens between the plane x = -t/2 and the sphere of
radius r with vertex x = t/2, of the given material. Missing from C46: as in C45. -/
theorem C46_plano_convex_partial (ha : IsArgsort argsort) {s0 : Scene} (h0 : Ready argsort fuel s0) (hf : 2 ≤ fuel) {r t : ℝ} (hr : 0 < r)
    {ap : Aperture} (fits : Spec.LensFits none (some (-r)) t ap) (m : Material) :
    ∃ s a, planoConvexLens argsort fuel r t ap m s0 = (.ok a, s) ∧
      Spec.Built argsort fuel s0 s a Spec.clearOfAxis (Spec.inLens none (some (-r)) t ap) (Spec.offLens none (some (-r)) t ap) ∧
      ∀ depth, 3 ≤ depth → ∀ e ∈ surfaceIds depth s.heap a, s.material e.2 = m := by
  obtain ⟨s, T, e, c⟩ := planoConvexLens_makes h0 hf r t fits.opening m
  refine ⟨s, T.root, e, c.built ha (by simp [Made.map_depth, planoConvexMade, Made.depth]) ⟨by simp, trivial, trivial⟩
    (fun ray hray hs => ⟨⟨⟨trivial, turn_move_affine _ _ _⟩, sphere_sees hray _ _ _⟩, base_all fits.thick hray hs (n := 1) (m := some m)⟩)
    (fun x y z => planoConvex_spec hr fits m x y z), fun depth h3 => c.material ?_ ?_⟩
  · simp [Made.map_depth, planoConvexMade, Made.depth]; omega
  · rw [map_leaves]
    simp [planoConvexMade, Made.leaves]

/-- **C46 (biconvex_lens with equal radii).** Missing from C46: different radii, for which it is false (`C46_biconvex_false`). -/
theorem C46_biconvex_partial (ha : IsArgsort argsort) {s0 : Scene} (h0 : Ready argsort fuel s0) (hf : 3 ≤ fuel) {r t : ℝ} (hr : 0 < r)
    {ap : Aperture} (fits : Spec.LensFits (some r) (some (-r)) t ap) (m : Material) :
    ∃ s a, biconvexLens argsort fuel r r t ap m s0 = (.ok a, s) ∧
      Spec.Built argsort fuel s0 s a Spec.clearOfAxis (Spec.inLens (some r) (some (-r)) t ap) (Spec.offLens (some r) (some (-r)) t ap) ∧
      ∀ depth, 3 ≤ depth → ∀ e ∈ surfaceIds depth s.heap a, s.material e.2 = m := by
  obtain ⟨s, T, e, c⟩ := biconvexLens_makes h0 hf r r t fits.opening m
  refine ⟨s, T.root, e, c.built ha (by simp [Made.map_depth, biconvexMade, Made.depth]) ⟨by simp, ⟨by simp, trivial, trivial⟩, trivial⟩
    (fun ray hray hs => ⟨⟨⟨⟨trivial, turn_move_affine _ _ _⟩, sphere_sees hray _ _ _⟩, ⟨trivial, turn_move_affine _ _ _⟩, sphere_sees hray _ _ _⟩,
      base_all fits.thick hray hs (n := 1) (m := some m)⟩)
    (fun x y z => biconvex_spec hr fits m x y z), fun depth h3 => c.material ?_ ?_⟩
  · simp [Made.map_depth, biconvexMade, Made.depth]; omega
  · rw [map_leaves]
    simp [biconvexMade, Made.leaves]

/-- **C46 is false for different radii.** `biconvex_lens(10, 5, 1, aperture=1)` exchanges the radii but not the centres: the origin, which should
be inside the lens, is not. -/
theorem C46_biconvex_false (ha : IsArgsort argsort) {s0 : Scene} (h0 : Ready argsort fuel s0) (hf : 3 ≤ fuel) (m : Material) :
    ∃ s a, biconvexLens argsort fuel 10 5 1 (.scalar 1) m s0 = (.ok a, s) ∧
      ¬ Spec.Built argsort fuel s0 s a Spec.clearOfAxis (Spec.inLens (some 10) (some (-5)) 1 (.scalar 1))
        (Spec.offLens (some 10) (some (-5)) 1 (.scalar 1)) := by
  have hap : Spec.goodAperture (.scalar 1) := one_pos
  obtain ⟨s, T, e, c⟩ := biconvexLens_makes h0 hf 10 5 1 hap m
  refine ⟨s, T.root, e, c.not_built ha (by simp [Made.map_depth, biconvexMade, Made.depth]) ⟨by simp, ⟨by simp, trivial, trivial⟩, trivial⟩
    (fun ray hray hs => ⟨⟨⟨⟨trivial, turn_move_affine _ _ _⟩, sphere_sees hray _ _ _⟩, ⟨trivial, turn_move_affine _ _ _⟩, sphere_sees hray _ _ _⟩,
      base_all (by norm_num) hray hs (n := 1) (m := some m)⟩) (x := 0) (y := 0) (z := 0) ?_ ?_⟩
  · have h1 : √100 = 10 := by rw [show (100 : ℝ) = 10 ^ 2 by norm_num, Real.sqrt_sq (by norm_num)]
    have h2 : √25 = 5 := by rw [show (25 : ℝ) = 5 ^ 2 by norm_num, Real.sqrt_sq (by norm_num)]
    simp only [Spec.inLens, Spec.inAperture, Spec.sag]
    norm_num [h1, h2]
  · rw [(biconvex_points 10 5 (by norm_num) hap m 0 0 0).2]
    left; left; norm_num

/-- non-vacuity of C46 -/
example (ha : IsArgsort argsort) : ∃ s a, biconvexLens argsort 3 10 10 1 (.scalar 2) defaultGlass ⟨Heap.empty, fun _ => .absorber⟩ = (.ok a, s) ∧
    Spec.InsideAt (intersectObj argsort 3 s.heap a (Spec.axisRay 1 (-3) 0 0)).1 3 := by
  obtain ⟨s, a, e, hb, -⟩ := C46_biconvex_partial ha (ready_empty (argsort := argsort) (fuel := 3) fun _ => .absorber) le_rfl (by norm_num)
    fits_biconvex defaultGlass
  have hs : √100 = 10 := by rw [show (100 : ℝ) = 10 ^ 2 by norm_num, Real.sqrt_sq (by norm_num)]
  refine ⟨s, a, e, ?_⟩
  apply (hb.hits _ (axisRay_good (.inl rfl) _ _ _) (axisRay_clear _ _ _ _) 3 le_rfl 3).1
  rw [axisRay_at]
  simp [Spec.inLens, Spec.inAperture, Spec.sag, point]
  norm_num [hs]

/-! ### C47 -/

/-- **C47 (spherical_mirror).** When the displaced opening fits the sphere, `spherical_mirror(r, t)` builds the mirror described. It has two
surfaces: the opening absorbs, the sphere has the given material, and every hit labelled with the id of the sphere is on the sphere x = sag, not
outside the opening. -/
theorem C47_spherical_mirror (ha : IsArgsort argsort) {s0 : Scene} (h0 : Ready argsort fuel s0) (hf : 2 ≤ fuel) {r t : ℝ} (hr : r ≠ 0) (ht : 0 ≤ t)
    {ap : Aperture} (hap : Spec.goodAperture ap) (off : ℝ × ℝ) (hw : √(off.1 ^ 2 + off.2 ^ 2) + √(Spec.rim ap) ≤ |r|) (m : Material) :
    ∃ s a i x j y, sphericalMirror argsort fuel r t ap m off s0 = (.ok a, s) ∧
      Spec.Built argsort fuel s0 s a Spec.clearOfAxis (Spec.inSpherical r t ap off) (Spec.offSpherical r t ap off) ∧
      (∀ depth, 3 ≤ depth → surfaceIds depth s.heap a = [(i, x), (j, y)]) ∧ i ≠ j ∧ s.material x = .absorber ∧ s.material y = m ∧
      (IsStableArgsort argsort → ∀ ray, GoodRay ray → Spec.clearOfAxis ray → ∀ depth, 3 ≤ depth → ∀ v : ℝ,
        Spec.Reports argsort s a depth ray v j →
        ray.at v 0 = Spec.sag (some r) (ray.at v 1 ^ 2 + ray.at v 2 ^ 2) ∧ ¬ Spec.offAperture ap (ray.at v 1 - off.1) (ray.at v 2 - off.2)) ∧
      ∀ p : Vec4, p 3 = 1 → (p 0 - r) ^ 2 + p 1 ^ 2 + p 2 ^ 2 = r ^ 2 →
        surfaceNormal s.heap y p = vector ((r - p 0) / |r|) (-p 1 / |r|) (-p 2 / |r|) := by
  obtain ⟨s, T, e, c⟩ := sphericalMirror_makes h0 hf r t hr hap m off
  have hall : ∀ ray, GoodRay ray → Spec.clearOfAxis ray →
      ((sphericalMade r t ap m off).map turn).solid.All fun p w => (p.Valid ∧ Affine w) ∧ Spec.Sees p (ray.map w⁻¹) := by
    intro ray hray hs
    have hfr : 0 ≤ t + sphFront r ap off := by
      unfold sphFront
      have : √(r ^ 2 - (√(off.1 ^ 2 + off.2 ^ 2) + ap.maxHeight) ^ 2) ≤ |r| := by
        rw [← Real.sqrt_sq_eq_abs]
        exact Real.sqrt_le_sqrt (by nlinarith [sq_nonneg (√(off.1 ^ 2 + off.2 ^ 2) + ap.maxHeight)])
      linarith
    exact ⟨base_all hfr hray hs (n := 1) (m := some .absorber), ⟨trivial, turn_move_affine _ _ _⟩, sphere_sees hray _ _ _⟩
  have hb : Spec.Built argsort fuel s0 s T.root Spec.clearOfAxis (Spec.inSpherical r t ap off) (Spec.offSpherical r t ap off) :=
    c.built ha (by simp [Made.map_depth, sphericalMade, Made.depth]) ⟨by simp, trivial, trivial⟩ hall
      (fun x y z => spherical_points r t hr ht hap off hw m x y z)
  have hd : ((sphericalMade r t ap m off).map turn).depth ≤ 3 := by simp [Made.map_depth, sphericalMade, Made.depth]
  have hne : (aperturePrim ap (t + sphFront r ap off)) ≠ .sphere |r| := by cases ap <;> simp [aperturePrim]
  obtain ⟨i, x, j, y, hids, hij, hx, hy, hi, hj, l1, l2⟩ := c.two hd (by rw [map_leaves]; simp [sphericalMade, Made.leaves]; exact ⟨rfl, rfl⟩) hne
  refine ⟨s, T.root, i, x, j, y, e, hb, hids, hij, l1.2.2.2 _ rfl, l2.2.2.2 _ rfl, ?_, ?_⟩
  · intro hst ray hray hs depth h3 v hrep
    subst hi hj
    have hon := (c.reports_two ha (hall ray hray hs) (hd.trans h3) (by rw [map_leaves]; simp [sphericalMade, Made.leaves])
      hne hx hy l1 l2 (hids depth h3) (v := v)).2.1 hrep
    obtain ⟨k, hk, -⟩ := hrep
    have hbd := (hb.bound hst ray hray hs depth h3 v (List.mem_of_getElem? hk)).2
    rw [point_eta (hray.at3 v)] at hon
    simp only at hon
    rw [(turn_sphere _ _ _ _ _).1, (turn_sphere _ _ _ _ _).2, not_lt, not_lt, sq_abs] at hon
    simp only [Spec.offSpherical, not_or] at hbd
    refine ⟨?_, hbd.1⟩
    have hq := off_bound hbd.1
    have hq2 : ray.at v 1 ^ 2 + ray.at v 2 ^ 2 ≤ r ^ 2 := by
      refine hq.trans ?_
      rw [← sq_abs r]
      exact pow_le_pow_left₀ (by positivity) hw 2
    have hsq : (ray.at v 0 - r) ^ 2 = r ^ 2 - (ray.at v 1 ^ 2 + ray.at v 2 ^ 2) := by linarith [hon.1, hon.2]
    have hroot : √(r ^ 2 - (ray.at v 1 ^ 2 + ray.at v 2 ^ 2)) = |ray.at v 0 - r| := by rw [← hsq, Real.sqrt_sq_eq_abs]
    have h2 := hbd.2
    simp only [Spec.sag] at h2 ⊢
    rw [hroot] at h2 ⊢
    rcases lt_or_gt_of_ne hr with hneg | hpos
    · rw [if_neg (by linarith)] at h2 ⊢
      rw [not_or, not_lt, if_neg (by linarith)] at h2
      have := h2.1
      rcases abs_cases (ray.at v 0 - r) with ⟨h, h'⟩ | ⟨h, h'⟩ <;> linarith
    · rw [if_pos hpos] at h2 ⊢
      rw [not_or, not_lt, not_lt, if_pos hpos] at h2
      have := h2.2
      rcases abs_cases (ray.at v 0 - r) with ⟨h, h'⟩ | ⟨h, h'⟩ <;> linarith
  · intro p hp hon
    have hT : (s.heap.obj y).objT = (turn * moveMatrix 0 0 r)⁻¹ := by
      rw [(c.ready.inv.synced y hy).2.1, l2.2.1]
    have habs : 0 < |r| := abs_pos.2 hr
    have hnorm : norm4 ![p 1, p 2, p 0 - r, 0] = |r| := by
      rw [norm4, ← Real.sqrt_sq_eq_abs]; congr 1; simp; linarith
    have hunit : norm4 (vector (p 1 / |r|) (p 2 / |r|) ((p 0 - r) / |r|)) = 1 := by
      rw [norm4, Real.sqrt_eq_one]
      simp [vector]
      field_simp
      rw [sq_abs]; linarith
    have hn : Prim.normal (.sphere |r|) (point (p 1 - 0) (p 2 - 0) (p 0 - r)) = vector (p 1 / |r|) (p 2 / |r|) ((p 0 - r) / |r|) := by
      simp only [Prim.normal, sub_zero]
      funext k
      simp only [normalize, point]
      have : norm4 ![(![p 1, p 2, p 0 - r, 1] : Vec4) 0, (![p 1, p 2, p 0 - r, 1] : Vec4) 1, (![p 1, p 2, p 0 - r, 1] : Vec4) 2, 0] = |r| := by
        rw [← hnorm]; congr 1
      rw [this]
      fin_cases k <;> simp [vector]
    unfold surfaceNormal
    rw [l2.1]
    simp only
    rw [point_eta hp, turn_worldNormal hT _ _ _ _ hn hunit, l2.2.2.1]
    funext k
    fin_cases k <;> simp [vector, point] <;> ring

/-- **C47:** radius 0 is not a mirror but an exception (`UnboundLocalError`). -/
theorem C47_zero_radius {s0 : Scene} (h0 : Ready argsort fuel s0) (hf : 1 ≤ fuel) (t : ℝ) {ap : Aperture} (hap : Spec.goodAperture ap) (m : Material)
    (off : ℝ × ℝ) : (sphericalMirror argsort fuel 0 t ap m off s0).1 = .error .unbound := by
  obtain ⟨s1, e1, c1⟩ := (Ctx.start h0).aperture hap (t + sphFront 0 ap off)
  obtain ⟨s2, e2, c2⟩ := c1.setMaterial .absorber
  obtain ⟨s3, e3, c3⟩ := c2.move (by simp [Made.depth]; omega) off.1 off.2 0
  simp only [CTree.root_leaf] at e3
  unfold sphericalMirror orient
  have hbad : ∀ (x : Build ℕ) (s : Scene) (s' : Scene) (f : ℕ → Build ℕ), x s = (.error .unbound, s') → ((x >>= f) s).1 = .error .unbound := by
    intro x s s' f h
    simp only [bind, h]
  apply hbad _ _ s3
  change (createAperture ap (t + sphFront 0 ap off) >>= _) s0 = _
  rw [Build.bind_ok e1, Build.bind_ok e2, Build.bind_ok e3, if_neg (by simp), if_neg (by simp)]
  rfl

/-- non-vacuity of C47: a concave mirror of radius 10; the ray that comes from the centre along the axis hits it in the vertex, and the
normal there points to the centre -/
example (hst : IsStableArgsort argsort) : ∃ s a y, sphericalMirror argsort 2 10 1 (.scalar 2) .mirror (0, 0) ⟨Heap.empty, fun _ => .absorber⟩ = (.ok a, s) ∧
    ((10 : ℝ) : EReal) ∈ (intersectObj argsort 3 s.heap a (Spec.axisRay (-1) 10 0 0)).1 ∧ s.material y = .mirror ∧
    surfaceNormal s.heap y (point 0 0 0) = vector 1 0 0 := by
  obtain ⟨s, a, i, x, j, y, e, hb, -, -, -, hm, -, hn⟩ := C47_spherical_mirror hst.1
    (ready_empty (argsort := argsort) (fuel := 2) fun _ => .absorber) le_rfl (r := 10) (t := 1) (by norm_num) (by norm_num)
    (ap := .scalar 2) (by simp [Spec.goodAperture]) (0, 0) (by simp [Spec.rim]) .mirror
  have hs : √100 = 10 := by rw [show (100 : ℝ) = 10 ^ 2 by norm_num, Real.sqrt_sq (by norm_num)]
  refine ⟨s, a, y, e, ?_, hm, ?_⟩
  · rw [hb.chord hst (axisRay_good (.inr rfl) _ _ _) (axisRay_clear _ _ _ _) le_rfl (c1 := 10) (c2 := 11) (by norm_num)]
    · left; rfl
    · intro t h1 h2
      rw [axisRay_at]
      simp [Spec.inSpherical, Spec.inAperture, Spec.sag, point]
      norm_num [hs]
      constructor <;> linarith
    · intro t h
      rw [axisRay_at]
      simp [Spec.offSpherical, Spec.offAperture, Spec.sag, point]
      norm_num [hs]
      rcases h with h | h
      · right; linarith
      · left; linarith
  · rw [hn _ (by simp [point]) (by simp [point])]
    simp [point]

/-! ### C49 -/

/-- the tolerances do not misjudge the direction in the frames of the two blocks that are cut off -/
def Spec.clearOfPrism (ray : Ray) : Prop :=
  Clear (√3 / 2 * ray.d 0 + 1 / 2 * ray.d 2) ∧ Clear (√3 / 2 * ray.d 0 - 1 / 2 * ray.d 2) ∧
    Clear (√3 / 2 * ray.d 2 + 1 / 2 * ray.d 0) ∧ Clear (√3 / 2 * ray.d 2 - 1 / 2 * ray.d 0)

theorem cutPlace_dir (side u : ℝ) {sg : ℝ} (h : sg = 1 ∨ sg = -1) {d : Vec4} (hd : d 3 = 0) :
    (cutPlace side u sg)⁻¹ *ᵥ d = vector (√3 / 2 * d 0 + sg * (1 / 2) * d 2) (d 1) (-sg * (1 / 2) * d 0 + √3 / 2 * d 2) := by
  have e : d = point (d 0) (d 1) (d 2) - point 0 0 0 := by
    funext k; fin_cases k <;> simp [point, hd]
  rw [e, mulVec_sub, cutPlace_point side u h, cutPlace_point side u h]
  funext k
  fin_cases k <;> simp [point, vector] <;> ring

theorem move_dir (a b c : ℝ) {d : Vec4} (hd : d 3 = 0) : (moveMatrix a b c)⁻¹ *ᵥ d = d := by
  have e : d = point (d 0) (d 1) (d 2) - point 0 0 0 := by
    funext k; fin_cases k <;> simp [point, hd]
  rw [e, mulVec_sub, move_inv_point, move_inv_point]
  funext k
  fin_cases k <;> simp [point]

/-- **C49 (equilateral_prism).** For all positive sides and widths the prism is built as described, of the given material. -/
theorem C49_prism (ha : IsArgsort argsort) {s0 : Scene} (h0 : Ready argsort fuel s0) (hf : 3 ≤ fuel) {side width : ℝ} (hs : 0 < side) (hw : 0 < width)
    (m : Material) :
    ∃ s a, equilateralPrism argsort fuel side width m s0 = (.ok a, s) ∧
      Spec.Built argsort fuel s0 s a Spec.clearOfPrism (Spec.inPrism side width) (Spec.offPrism side width) ∧
      ∀ depth, 3 ≤ depth → ∀ e ∈ surfaceIds depth s.heap a, s.material e.2 = m := by
  obtain ⟨s, T, e, c⟩ := prism_makes h0 hf side width m
  refine ⟨s, T.root, e, c.built ha (by simp [prismMade, Made.depth]) ⟨by simp, ⟨by simp, trivial, trivial⟩, trivial⟩ ?_
    (fun x y z => prism_points hs hw m x y z), fun depth h3 => c.material ?_ ?_⟩
  · intro ray hray hc
    obtain ⟨c1, c2, c3, c4⟩ := hc
    obtain ⟨d0, d1, d2⟩ := hray.clear
    refine ⟨⟨⟨⟨trivial, rigid_affine (move_rigid _ _ _)⟩, ?_⟩, ⟨trivial, rigid_affine (cutPlace_rigid _ _ (.inr rfl))⟩, ?_⟩,
      ⟨trivial, rigid_affine (cutPlace_rigid _ _ (.inl rfl))⟩, ?_⟩
    · simp only [Spec.Sees, Ray.map, move_dir _ _ _ hray.d3]
      exact ⟨d0, d1, d2⟩
    · simp only [cutBlock, Spec.Sees, Ray.map, cutPlace_dir _ _ (.inr rfl) hray.d3, vector]
      refine ⟨?_, by simpa using d1, ?_⟩
      · convert c2 using 1; simp; ring
      · convert c3 using 1; simp; ring
    · simp only [cutBlock, Spec.Sees, Ray.map, cutPlace_dir _ _ (.inl rfl) hray.d3, vector]
      refine ⟨?_, by simpa using d1, ?_⟩
      · convert c1 using 1; simp
      · convert c4 using 1; simp; ring
  · simp [prismMade, Made.depth]; omega
  · simp [prismMade, Made.leaves]

/-- non-vacuity of C49: a prism of side 2 and width 1; the ray along the x axis has its middle inside, and meets it exactly at the two
slanted faces -/
example (hst : IsStableArgsort argsort) : ∃ s a, equilateralPrism argsort 3 2 1 defaultGlass ⟨Heap.empty, fun _ => .absorber⟩ = (.ok a, s) ∧
    ∀ v : ℝ, (v : EReal) ∈ (intersectObj argsort 3 s.heap a (Spec.axisRay 1 0 0 0)).1 ↔ v = -1 / 2 ∨ v = 1 / 2 := by
  obtain ⟨s, a, e, hb, -⟩ := C49_prism hst.1 (ready_empty (argsort := argsort) (fuel := 3) fun _ => .absorber) le_rfl (side := 2) (width := 1)
    (by norm_num) (by norm_num) defaultGlass
  have k0 : 0 < √3 := Real.sqrt_pos.2 (by norm_num)
  have k1 : (1 : ℝ) < √3 := by rw [Real.lt_sqrt (by norm_num)]; norm_num
  refine ⟨s, a, e, fun v => hb.chord hst (axisRay_good (.inl rfl) _ _ _) ?_ le_rfl (by norm_num) ?_ ?_ v⟩
  · simp only [Spec.clearOfPrism, Spec.axisRay, vector, Clear]
    refine ⟨.inr ?_, .inr ?_, .inr ?_, .inr ?_⟩ <;> simp
    · rw [abs_of_pos (by positivity)]; norm_num; linarith
    · rw [abs_of_pos (by positivity)]; norm_num; linarith
    · norm_num
    · norm_num
  · intro t h1 h2
    rw [axisRay_at]
    have : |t| < 1 / 2 := abs_lt.2 ⟨by linarith, by linarith⟩
    simp [Spec.inPrism, point]
    nlinarith
  · intro t h
    rw [axisRay_at]
    have : 1 / 2 < |t| := by
      rcases h with h | h
      · exact lt_abs.2 (.inr (by linarith))
      · exact lt_abs.2 (.inl h)
    simp [Spec.offPrism, point]
    right; right
    nlinarith

/-! ### C50 -/

/-- **C50 (the shape of an aperture).** For a positive number the body made is the cylinder of that diameter, for two positive numbers the
box with these sides, of the given thickness about the origin. Missing from C50: ellipses, see `C50_ellipse_false`. -/
theorem C50_shape_partial (ha : IsArgsort argsort) {s0 : Scene} (h0 : Ready argsort fuel s0) {ap : Aperture} (hap : Spec.goodAperture ap)
    {t : ℝ} (ht : 0 ≤ t) :
    ∃ s a, createAperture ap t s0 = (.ok a, s) ∧
      Spec.Built argsort fuel s0 s a (fun ray => Clear (ray.d 0 * ray.d 0 + ray.d 1 * ray.d 1))
        (fun x y z => Spec.inAperture ap x y ∧ |z| < t / 2) (fun x y z => Spec.offAperture ap x y ∨ t / 2 < |z|) := by
  obtain ⟨s, e, c⟩ := (Ctx.start h0).aperture hap t
  have h1 : Affine (1 : Mat4) := rigid_affine rigid_one
  have hinv : (1 : Mat4)⁻¹ = 1 := inv_one
  refine ⟨s, _, e, c.built ha (by simp [Made.depth]) trivial ?_ fun x y z => ?_⟩
  · intro ray hray hs
    refine ⟨⟨aperture_valid ap t, h1⟩, ?_⟩
    have hm : ray.map (1 : Mat4)⁻¹ = ray := by rw [hinv]; simp [Ray.map]
    rw [hm]
    cases ap with
    | scalar d => exact ⟨by linarith, hs, hray.clear.2.2⟩
    | pair a b => exact hray.clear
  · simp only [Made.solid]
    rw [leaf_interior h1.2, leaf_outside h1.2, hinv, one_mulVec, aperture_interior hap ht, aperture_closed hap ht]
    exact ⟨Iff.rfl, by rw [not_and_or, not_not, not_le]⟩

/-- **C50 (other pairs).** A pair that is neither positive nor negative raises `TypeError` and creates nothing. -/
theorem C50_mixed_pair (a b t : ℝ) (hpos : ¬ (0 < a ∧ 0 < b)) (hneg : ¬ (a < 0 ∧ b < 0)) (s0 : Scene) :
    createAperture (.pair a b) t s0 = (.error .type, s0) := by
  simp only [createAperture]
  rw [if_neg hpos, if_neg hneg]
  rfl

/-- **C50 is false for ellipses.** Every pair of negative numbers raises `TypeError` instead of giving an elliptical cylinder. -/
theorem C50_ellipse_false (a b t : ℝ) (hneg : a < 0 ∧ b < 0) (s0 : Scene) : (createAperture (.pair a b) t s0).1 = .error .type := by
  simp only [createAperture]
  rw [if_neg (by rintro ⟨h, -⟩; linarith [hneg.1]), if_pos hneg]
  rw [Build.bind_ok (s' := ⟨newPrim s0.heap _, s0.material⟩) (if_neg (by simp [Prim.rejected]))]
  rfl

/-- non-vacuity of C50: a box with sides 2 and 4, a mixed pair and a negative pair -/
example (ha : IsArgsort argsort) : (∃ s a, createAperture (.pair 2 4) 1 ⟨Heap.empty, fun _ => .absorber⟩ = (.ok a, s) ∧
      Spec.InsideAt (intersectObj argsort 3 s.heap a (Spec.axisRay 1 (-3) 1.9 0)).1 3) ∧
    createAperture (.pair 2 (-4)) 1 ⟨Heap.empty, fun _ => .absorber⟩ = (.error .type, ⟨Heap.empty, fun _ => .absorber⟩) ∧
    (createAperture (.pair (-2) (-4)) 1 ⟨Heap.empty, fun _ => .absorber⟩).1 = .error .type := by
  refine ⟨?_, C50_mixed_pair _ _ _ (by norm_num) (by norm_num) _, C50_ellipse_false _ _ _ (by norm_num) _⟩
  obtain ⟨s, a, e, hb⟩ := C50_shape_partial ha (ready_empty (argsort := argsort) (fuel := 3) fun _ => .absorber) (ap := .pair 2 4)
    (by norm_num [Spec.goodAperture]) (t := 1) (by norm_num)
  refine ⟨s, a, e, (hb.hits _ (axisRay_good (.inl rfl) _ _ _) (.inr ?_) 3 le_rfl 3).1 ?_⟩
  · simp [Spec.axisRay, vector]; norm_num
  · rw [axisRay_at]
    simp [Spec.inAperture, point]
    norm_num [abs_lt]

end PyRayT
