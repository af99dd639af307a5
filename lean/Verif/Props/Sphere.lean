import Verif.Props.Skew

/-!
# Property C91: where a spherical mirror sends light

Rays parallel to the axis cross it near half the radius, with the exact spherical aberration; rays on lines through the centre come back on themselves.
-/

namespace PyRayT

open Classical Matrix Spec

variable {argsort : List EReal → List ℕ} {fuel : ℕ}

/-- Where the reflected line crosses the axis: rays parallel to the axis at the squared distance `q` from it, mirror of radius `R` with vertex at the origin. -/
noncomputable def Spec.mirrorFocus (R q : ℝ) : ℝ := R - |R| * R / (2 * √(R ^ 2 - q))

/-- The crossing is off half the radius, always towards the mirror, by at most the amount given. -/
theorem mirrorFocus_near {R q : ℝ} (hR : R ≠ 0) (hq : 0 ≤ q) (hlt : q < R ^ 2) :
    |R / 2 - mirrorFocus R q| ≤ |R| * q / (4 * (R ^ 2 - q)) ∧ 0 ≤ (R / 2 - mirrorFocus R q) / R ∧ mirrorFocus R 0 = R / 2 := by
  have hD : 0 < √(R ^ 2 - q) := Real.sqrt_pos.2 (by linarith)
  have hD2 : √(R ^ 2 - q) ^ 2 = R ^ 2 - q := Real.sq_sqrt (by linarith)
  have hA : 0 < |R| := abs_pos.2 hR
  have hle : √(R ^ 2 - q) ≤ |R| := by
    rw [← Real.sqrt_sq_eq_abs]; exact Real.sqrt_le_sqrt (by linarith)
  set D := √(R ^ 2 - q) with hDdef
  have e : R / 2 - mirrorFocus R q = R * ((|R| - D) / (2 * D)) := by
    unfold mirrorFocus
    rw [← hDdef]; field_simp; ring
  have h0 : 0 ≤ (|R| - D) / (2 * D) := div_nonneg (by linarith) (by linarith)
  refine ⟨?_, ?_, ?_⟩
  · rw [e, abs_mul, abs_of_nonneg h0, mul_div_assoc]
    refine mul_le_mul_of_nonneg_left ?_ hA.le
    rw [← hD2, div_le_div_iff₀ (by linarith) (by positivity)]
    have hq' : q = (|R| - D) * (|R| + D) := by
      have := sq_abs R
      nlinarith
    rw [hq']
    have : 0 ≤ (|R| - D) * D := mul_nonneg (by linarith) hD.le
    nlinarith
  · rw [e, mul_div_assoc]
    have : R * ((|R| - D) / (2 * D) / R) = (|R| - D) / (2 * D) := by field_simp
    rw [this]; exact h0
  · unfold mirrorFocus
    rw [sub_zero, Real.sqrt_sq_eq_abs]
    field_simp
    ring

/-- **C91.** After `spherical_mirror(R, t, ...)` with the mirror as material has been called, on any scene built before, let any tracer have the mirror among its
components and let a row `r` end on the sphere.

If `r` is parallel to the axis (tilt (σ, 0, 0)) at the distance √q < |R| from it, the line of the next row crosses the axis at `mirrorFocus R q`, ahead of the mirror
if light comes from the hollow side. This is off the focus R/2 by at most |R| q / (4 (R² - q)).

If the line of `r` goes through the centre of the sphere, the ray returns on itself. -/
theorem C91_spherical (hst : IsStableArgsort argsort) {s0 : Scene} (h0 : Ready argsort fuel s0) (hfu : 2 ≤ fuel) {R t : ℝ} (hR : R ≠ 0)
    (ht : 0 ≤ t) {ap : Aperture} (hap : Spec.goodAperture ap) (off : ℝ × ℝ) (hw : √(off.1 ^ 2 + off.2 ^ 2) + √(Spec.rim ap) ≤ |R|) :
    ∃ s a j, sphericalMirror argsort fuel R t ap .mirror off s0 = (.ok a, s) ∧
      ∀ (objs : List ℕ) (depth : ℕ) (sources : List (ℕ → List Col)) (n : ℕ) (limit : ℤ) (k : ℕ) (t' : Tracer),
        a ∈ objs → 3 ≤ depth → (∀ a ∈ objs, a < s.heap.size) →
        (objs.flatMap fun a => (surfaceIds depth s.heap a).map Prod.snd).Nodup →
        (∀ f ∈ sources, ∀ c ∈ f n, c.generation = 0 ∧ c.ray.o 3 = 1 ∧ c.ray.d 3 = 0 ∧ norm4 c.ray.d = 1) →
        Tracer.Traces k (Tracer.new sources (objs.map (s.component argsort depth)) n limit) t' →
        ∀ r ∈ t'.frame, ∀ r' ∈ t'.frame, Follows r r' → r.surface = (j : ℤ) →
          (∀ σ q, (σ = 1 ∨ σ = -1) → r.tilt = ![σ, 0, 0] → q = r.stop 1 ^ 2 + r.stop 2 ^ 2 → q < R ^ 2 →
            r.stop 0 = sag (some R) q ∧
            (∃ l : ℝ, (0 < l ↔ 0 < -σ * R) ∧ r.stop 0 + l * r'.tilt 0 = mirrorFocus R q ∧ r.stop 1 + l * r'.tilt 1 = 0 ∧ r.stop 2 + l * r'.tilt 2 = 0) ∧
            |R / 2 - mirrorFocus R q| ≤ |R| * q / (4 * (R ^ 2 - q))) ∧
          (∀ κ : ℝ, r.stop 0 - R = κ * r.tilt 0 → r.stop 1 = κ * r.tilt 1 → r.stop 2 = κ * r.tilt 2 → GoodRay (rowRay r) →
            Spec.clearOfAxis (rowRay r) → ∀ i, r'.tilt i = -r.tilt i) := by
  obtain ⟨s, a, i, x, j, y, hbuild, hb, hids, hij, hmx, hmy, hon, hnrm⟩ := C47_spherical_mirror hst.1 h0 hfu hR ht hap off hw .mirror
  refine ⟨s, a, j, hbuild, ?_⟩
  intro objs depth sources n limit k t' haa h3 hlt hnd hem htr r hrm r' hrm' hfol hsf
  have hr : Reaches argsort fuel Heap.empty s.heap := TidyReaches.reaches argsort hb.ready.tidy
  have ok := scene_tracer_ok argsort hst.1 fuel s hr objs hlt depth hnd sources n limit hem
  have hy : (j, y) ∈ surfaceIds depth s.heap a := by rw [hids depth h3]; simp
  obtain ⟨d, hd0, hnear, hat⟩ := row_arrives ok htr hrm
  have hrep := nearest_reports hst.1 hr hlt hnd hnear haa hy hsf
  rw [hsf] at hrep
  obtain ⟨-, c, hcr, hw'⟩ := row_mirrored hst.1 hr hlt hnd hem htr hrm hrm' hfol haa hy hsf hmy
  have hA : 0 < |R| := abs_pos.2 hR
  have hsq := sq_abs R
  -- the law of reflection with the normal of the sphere
  have hlaw : GoodRay (rowRay r) → Spec.clearOfAxis (rowRay r) →
      r.stop 0 = sag (some R) (r.stop 1 ^ 2 + r.stop 2 ^ 2) ∧ (r.stop 0 - R) ^ 2 + r.stop 1 ^ 2 + r.stop 2 ^ 2 = R ^ 2 ∧
      let S := r.tilt 0 * (r.stop 0 - R) + r.tilt 1 * r.stop 1 + r.tilt 2 * r.stop 2
      r'.tilt 0 = r.tilt 0 - 2 * S / R ^ 2 * (r.stop 0 - R) ∧ r'.tilt 1 = r.tilt 1 - 2 * S / R ^ 2 * r.stop 1 ∧
      r'.tilt 2 = r.tilt 2 - 2 * S / R ^ 2 * r.stop 2 := by
    intro hg hc
    obtain ⟨h1, h2⟩ := hon hst _ hg hc depth h3 d hrep
    rw [hat] at h1 h2
    have h1 : r.stop 0 = sag (some R) (r.stop 1 ^ 2 + r.stop 2 ^ 2) := h1
    have h2 : ¬ offAperture ap (r.stop 1 - off.1) (r.stop 2 - off.2) := h2
    have hle : r.stop 1 ^ 2 + r.stop 2 ^ 2 ≤ R ^ 2 := by
      refine (off_bound h2).trans ?_
      rw [← sq_abs R]
      exact pow_le_pow_left₀ (by positivity) hw 2
    have hs : (r.stop 0 - R) ^ 2 + r.stop 1 ^ 2 + r.stop 2 ^ 2 = R ^ 2 := by
      have h2 := Real.sq_sqrt (show 0 ≤ R ^ 2 - (r.stop 1 ^ 2 + r.stop 2 ^ 2) by linarith)
      have : (r.stop 0 - R) ^ 2 = R ^ 2 - (r.stop 1 ^ 2 + r.stop 2 ^ 2) := by
        rw [h1, ← h2]; simp only [sag]; split <;> ring
      linarith
    refine ⟨h1, hs, ?_⟩
    have hN := hnrm r.finish rfl hs
    intro S
    have key : ∀ l, r'.dir l = r.dir l - 2 * surfaceNormal s.heap y r.finish l * dot4 r.dir (surfaceNormal s.heap y r.finish) := by
      intro l
      rw [hw']
      change c.ray.d l - 2 * surfaceNormal s.heap y c.ray.o l * dot4 c.ray.d (surfaceNormal s.heap y c.ray.o) = _
      rw [hcr]
    rw [hN] at key
    have hdot : dot4 r.dir (vector ((R - r.finish 0) / |R|) (-r.finish 1 / |R|) (-r.finish 2 / |R|)) = -S / |R| := by
      have : dot4 r.dir (vector ((R - r.finish 0) / |R|) (-r.finish 1 / |R|) (-r.finish 2 / |R|)) =
        r.tilt 0 * ((R - r.stop 0) / |R|) + r.tilt 1 * (-r.stop 1 / |R|) + r.tilt 2 * (-r.stop 2 / |R|) + 0 * 0 := rfl
      rw [this]; simp only [S]; field_simp; ring
    rw [hdot] at key
    have alg : ∀ T W : ℝ, T - 2 * (W / |R|) * (-S / |R|) = T - 2 * S / R ^ 2 * (-W) := by
      intro T W
      rw [← hsq]; field_simp
    refine ⟨?_, ?_, ?_⟩
    · have := (key 0).trans (alg (r.tilt 0) (R - r.stop 0))
      rw [neg_sub] at this; exact this
    · have := (key 1).trans (alg (r.tilt 1) (-r.stop 1))
      rw [neg_neg] at this; exact this
    · have := (key 2).trans (alg (r.tilt 2) (-r.stop 2))
      rw [neg_neg] at this; exact this
  refine ⟨fun σ q hσ htilt hq hlt => ?_, fun κ k0 k1 k2 hg hc => ?_⟩
  · have hray : rowRay r = Spec.axisRay σ (r.start 0) (r.start 1) (r.start 2) := by
      unfold rowRay Spec.axisRay
      rw [htilt]; rfl
    obtain ⟨hsag, hsph, l0, l1, l2⟩ := hlaw (by rw [hray]; exact axisRay_good hσ _ _ _) (by rw [hray]; exact axisRay_clear _ _ _ _)
    rw [← hq] at hsag
    refine ⟨hsag, ?_, (mirrorFocus_near hR (by rw [hq]; positivity) hlt).1⟩
    have hD : 0 < √(R ^ 2 - q) := Real.sqrt_pos.2 (by linarith)
    have hD2 : √(R ^ 2 - q) ^ 2 = R ^ 2 - q := Real.sq_sqrt (by linarith)
    have hv0 : (r.stop 0 - R) * |R| = -(R * √(R ^ 2 - q)) := by
      rw [hsag]; simp only [sag]
      split
      · rename_i h; rw [abs_of_pos h]; ring
      · rename_i h; rw [abs_of_neg (lt_of_le_of_ne (not_lt.1 h) hR)]; ring
    have hσ2 : σ * σ = 1 := by rcases hσ with rfl | rfl <;> norm_num
    have t0 : r.tilt 0 = σ := by rw [htilt]; rfl
    have t1 : r.tilt 1 = 0 := by rw [htilt]; rfl
    have t2 : r.tilt 2 = 0 := by rw [htilt]; rfl
    rw [t0, t1, t2] at l0 l1 l2
    have hvne : r.stop 0 - R ≠ 0 := by
      intro h; rw [h, zero_mul] at hv0
      have : R * √(R ^ 2 - q) = 0 := by linarith
      exact (mul_ne_zero hR hD.ne') this
    set V := r.stop 0 - R with hV
    have hmul : σ * R ^ 2 / (2 * V) * (2 * (σ * V + 0 * r.stop 1 + 0 * r.stop 2) / R ^ 2) = 1 := by
      rw [zero_mul, zero_mul, add_zero, add_zero, ← hσ2]
      field_simp
    refine ⟨σ * R ^ 2 / (2 * V), ?_, ?_, ?_, ?_⟩
    · have hsgn : σ * R ^ 2 / (2 * V) = -σ * R * (|R| / (2 * √(R ^ 2 - q))) := by
        rw [← mul_div_assoc, div_eq_div_iff (by simpa using hvne) (by positivity)]
        linear_combination (2 * R * σ) * hv0
      rw [hsgn]
      have : 0 < |R| / (2 * √(R ^ 2 - q)) := by positivity
      exact mul_pos_iff_of_pos_right this
    · have e : mirrorFocus R q = R + R ^ 2 / (2 * V) := by
        unfold mirrorFocus
        have : |R| * R / (2 * √(R ^ 2 - q)) = -(R ^ 2 / (2 * V)) := by
          rw [← neg_div, div_eq_div_iff (by positivity) (by simpa using hvne)]
          linear_combination (2 * R) * hv0
        rw [this]; ring
      have hx : σ * R ^ 2 / (2 * V) * σ = R ^ 2 / (2 * V) := by
        rw [div_mul_eq_mul_div, mul_right_comm, hσ2, one_mul]
      rw [e, l0, show r.stop 0 = V + R by rw [hV]; ring]
      linear_combination hx - V * hmul
    · rw [l1]
      linear_combination -r.stop 1 * hmul
    · rw [l2]
      linear_combination -r.stop 2 * hmul
  · obtain ⟨-, hsph, l0, l1, l2⟩ := hlaw hg hc
    have hu := (C35_unit_tilts ok htr r hrm).1
    have hκ : κ ^ 2 = R ^ 2 := by
      rw [k0, k1, k2] at hsph
      rw [← hsph]
      linear_combination (-κ ^ 2) * hu
    rw [k0, k1, k2] at l0 l1 l2
    have hS : r.tilt 0 * (κ * r.tilt 0) + r.tilt 1 * (κ * r.tilt 1) + r.tilt 2 * (κ * r.tilt 2) = κ := by
      linear_combination κ * hu
    have hκ0 : κ ≠ 0 := by
      rintro rfl
      exact hR (by simpa using hκ.symm)
    rw [hS, ← hκ] at l0 l1 l2
    have alg : ∀ T : ℝ, T - 2 * κ / κ ^ 2 * (κ * T) = -T := by
      intro T; field_simp; ring
    rw [alg] at l0 l1 l2
    intro i
    fin_cases i
    · exact l0
    · exact l1
    · exact l2

/-- C91: a hollow mirror of radius 10 in the room. The ray at y = 6 ends on the sphere, in (2, 6, 0), and goes on (to cross the axis at x = 15/4). -/
example (hst : IsStableArgsort argsort) : ∃ s0, Ready argsort 2 s0 ∧ √((0 : ℝ) ^ 2 + 0 ^ 2) + √(rim (.scalar 16)) ≤ |(10 : ℝ)| ∧
    ∃ s a j, sphericalMirror argsort 2 10 1 (.scalar 16) .mirror (0, 0) s0 = (.ok a, s) ∧
    ∃ (objs : List ℕ) (sources : List (ℕ → List Col)) (k : ℕ) (t' : Tracer),
      Bench argsort 2 s objs 3 sources 1 ∧ a ∈ objs ∧ Tracer.Traces k (Tracer.new sources (objs.map (s.component argsort 3)) 1 5) t' ∧
      ∃ r ∈ t'.frame, ∃ r' ∈ t'.frame, Follows r r' ∧ r.surface = ((j : ℕ) : ℤ) ∧ r.tilt = ![-1, 0, 0] ∧ r.stop 1 ^ 2 + r.stop 2 ^ 2 = 36 ∧
        mirrorFocus 10 36 = 15 / 4 := by
  obtain ⟨s0, -, h0, hsz, hk0, hw0, hm0⟩ := room_made (argsort := argsort) (fuel := 2)
  have hwide : √((0 : ℝ) ^ 2 + 0 ^ 2) + √(rim (.scalar 16)) ≤ |(10 : ℝ)| := by
    have e : √(rim (.scalar 16)) = 8 := by
      rw [show rim (.scalar 16) = (8 : ℝ) ^ 2 by norm_num [rim]]
      exact Real.sqrt_sq (by norm_num)
    rw [e]; norm_num
  have hap : goodAperture (.scalar 16) := by simp [goodAperture]
  refine ⟨s0, h0, hwide, ?_⟩
  obtain ⟨s, a, i, x, j, y, hrun, hb, hids, hij, hmx, hmy, -, -⟩ := C47_spherical_mirror hst.1 h0 le_rfl (r := 10) (t := 1) (by norm_num) (by norm_num)
    hap (0, 0) hwide .mirror
  obtain ⟨T, rfl, c⟩ := (sphericalMirror_makes h0 le_rfl 10 1 (by norm_num) hap .mirror (0, 0)).of_run hrun
  set ray := Spec.axisRay (-1) 9 6 0 with hray
  set col : Col := ⟨ray, 0, 100, 0.633, 1, 0⟩ with hcol
  have hleaves : ((sphericalMade 10 1 (.scalar 16) .mirror (0, 0)).map turn).leaves =
      [(aperturePrim (.scalar 16) (1 + sphFront 10 (.scalar 16) (0, 0)), turn * moveMatrix 0 0 ((sphFront 10 (.scalar 16) (0, 0) + 1) / 2 - 1), 1, some .absorber),
       (.sphere |10|, turn * moveMatrix 0 0 10, -1, some .mirror)] := by
    rw [map_leaves]
    simp [sphericalMade, Made.leaves]
  have hfront : sphFront 10 (.scalar 16) (0, 0) = 4 := by
    have e : √((10 : ℝ) ^ 2 - (√((0 : ℝ) ^ 2 + 0 ^ 2) + (Aperture.scalar 16).maxHeight) ^ 2) = 6 := by
      rw [show (10 : ℝ) ^ 2 - (√((0 : ℝ) ^ 2 + 0 ^ 2) + (Aperture.scalar 16).maxHeight) ^ 2 = 6 ^ 2 by norm_num [Aperture.maxHeight]]
      exact Real.sqrt_sq (by norm_num)
    unfold sphFront
    simp only
    rw [e]; norm_num
  rw [hfront] at hleaves
  have hdepth : ((sphericalMade 10 1 (.scalar 16) .mirror (0, 0)).map turn).depth ≤ 2 + 1 := by simp [Made.map_depth, sphericalMade, Made.depth]
  have b : Bench argsort 2 s [T.root, 0] 3 [fun _ => [col]] 1 := by
    refine room_bench_of hsz hk0 hm0 c hdepth ?_ ?_ ?_ ?_
    · rw [hleaves]
      simp [Sized, aperturePrim]
    · exact ⟨rfl, rfl, rfl, by simp [hcol, hray, Spec.axisRay, norm4, vector]⟩
    · exact one_pos
    · rw [hleaves]
      simp
  have hinv := reaches_inv argsort empty_inv b.history.reaches
  have hkp : (s.heap.obj 0).kind = .prim (.sphere 1000) := (c.old 0 hsz).1.trans hk0
  have hTp : (s.heap.obj 0).objT = 1 := by
    rw [(hinv.synced 0 (b.exist 0 (by simp))).2.1, (c.old 0 hsz).2.1, hw0, inv_one]
  obtain ⟨k, t', htr, -, -, -⟩ := C26_terminates (Tracer.new [fun _ => [col]] ([T.root, 0].map (s.component argsort 3)) 1 5) (by simp [Tracer.new]) (by simp [Tracer.new])
    (by simp [Tracer.new, hcol])
  have h64 : √(64 : ℝ) = 8 := by rw [show (64 : ℝ) = 8 ^ 2 by norm_num, Real.sqrt_sq (by norm_num)]
  have hgood : GoodRay ray := axisRay_good (.inr rfl) _ _ _
  have hclear : clearOfAxis ray := axisRay_clear _ _ _ _
  have hits := fun v => hb.chord hst hgood hclear (depth := 3) le_rfl (c1 := 7) (c2 := 10) (by norm_num)
    (by
      intro t h1 h2
      rw [hray, axisRay_at]
      simp [inSpherical, inAperture, sag, point]
      norm_num [h64]
      constructor <;> linarith)
    (by
      intro t h
      rw [hray, axisRay_at]
      simp [offSpherical, offAperture, sag, point]
      norm_num [h64]
      rcases h with h | h
      · right; linarith
      · left; linarith) v
  have hhit : ((7 : ℝ) : EReal) ∈ (intersectObj argsort 3 s.heap T.root ray).1 := (hits 7).2 (.inl rfl)
  refine ⟨s, T.root, j, hrun, [T.root, 0], _, k, t', b, by simp, htr, ?_⟩
  rcases C89_starts b hst.1 htr (i := 0) (c := col) rfl with ⟨r, hr, g0, -, hray0, -, -⟩ | hmiss
  swap
  · exact absurd ⟨by exact_mod_cast (by norm_num : (0 : ℝ) < 7), EReal.coe_lt_top _⟩ (hmiss (s.component argsort 3 T.root) (by simp) _ hhit)
  have ho : ∀ i : Fin 3, r.start i = ray.o i.castSucc := fun i => by
    rw [show ray = rowRay r from hray0.symm]; fin_cases i <;> rfl
  have hd : ∀ i : Fin 3, r.tilt i = ray.d i.castSucc := fun i => by
    rw [show ray = rowRay r from hray0.symm]; fin_cases i <;> rfl
  have o0 : r.start 0 = 9 := ho 0
  have o1 : r.start 1 = 6 := ho 1
  have o2 : r.start 2 = 0 := ho 2
  obtain ⟨d, d0, hn, hat⟩ := row_arrives (b.ok hst.1 5) htr hr
  rw [hray0] at hn hat
  have hat : ray.at d = r.finish := hat
  have hids3 := hids 3 le_rfl
  -- a hit of the component that the tracer takes is at the distance 7 and not on the opening
  have hlabel : ∀ e ∈ surfaceIds 3 s.heap T.root, r.surface = (e.1 : ℤ) → e.1 = j ∧ e.2 = y ∧ d = 7 := by
    intro e he hs
    have hrep := nearest_reports hst.1 b.history.reaches b.exist b.distinct hn (a := T.root) (by simp) (id := e.1) (y := e.2) he hs
    have hd7 : d = 7 := by
      have hle := hn.2.1 (s.component argsort 3 T.root) (by simp [Tracer.new]) ((7 : ℝ) : EReal) hhit (by exact_mod_cast (by norm_num : (0 : ℝ) < 7))
      have hle : d ≤ 7 := EReal.coe_le_coe_iff.1 hle
      obtain ⟨m, hm, -⟩ := hrep
      rcases (hits d).1 (List.mem_of_getElem? hm) with h | h
      · exact h
      · linarith
    obtain ⟨x', hx', l, hll, e', hm', hlf, hni, -⟩ := c.reports hst.1
      ⟨base_all (n := 1) (m := some .absorber) (by rw [hfront]; norm_num) hgood hclear, ⟨trivial, turn_move_affine _ _ _⟩, sphere_sees hgood _ _ _⟩ hdepth hrep
    have hoid : e.1 = (s.heap.obj x').oid := by exact_mod_cast hs.symm.trans e'
    rw [hleaves] at hll
    simp only [List.mem_cons, List.not_mem_nil, or_false] at hll
    rw [hids3] at he hm'
    simp only [List.mem_cons, List.not_mem_nil, or_false] at he hm'
    rcases hll with rfl | rfl
    · exfalso
      apply hni
      rw [hd7, hray, axisRay_at, turn_interior]
      simp [aperturePrim, Spec.Interior, point]
      norm_num
    · have hx'm : s.material x' = .mirror := hlf.2.2.2 _ rfl
      rcases hm' with hm' | hm'
      · rw [(Prod.mk.inj hm').2, hmx] at hx'm
        cases hx'm
      · rcases he with he | he
        · exfalso
          apply hij
          rw [he] at hoid
          exact hoid.trans (Prod.mk.inj hm').1
        · rw [he]; exact ⟨rfl, rfl, hd7⟩
  obtain ⟨⟨e, he, hs⟩, r', hr', hf⟩ := room_step b hst.1 htr hkp hTp hr (by
      intro e he hs
      rw [(hlabel e he hs).2.1, hmy]
      simp) (by
      intro i
      have h : i = 0 ∨ i = 1 ∨ i = 2 := by fin_cases i <;> simp
      rcases h with rfl | rfl | rfl
      · rw [o0]; norm_num [abs_le]
      · rw [o1]; norm_num [abs_le]
      · rw [o2]; norm_num) ⟨7, by norm_num, by norm_num, hray0 ▸ hhit⟩ (by rw [g0]; norm_num)
  obtain ⟨hj, -, hd7⟩ := hlabel e he hs
  refine ⟨r, hr, r', hr', hf, by rw [hs, hj], ?_, ?_, ?_⟩
  · funext i
    rw [hd i]
    fin_cases i <;> simp [hray, Spec.axisRay, vector]
  · rw [hd7, hray, axisRay_at] at hat
    have e1 : (6 : ℝ) = r.stop 1 := congrFun hat 1
    have e2 : (0 : ℝ) = r.stop 2 := congrFun hat 2
    rw [← e1, ← e2]; norm_num
  · unfold mirrorFocus
    rw [show (10 : ℝ) ^ 2 - 36 = 64 by norm_num, h64]
    norm_num

end PyRayT
