import Verif.Props.Components
import Verif.Props.Primitives

/-!
# Properties C48, C51, C52: the parabolic mirror, baffle and aperture stop, the plane mirror
-/

namespace PyRayT

open Classical Matrix

variable {argsort : List EReal → List ℕ} {fuel : ℕ}

/-! ### C48 -/

/-- The points of the parabolic mirror with focus at the origin: inside the displaced opening, between the back at x = -(f + t) and the
paraboloid with vertex x = -f. -/
def Spec.inParabolic (f t : ℝ) (ap : Aperture) (off : ℝ × ℝ) (x y z : ℝ) : Prop :=
  Spec.inAperture ap (y - off.1) (z - off.2) ∧ -(f + t) < x ∧ x < (y ^ 2 + z ^ 2) / (4 * f) - f

/-- The points outside of it. -/
def Spec.offParabolic (f t : ℝ) (ap : Aperture) (off : ℝ × ℝ) (x y z : ℝ) : Prop :=
  Spec.offAperture ap (y - off.1) (z - off.2) ∨ x < -(f + t) ∨ (y ^ 2 + z ^ 2) / (4 * f) - f < x

/-- the tolerances do not misjudge the direction -/
def Spec.clearOfParabola (f : ℝ) (ray : Ray) : Prop :=
  1e-8 < ray.d 1 * ray.d 1 + ray.d 2 * ray.d 2 ∨ (ray.d 1 * ray.d 1 + ray.d 2 * ray.d 2 = 0 ∧ 1e-8 < |4 * f * ray.d 0|)

theorem furthest_strict {ap : Aperture} (hap : Spec.goodAperture ap) {off : ℝ × ℝ} {y z : ℝ} (h : Spec.inAperture ap (y - off.1) (z - off.2)) :
    y ^ 2 + z ^ 2 < furthestPoint ap off ^ 2 := by
  cases ap with
  | scalar d =>
    have hd : 0 < d := hap
    have h1 := off_bound (inAperture_not_off h)
    simp only [Spec.rim] at h1
    rw [Real.sqrt_sq (by positivity)] at h1
    refine lt_of_le_of_lt h1 ?_
    simp only [furthestPoint]
    exact pow_lt_pow_left₀ (by linarith) (by positivity) (by norm_num)
  | pair a b =>
    obtain ⟨h1, h2⟩ := h
    have ha : 0 < a := hap.1
    have hb : 0 < b := hap.2
    simp only [furthestPoint]
    rw [Real.sq_sqrt (by positivity)]
    have e1 : |y| < |off.1| + a / 2 := by
      calc |y| = |off.1 + (y - off.1)| := by ring_nf
        _ ≤ |off.1| + |y - off.1| := abs_add_le _ _
        _ < _ := by linarith
    have e2 : |z| < |off.2| + b / 2 := by
      calc |z| = |off.2 + (z - off.2)| := by ring_nf
        _ ≤ |off.2| + |z - off.2| := abs_add_le _ _
        _ < _ := by linarith
    rw [← sq_abs y, ← sq_abs z]
    exact add_lt_add (pow_lt_pow_left₀ e1 (abs_nonneg _) (by norm_num)) (pow_lt_pow_left₀ e2 (abs_nonneg _) (by norm_num))

theorem rim_le_furthest {ap : Aperture} (hap : Spec.goodAperture ap) (off : ℝ × ℝ) : Spec.rim ap ≤ furthestPoint ap off ^ 2 := by
  cases ap with
  | scalar d =>
    have hd : 0 < d := hap
    simp only [Spec.rim, furthestPoint]
    exact pow_le_pow_left₀ (by positivity) (by linarith [Real.sqrt_nonneg (off.1 ^ 2 + off.2 ^ 2)]) 2
  | pair a b =>
    have ha : 0 < a := hap.1
    have hb : 0 < b := hap.2
    simp only [Spec.rim, furthestPoint]
    rw [Real.sq_sqrt (by positivity)]
    exact add_le_add (pow_le_pow_left₀ (by positivity) (by linarith [abs_nonneg off.1]) 2)
      (pow_le_pow_left₀ (by positivity) (by linarith [abs_nonneg off.2]) 2)

theorem mirror_dir (normalAt : Vec4 → Vec4) (c : Col) : (Material.mirror.trace normalAt c).ray.o = c.ray.o ∧
    ∀ i, (Material.mirror.trace normalAt c).ray.d i = c.ray.d i - 2 * normalAt c.ray.o i * dot4 c.ray.d (normalAt c.ray.o) :=
  ⟨rfl, fun _ => rfl⟩

/-- What `parabolic_mirror` builds for positive focal lengths; used for C48. -/
theorem parabolic_all (ha : IsArgsort argsort) {s0 : Scene} (h0 : Ready argsort fuel s0) (hfu : 2 ≤ fuel) {f t : ℝ} (hf : 1e-8 < 4 * f) (ht : 0 ≤ t)
    {ap : Aperture} (hap : Spec.goodAperture ap) (off : ℝ × ℝ) (m : Material) :
    ∃ s a i x j y, parabolicMirror argsort fuel f t ap m off s0 = (.ok a, s) ∧
      Spec.Built argsort fuel s0 s a (fun ray => Spec.clearOfAxis ray ∧ Spec.clearOfParabola f ray) (Spec.inParabolic f t ap off) (Spec.offParabolic f t ap off) ∧
      (∀ depth, 3 ≤ depth → surfaceIds depth s.heap a = [(i, x), (j, y)]) ∧ i ≠ j ∧ s.material x = .absorber ∧ s.material y = m ∧
      (IsStableArgsort argsort → ∀ ray, GoodRay ray → Spec.clearOfAxis ray → Spec.clearOfParabola f ray → ∀ depth, 3 ≤ depth → ∀ v : ℝ,
        Spec.Reports argsort s a depth ray v j →
        ray.at v 0 = (ray.at v 1 ^ 2 + ray.at v 2 ^ 2) / (4 * f) - f ∧ ¬ Spec.offAperture ap (ray.at v 1 - off.1) (ray.at v 2 - off.2)) ∧
      (IsStableArgsort argsort → ∀ x0 p q, Spec.inAperture ap (p - off.1) (q - off.2) → 0 < t + (p ^ 2 + q ^ 2) / (4 * f) → ∀ depth, 3 ≤ depth →
        (∀ v : ℝ, (v : EReal) ∈ (intersectObj argsort depth s.heap a (Spec.axisRay (-1) x0 p q)).1 ↔
          v = x0 - ((p ^ 2 + q ^ 2) / (4 * f) - f) ∨ v = x0 + (f + t)) ∧
        Spec.Reports argsort s a depth (Spec.axisRay (-1) x0 p q) ((x0 - ((p ^ 2 + q ^ 2) / (4 * f) - f) : ℝ) : EReal) j ∧
        ¬ Spec.Reports argsort s a depth (Spec.axisRay (-1) x0 p q) ((x0 - ((p ^ 2 + q ^ 2) / (4 * f) - f) : ℝ) : EReal) i) ∧
      ∀ c : Col, c.ray.o 3 = 1 → c.ray.o 0 = (c.ray.o 1 ^ 2 + c.ray.o 2 ^ 2) / (4 * f) - f →
        ¬ Spec.offAperture ap (c.ray.o 1 - off.1) (c.ray.o 2 - off.2) → ∀ σ, (σ = 1 ∨ σ = -1) → c.ray.d = vector σ 0 0 →
        (¬ isclose (c.ray.o 0 - -f) (1.5 * parFront f ap off) → (Material.mirror.trace (surfaceNormal s.heap y) c).ray.o = c.ray.o ∧
        (Material.mirror.trace (surfaceNormal s.heap y) c).ray.at (-σ * (4 * f ^ 2 + c.ray.o 1 ^ 2 + c.ray.o 2 ^ 2) / (4 * f)) = point 0 0 0) ∧
        (isclose (c.ray.o 0 - -f) (1.5 * parFront f ap off) →
          (Material.mirror.trace (surfaceNormal s.heap y) c).ray = ⟨c.ray.o, vector (-σ) 0 0⟩) := by
  have hf0 : 0 < f := by linarith
  obtain ⟨s, T, e, c⟩ := parabolicMirror_makes h0 hfu hf0 t hap m off
  have hF := parFront_pos hf0 hap off
  have hall : ∀ ray, GoodRay ray → Spec.clearOfAxis ray ∧ Spec.clearOfParabola f ray →
      ((parabolicMade f t ap m off).map turn).solid.All fun p w => (p.Valid ∧ Affine w) ∧ Spec.Sees p (ray.map w⁻¹) := by
    intro ray hray hs
    exact ⟨base_all (by linarith) hray hs.1 (n := 1) (m := some .absorber), ⟨⟨hf0, by positivity⟩, turn_move_affine _ _ _⟩,
      paraboloid_sees hf0 (by positivity) hray hs.2 _ _ _⟩
  have hd : ((parabolicMade f t ap m off).map turn).depth ≤ 3 := by simp [Made.map_depth, parabolicMade, Made.depth]
  have hb : Spec.Built argsort fuel s0 s T.root (fun ray => Spec.clearOfAxis ray ∧ Spec.clearOfParabola f ray) (Spec.inParabolic f t ap off)
      (Spec.offParabolic f t ap off) :=
    c.built ha hd ⟨by simp, trivial, trivial⟩ hall (fun x y z => parabolic_points hf0 ht hap off m x y z)
  have hne : (aperturePrim ap (t + parFront f ap off)) ≠ .paraboloid f (1.5 * parFront f ap off) := by cases ap <;> simp [aperturePrim]
  obtain ⟨i, x, j, y, hids, hij, hx, hy, hi, hj, l1, l2⟩ := c.two hd (by rw [map_leaves]; simp [parabolicMade, Made.leaves]; exact ⟨rfl, rfl⟩) hne
  have h2 := fun ray hray hs depth (h3 : 3 ≤ depth) v => c.reports_two ha (hall ray hray hs) (hd.trans h3)
    (by rw [map_leaves]; simp [parabolicMade, Made.leaves]) hne hx hy l1 l2 (by rw [hids depth h3, hi, hj]) (v := v)
  have hlow : ∀ {p q : ℝ}, ¬ Spec.offAperture ap (p - off.1) (q - off.2) → (p ^ 2 + q ^ 2) / (4 * f) ≤ parFront f ap off := by
    intro p q h
    unfold parFront
    rw [div_eq_mul_one_div, mul_comm]
    exact mul_le_mul_of_nonneg_left (furthest_bound hap h) (by positivity)
  refine ⟨s, T.root, i, x, j, y, e, hb, hids, hij, l1.2.2.2 _ rfl, l2.2.2.2 _ rfl, ?_, ?_, ?_⟩
  · intro hst ray hray hs1 hs2 depth h3 v hrep
    have hon := (h2 ray hray ⟨hs1, hs2⟩ depth h3 v).2.1 (by rw [← hj]; exact hrep)
    obtain ⟨k, hk, -⟩ := hrep
    have hbd := (hb.bound hst ray hray ⟨hs1, hs2⟩ depth h3 v (List.mem_of_getElem? hk)).2
    rw [point_eta (hray.at3 v)] at hon
    simp only at hon
    rw [(turn_paraboloid _ _ _).1, (turn_paraboloid _ _ _).2] at hon
    simp only [Spec.offParabolic, not_or, not_lt] at hbd
    refine ⟨?_, hbd.1⟩
    have hl := hlow hbd.1
    simp only [not_and_or, not_or, not_lt] at hon
    have k1 := hbd.2.2
    refine le_antisymm k1 ?_
    rcases hon.1 with h | h
    · rw [sub_le_iff_le_add, div_le_iff₀ (by positivity)]
      linarith
    · exfalso; linarith
  · intro hst x0 p q hin hpos depth h3
    have hpt : ∀ t, (Spec.axisRay (-1) x0 p q).at t 0 = x0 + t * (-1) ∧ (Spec.axisRay (-1) x0 p q).at t 1 = p ∧ (Spec.axisRay (-1) x0 p q).at t 2 = q := by
      intro t; rw [axisRay_at]; simp [point]
    have hseen : Spec.clearOfAxis (Spec.axisRay (-1) x0 p q) ∧ Spec.clearOfParabola f (Spec.axisRay (-1) x0 p q) := by
      refine ⟨axisRay_clear _ _ _ _, .inr ⟨by simp [Spec.axisRay, vector], ?_⟩⟩
      simp only [Spec.axisRay, vector]
      simp
      rw [abs_of_pos hf0]; exact hf
    have hmem := hb.chord hst (axisRay_good (.inr rfl) x0 p q) hseen h3 (c1 := x0 - ((p ^ 2 + q ^ 2) / (4 * f) - f)) (c2 := x0 + (f + t)) (by linarith)
      (fun v h1 h2 => by
        obtain ⟨e0, e1, e2⟩ := hpt v
        rw [e0, e1, e2]
        exact ⟨hin, by linarith, by linarith⟩)
      (fun v h => by
        obtain ⟨e0, e1, e2⟩ := hpt v
        rw [e0, e1, e2]
        rcases h with h | h
        · exact .inr (.inr (by linarith))
        · exact .inr (.inl (by linarith)))
    refine ⟨hmem, ?_⟩
    obtain ⟨r1, -, r3⟩ := h2 _ (axisRay_good (.inr rfl) x0 p q) hseen depth h3 (x0 - ((p ^ 2 + q ^ 2) / (4 * f) - f))
    have hnot : ¬ Spec.Reports argsort s T.root depth (Spec.axisRay (-1) x0 p q) ((x0 - ((p ^ 2 + q ^ 2) / (4 * f) - f) : ℝ) : EReal)
        ((s.heap.obj x).oid : ℤ) := by
      intro hr
      have hon := (r1 hr).1
      rw [axisRay_at] at hon
      simp only at hon
      rw [(turn_aperture hap (by linarith) _ _ _ _ _ _).1] at hon
      apply hon
      have hstr : (p ^ 2 + q ^ 2) / (4 * f) < parFront f ap off := by
        unfold parFront
        rw [div_eq_mul_one_div, mul_comm]
        exact mul_lt_mul_of_pos_left (furthest_strict hap hin) (by positivity)
      exact ⟨hin, by linarith, by linarith⟩
    rcases r3 ((hmem _).2 (.inl rfl)) with hr | hr
    · exact absurd hr hnot
    · rw [hj, hi]; exact ⟨hr, hnot⟩
  · intro c' h3 hon hoff σ hσ hdir
    obtain ⟨eo, ed⟩ := mirror_dir (surfaceNormal s.heap y) c'
    refine ⟨fun hcap => ⟨eo, ?_⟩, fun hcap => ?_⟩
    rotate_left
    · have hT : (s.heap.obj y).objT = (turn * moveMatrix 0 0 (-f))⁻¹ := by
        rw [(c.ready.inv.synced y hy).2.1, l2.2.1]
      have hn : Prim.normal (.paraboloid f (1.5 * parFront f ap off)) (point (c'.ray.o 1 - 0) (c'.ray.o 2 - 0) (c'.ray.o 0 - -f)) =
          vector 0 0 1 := by
        simp only [Prim.normal, sub_zero]
        rw [if_pos (by simpa [point] using hcap)]
        funext k
        fin_cases k <;> simp [normalize, norm4, vector]
      have hnorm : surfaceNormal s.heap y c'.ray.o = vector (-1) 0 0 := by
        unfold surfaceNormal
        rw [l2.1]
        simp only
        rw [point_eta h3, turn_worldNormal hT _ _ _ _ hn (by simp [norm4, vector]), l2.2.2.1]
        funext k
        fin_cases k <;> simp [vector]
      rw [hnorm, hdir] at ed
      refine Ray.ext eo ?_
      funext k
      rw [ed]
      fin_cases k <;> simp [vector, dot4]
      ring
    set p := c'.ray.o 1 with hp
    set q := c'.ray.o 2 with hq
    have hT : (s.heap.obj y).objT = (turn * moveMatrix 0 0 (-f))⁻¹ := by
      rw [(c.ready.inv.synced y hy).2.1, l2.2.1]
    have hN : 0 < √(p ^ 2 + q ^ 2 + 4 * f ^ 2) := Real.sqrt_pos.2 (by positivity)
    have hN2 : √(p ^ 2 + q ^ 2 + 4 * f ^ 2) ^ 2 = p ^ 2 + q ^ 2 + 4 * f ^ 2 := Real.sq_sqrt (by positivity)
    set N := √(p ^ 2 + q ^ 2 + 4 * f ^ 2) with hNdef
    have hn : Prim.normal (.paraboloid f (1.5 * parFront f ap off)) (point (p - 0) (q - 0) (c'.ray.o 0 - -f)) =
        vector (p / N) (q / N) (-2 * f / N) := by
      simp only [Prim.normal, sub_zero]
      rw [if_neg (by simpa [point] using hcap)]
      have hnn : norm4 ![p, q, -2 * f, 0] = N := by
        rw [norm4, hNdef]; congr 1; simp; ring
      have e3 : (![point p q (c'.ray.o 0 - -f) 0, point p q (c'.ray.o 0 - -f) 1, -2 * f, 0] : Vec4) = ![p, q, -2 * f, 0] := by
        simp [point]
      rw [e3]
      funext k
      simp only [normalize, hnn]
      fin_cases k <;> simp [vector]
    have hunit : norm4 (vector (p / N) (q / N) (-2 * f / N)) = 1 := by
      rw [norm4, Real.sqrt_eq_one]
      simp [vector]
      field_simp
      linarith
    have hnorm : surfaceNormal s.heap y c'.ray.o = vector (2 * f / N) (-p / N) (-q / N) := by
      unfold surfaceNormal
      rw [l2.1]
      simp only
      rw [point_eta h3, turn_worldNormal hT _ _ _ _ hn hunit, l2.2.2.1]
      funext k
      fin_cases k <;> simp [vector] <;> ring
    rw [hnorm, hdir] at ed
    have hdot : dot4 (vector σ 0 0) (vector (2 * f / N) (-p / N) (-q / N)) = σ * (2 * f / N) := by
      simp [dot4, vector]
    rw [hdot] at ed
    have hσ2 : σ ^ 2 = 1 := by rcases hσ with rfl | rfl <;> norm_num
    have hne' : (N : ℝ) ≠ 0 := hN.ne'
    have hL : -σ * (4 * f ^ 2 + p ^ 2 + q ^ 2) / (4 * f) * σ = -N ^ 2 / (4 * f) := by
      rw [hN2]; field_simp; rw [hσ2]; ring
    set L := -σ * (4 * f ^ 2 + p ^ 2 + q ^ 2) / (4 * f) with hLdef
    have c0 : c'.ray.o 0 + L * (σ - 2 * (2 * f / N) * (σ * (2 * f / N))) = 0 := by
      have : L * (σ - 2 * (2 * f / N) * (σ * (2 * f / N))) = (L * σ) * (1 - 8 * f ^ 2 / N ^ 2) := by field_simp; ring
      rw [this, hL, hon]
      field_simp
      rw [hN2]; ring
    have c1 : ∀ w : ℝ, w + L * (0 - 2 * (-w / N) * (σ * (2 * f / N))) = 0 := by
      intro w
      have : L * (0 - 2 * (-w / N) * (σ * (2 * f / N))) = (L * σ) * (4 * f * w / N ^ 2) := by field_simp; ring
      rw [this, hL]
      field_simp
      ring
    funext k
    simp only [Ray.at, eo, ed]
    fin_cases k
    · simpa [vector, point] using c0
    · simpa [vector, point] using c1 p
    · simpa [vector, point] using c1 q
    · simp [vector, point, h3]

/-- **C48 (parabolic_mirror).** For f > 0 and t ≥ 0 (and an opening that is not negligible against f) `parabolic_mirror(f, t)` builds the mirror
described. It has two surfaces: the opening absorbs, the paraboloid has the given material. Every hit labelled with the id of the
paraboloid is on the surface x = (y² + z²)/(4f) - f and not outside the opening; and when the material is the mirror and the ray
is parallel to the axis, it leaves the hit point q along the line through the origin (the focus), towards the origin if it came
from the front (σ = -1). Missing from C48: the sizes (below 1e-7 of f) at which the tolerance of the cap test of the paraboloid matters
(`C48_tiny_false`); f ≤ 0 raises (`C48_not_positive`). -/
theorem C48_parabolic_mirror_partial (ha : IsArgsort argsort) {s0 : Scene} (h0 : Ready argsort fuel s0) (hfu : 2 ≤ fuel) {f t : ℝ} (hf : 1e-8 < 4 * f) (ht : 0 ≤ t)
    {ap : Aperture} (hap : Spec.goodAperture ap) (hbig : 4 * f * 1e-7 < Spec.rim ap) (off : ℝ × ℝ) (m : Material) :
    ∃ s a i x j y, parabolicMirror argsort fuel f t ap m off s0 = (.ok a, s) ∧
      Spec.Built argsort fuel s0 s a (fun ray => Spec.clearOfAxis ray ∧ Spec.clearOfParabola f ray) (Spec.inParabolic f t ap off) (Spec.offParabolic f t ap off) ∧
      (∀ depth, 3 ≤ depth → surfaceIds depth s.heap a = [(i, x), (j, y)]) ∧ i ≠ j ∧ s.material x = .absorber ∧ s.material y = m ∧
      (IsStableArgsort argsort → ∀ ray, GoodRay ray → Spec.clearOfAxis ray → Spec.clearOfParabola f ray → ∀ depth, 3 ≤ depth → ∀ v : ℝ,
        Spec.Reports argsort s a depth ray v j →
        ray.at v 0 = (ray.at v 1 ^ 2 + ray.at v 2 ^ 2) / (4 * f) - f ∧ ¬ Spec.offAperture ap (ray.at v 1 - off.1) (ray.at v 2 - off.2)) ∧
      (IsStableArgsort argsort → ∀ x0 p q, Spec.inAperture ap (p - off.1) (q - off.2) → 0 < t + (p ^ 2 + q ^ 2) / (4 * f) → ∀ depth, 3 ≤ depth →
        (∀ v : ℝ, (v : EReal) ∈ (intersectObj argsort depth s.heap a (Spec.axisRay (-1) x0 p q)).1 ↔
          v = x0 - ((p ^ 2 + q ^ 2) / (4 * f) - f) ∨ v = x0 + (f + t)) ∧
        Spec.Reports argsort s a depth (Spec.axisRay (-1) x0 p q) ((x0 - ((p ^ 2 + q ^ 2) / (4 * f) - f) : ℝ) : EReal) j ∧
        ¬ Spec.Reports argsort s a depth (Spec.axisRay (-1) x0 p q) ((x0 - ((p ^ 2 + q ^ 2) / (4 * f) - f) : ℝ) : EReal) i) ∧
      ∀ c : Col, c.ray.o 3 = 1 → c.ray.o 0 = (c.ray.o 1 ^ 2 + c.ray.o 2 ^ 2) / (4 * f) - f →
        ¬ Spec.offAperture ap (c.ray.o 1 - off.1) (c.ray.o 2 - off.2) → ∀ σ, (σ = 1 ∨ σ = -1) → c.ray.d = vector σ 0 0 →
        (Material.mirror.trace (surfaceNormal s.heap y) c).ray.o = c.ray.o ∧
        (Material.mirror.trace (surfaceNormal s.heap y) c).ray.at (-σ * (4 * f ^ 2 + c.ray.o 1 ^ 2 + c.ray.o 2 ^ 2) / (4 * f)) = point 0 0 0 := by
  have hf0 : 0 < f := by linarith
  obtain ⟨s, a, i, x, j, y, h1, h2, h3, h4, h5, h6, h7, h8, h9⟩ := parabolic_all ha h0 hfu hf ht hap off m
  refine ⟨s, a, i, x, j, y, h1, h2, h3, h4, h5, h6, h7, h8, fun c' e1 hon hoff σ hσ hdir => (h9 c' e1 hon hoff σ hσ hdir).1 ?_⟩
  have h1 : (c'.ray.o 1 ^ 2 + c'.ray.o 2 ^ 2) / (4 * f) ≤ parFront f ap off := by
    unfold parFront
    rw [div_eq_mul_one_div, mul_comm]
    exact mul_le_mul_of_nonneg_left (furthest_bound hap hoff) (by positivity)
  have h2 : 1e-7 < parFront f ap off := by
    unfold parFront
    have := rim_le_furthest hap off
    rw [one_div_mul_eq_div, lt_div_iff₀ (by positivity)]
    linarith
  unfold isclose
  rw [hon, not_le, abs_of_pos (show 0 < 1.5 * parFront f ap off by positivity), abs_of_neg (by linarith)]
  linarith

/-- **C48 is false for openings that are tiny against the focal length.** A mirror of focal length 1000 and opening 0.001: a ray along the
axis that hits it beside the axis is reflected straight back, because every point of the mirror is taken for the flat
cap of the paraboloid; it does not meet the focus. -/
theorem C48_tiny_false (hst : IsStableArgsort argsort) : ∃ s a j y, parabolicMirror argsort 2 1000 1 (.scalar 0.001) .mirror (0, 0) ⟨Heap.empty, fun _ => .absorber⟩ = (.ok a, s) ∧
    s.material y = .mirror ∧
    Spec.Reports argsort s a 3 (Spec.axisRay (-1) 5 0.0001 0) ((5 - (0.0001 ^ 2 / 4000 - 1000) : ℝ) : EReal) j ∧
    ∀ c : Col, c.ray = ⟨point (0.0001 ^ 2 / 4000 - 1000) 0.0001 0, vector (-1) 0 0⟩ →
      (Material.mirror.trace (surfaceNormal s.heap y) c).ray.d = vector 1 0 0 ∧
      ∀ v, (Material.mirror.trace (surfaceNormal s.heap y) c).ray.at v ≠ point 0 0 0 := by
  obtain ⟨s, a, i, x, j, y, e, -, -, -, -, hm, -, h1, h2⟩ := parabolic_all hst.1
    (ready_empty (argsort := argsort) (fuel := 2) fun _ => .absorber) le_rfl (f := 1000) (t := 1) (by norm_num) (by norm_num)
    (ap := .scalar 0.001) (by norm_num [Spec.goodAperture]) (0, 0) .mirror
  refine ⟨s, a, j, y, e, hm, ?_, ?_⟩
  · have := (h1 hst 5 0.0001 0 (by simp [Spec.inAperture]; norm_num) (by norm_num) 3 le_rfl).2
    norm_num at this ⊢
    exact this.1
  · intro c hc
    have := (h2 c (by simp [hc, point]) (by simp [hc, point]; norm_num) (by simp [hc, point, Spec.offAperture]; norm_num) (-1) (.inr rfl)
      (by rw [hc])).2 (by
        rw [hc]
        simp only [parFront, furthestPoint, isclose, point]
        norm_num [abs_le])
    rw [this]
    refine ⟨by simp, fun v h => ?_⟩
    have := congrFun h 1
    rw [hc] at this
    simp [Ray.at, point, vector] at this
    norm_num at this

/-- **C48, other focal lengths.** A focal length that is not positive gives no mirror: `ZeroDivisionError` for 0, `ValueError` for negative
ones. -/
theorem C48_not_positive {s0 : Scene} (h0 : Ready argsort fuel s0) (hfu : 1 ≤ fuel) {f : ℝ} (hf : f ≤ 0) (t : ℝ) {ap : Aperture}
    (hap : Spec.goodAperture ap) (m : Material) (off : ℝ × ℝ) :
    (parabolicMirror argsort fuel f t ap m off s0).1 = .error (if f = 0 then .zeroDivision else .value) := by
  have hbad : ∀ (x : Build ℕ) (s : Scene) (s' : Scene) (g : ℕ → Build ℕ) (e : CompErr), x s = (.error e, s') → ((x >>= g) s).1 = .error e := by
    intro x s s' g e h
    simp only [bind, h]
  unfold parabolicMirror orient
  by_cases h : f = 0
  · rw [if_pos h]
    refine hbad _ _ s0 _ _ ?_
    rw [if_pos h]
    rfl
  · obtain ⟨s1, e1, c1⟩ := (Ctx.start h0).aperture hap (t + parFront f ap off)
    obtain ⟨s2, e2, c2⟩ := c1.move (by simp [Made.depth]; omega) off.1 off.2 0
    simp only [Made.map, mul_one] at c2
    obtain ⟨s3, e3, c3⟩ := c2.setMaterial .absorber
    obtain ⟨s4, e4, c4⟩ := c3.move (by simp [Made.depth]; omega) 0 0 ((t + parFront f ap off) / 2 - t)
    simp only [CTree.root_leaf] at e2 e4
    rw [if_neg h]
    refine hbad _ _ { s4 with heap := { s4.heap with counter := s4.heap.counter + 1 } } _ _ ?_
    rw [if_neg h]
    change (createAperture ap (t + parFront f ap off) >>= _) s0 = _
    rw [Build.bind_ok e1, Build.bind_ok e2, Build.bind_ok e3]
    erw [Build.bind_ok e4]
    exact Build.bind_error (if_pos (.inl hf))

/-- non-vacuity of C48: a mirror of focal length 10; a ray towards -x at (y, z) = (1/2, 0) -/
example (hst : IsStableArgsort argsort) : ∃ s a j y, parabolicMirror argsort 2 10 1 (.scalar 2) .mirror (0, 0) ⟨Heap.empty, fun _ => .absorber⟩ = (.ok a, s) ∧
    s.material y = .mirror ∧
    Spec.Reports argsort s a 3 (Spec.axisRay (-1) 5 (1 / 2) 0) ((5 - ((1 / 4) / 40 - 10) : ℝ) : EReal) j ∧
    ∀ c : Col, c.ray = ⟨point ((1 / 4) / 40 - 10) (1 / 2) 0, vector (-1) 0 0⟩ →
      (Material.mirror.trace (surfaceNormal s.heap y) c).ray.at ((400 + 1 / 4) / 40) = point 0 0 0 := by
  obtain ⟨s, a, i, x, j, y, e, -, -, -, -, hm, -, h1, h2⟩ := C48_parabolic_mirror_partial hst.1
    (ready_empty (argsort := argsort) (fuel := 2) fun _ => .absorber) le_rfl (f := 10) (t := 1) (by norm_num) (by norm_num)
    (ap := .scalar 2) (by simp [Spec.goodAperture]) (by norm_num [Spec.rim]) (0, 0) .mirror
  refine ⟨s, a, j, y, e, hm, ?_, ?_⟩
  · have := (h1 hst 5 (1 / 2) 0 (by simp [Spec.inAperture]; norm_num) (by norm_num) 3 le_rfl).2
    norm_num at this ⊢
    exact this.1
  · intro c hc
    have := (h2 c (by simp [hc, point]) (by simp [hc, point]; norm_num) (by simp [hc, point, Spec.offAperture]; norm_num) (-1) (.inr rfl)
      (by rw [hc])).2
    simp [hc, point] at this ⊢
    norm_num at this ⊢
    exact this

/-! ### objects consisting of one surface -/

theorem Ctx.single {s0 s : Scene} {T : CTree} {p : Prim} {w : Mat4} {n : ℝ} {m : Option Material}
    (h : Ctx argsort fuel s0 s [(T, .leaf p w n m)]) : IsLeaf s T.root (p, w, n, m) ∧
    ∀ depth, 1 ≤ depth → surfaceIds depth s.heap T.root = [((s.heap.obj T.root).oid, T.root)] ∧
      ∀ ray, intersectObj argsort depth s.heap T.root ray = leafIntersect w⁻¹ (s.heap.obj T.root).oid p ray := by
  obtain ⟨hd, -, haddr, -⟩ := h.parts _ List.mem_cons_self
  cases T with
  | node a op l r => exact hd.elim
  | leaf a =>
    simp only [Desc] at hd
    have hlt := (haddr _ (CTree.root_mem _)).2
    simp only [CTree.root_leaf] at *
    refine ⟨hd, fun depth h1 => ?_⟩
    obtain ⟨k, rfl⟩ : ∃ k, depth = k + 1 := ⟨depth - 1, by omega⟩
    refine ⟨by simp only [surfaceIds, hd.1], fun ray => ?_⟩
    rw [intersectObj, hd.1]
    simp only
    rw [(h.ready.inv.synced a hlt).2.1, hd.2.1]

/-! ### C52 -/

/-- (y, z) is not within the tolerance of the edges of a rectangular opening -/
def Spec.clearOfEdges : Aperture → ℝ → ℝ → Prop
  | .scalar _, _, _ => True
  | .pair a b, y, z => ¬ isclose y (a / 2) ∧ ¬ isclose y (-(a / 2)) ∧ ¬ isclose z (b / 2) ∧ ¬ isclose z (-(b / 2))

/-- The mirror is a disc, or it has a thickness. -/
def Spec.visible : Aperture → ℝ → Prop
  | .scalar _, _ => True
  | .pair _ _, t => 0 < t

theorem aperture_axis_hits {ap : Aperture} (hap : Spec.goodAperture ap) {t : ℝ} (ht : 0 ≤ t) (hv : Spec.visible ap t) {σ : ℝ} (hσ : σ = 1 ∨ σ = -1)
    {u v : ℝ} (hoff : ¬ Spec.offAperture ap u v) (x0 : ℝ) :
    (aperturePrim ap t).intersect ⟨point u v x0, vector 0 0 σ⟩ = (((-t / 2 - x0 * σ : ℝ) : EReal), ((t / 2 - x0 * σ : ℝ) : EReal)) := by
  have hσ2 : σ * σ = 1 := by rcases hσ with rfl | rfl <;> norm_num
  have hat : ∀ τ, (⟨point u v x0, vector 0 0 σ⟩ : Ray).at τ = point u v (x0 + τ * σ) := by
    intro τ; funext i; fin_cases i <;> simp [Ray.at, point, vector]
  have hcl : ∀ τ, Spec.Closed (aperturePrim ap t) ((⟨point u v x0, vector 0 0 σ⟩ : Ray).at τ) ↔ -t / 2 - x0 * σ ≤ τ ∧ τ ≤ t / 2 - x0 * σ := by
    intro τ
    rw [hat, aperture_closed hap ht]
    have : |x0 + τ * σ| ≤ t / 2 ↔ -t / 2 - x0 * σ ≤ τ ∧ τ ≤ t / 2 - x0 * σ := by
      rw [abs_le]
      rcases hσ with rfl | rfl
      · constructor <;> rintro ⟨h1, h2⟩ <;> constructor <;> linarith
      · constructor <;> rintro ⟨h1, h2⟩ <;> constructor <;> linarith
    rw [← this]
    exact ⟨fun h => h.2, fun h => ⟨hoff, h⟩⟩
  have hc : Clear σ := .inr (by rcases hσ with rfl | rfl <;> norm_num)
  cases ap with
  | scalar d =>
    have k := (C09_cylinder_partial (d / 2) (-t / 2) (t / 2) (by linarith) ⟨point u v x0, vector 0 0 σ⟩ (.inl (by simp [vector]))
      (by simpa [vector] using hc)).1
    refine interval_eq (by linarith) fun τ => ?_
    rw [← hcl]
    have := k τ
    simp only [aperturePrim, Prim.intersect, Spec.Closed, min_eq_left (show -t / 2 ≤ t / 2 by linarith), max_eq_right (show -t / 2 ≤ t / 2 by linarith)]
    exact this
  | pair a b =>
    have ht' : 0 < t := hv
    have k := C08_cube ![-a / 2, -b / 2, -t / 2] ![a / 2, b / 2, t / 2] ⟨point u v x0, vector 0 0 σ⟩ (.inl (by simp [vector]))
      (.inl (by simp [vector])) (by simpa [vector] using hc)
    have hin : ∀ τ, (∀ i : Fin 3, min ((![-a / 2, -b / 2, -t / 2] : Fin 3 → ℝ) i) ((![a / 2, b / 2, t / 2] : Fin 3 → ℝ) i) ≤
        (⟨point u v x0, vector 0 0 σ⟩ : Ray).at τ i.castSucc ∧ (⟨point u v x0, vector 0 0 σ⟩ : Ray).at τ i.castSucc ≤
        max ((![-a / 2, -b / 2, -t / 2] : Fin 3 → ℝ) i) ((![a / 2, b / 2, t / 2] : Fin 3 → ℝ) i)) ↔ -t / 2 - x0 * σ ≤ τ ∧ τ ≤ t / 2 - x0 * σ := by
      intro τ
      rw [← hcl]
      simp only [aperturePrim, Spec.Closed]
    rcases k with ⟨-, k⟩ | ⟨-, k⟩
    · refine interval_eq (by linarith) fun τ => ?_
      rw [← hin]
      exact k τ
    · exfalso
      have := k _ _ ((hin (-t / 2 - x0 * σ)).2 ⟨le_rfl, by linarith⟩) ((hin (t / 2 - x0 * σ)).2 ⟨by linarith, le_rfl⟩)
      linarith

/-- **C52 (plane_mirror).** For every thickness t ≥ 0 `plane_mirror(t)` builds the plate |x| < t/2 inside the displaced opening, a single surface with the
given material. A round mirror, and a rectangular one of positive thickness, is hit by every ray parallel to the axis through its opening, at x = -t/2 and
x = t/2; and there (for a rectangle: not within the tolerance of its edges) a mirror reverses the x component of every direction.
Missing from C52: the rectangular mirror of thickness 0, see `C52_flat_rectangle_false`. -/
theorem C52_plane_mirror_partial (ha : IsArgsort argsort) {s0 : Scene} (h0 : Ready argsort fuel s0) (hf : 1 ≤ fuel) {t : ℝ} (ht : 0 ≤ t)
    {ap : Aperture} (hap : Spec.goodAperture ap) (off : ℝ × ℝ) (m : Material) :
    ∃ s a i, planeMirror argsort fuel t ap m off s0 = (.ok a, s) ∧
      Spec.Built argsort fuel s0 s a Spec.clearOfAxis (fun x y z => Spec.inAperture ap (y - off.1) (z - off.2) ∧ |x| < t / 2)
        (fun x y z => Spec.offAperture ap (y - off.1) (z - off.2) ∨ t / 2 < |x|) ∧
      (∀ depth, 1 ≤ depth → surfaceIds depth s.heap a = [(i, a)]) ∧ s.material a = m ∧
      (Spec.visible ap t → ∀ σ, (σ = 1 ∨ σ = -1) → ∀ x0 y z, ¬ Spec.offAperture ap (y - off.1) (z - off.2) → ∀ depth, 1 ≤ depth →
        intersectObj argsort depth s.heap a (Spec.axisRay σ x0 y z) =
          ([((-t / 2 - x0 * σ : ℝ) : EReal), ((t / 2 - x0 * σ : ℝ) : EReal)], [(i : ℤ), (i : ℤ)])) ∧
      ∀ c : Col, c.ray.o 3 = 1 → |c.ray.o 0| = t / 2 → Spec.clearOfEdges ap (c.ray.o 1 - off.1) (c.ray.o 2 - off.2) → c.ray.d 3 = 0 →
        (Material.mirror.trace (surfaceNormal s.heap a) c).ray = ⟨c.ray.o, vector (-c.ray.d 0) (c.ray.d 1) (c.ray.d 2)⟩ := by
  obtain ⟨s, T, e, c⟩ := planeMirror_makes h0 hf t hap m off
  obtain ⟨hl, hsing⟩ := c.single
  have hroot : T.root < s.heap.size := by
    obtain ⟨-, -, haddr, -⟩ := c.parts _ List.mem_cons_self
    exact (haddr _ T.root_mem).2
  refine ⟨s, T.root, (s.heap.obj T.root).oid, e, c.built ha (by simp [Made.map_depth, planeMirrorMade, Made.depth]) trivial
    (fun ray hray hs => base_all ht hray hs (n := 1) (m := some m)) (fun x y z => ?_), fun depth h1 => (hsing depth h1).1, hl.2.2.2 _ rfl, ?_, ?_⟩
  · obtain ⟨p1, p2⟩ := base_points hap ht off.1 off.2 0 1 (some m) x y z
    have k1 : |x| < t / 2 ↔ 0 - t / 2 < x ∧ x < 0 + t / 2 := by
      rw [abs_lt]; constructor <;> rintro ⟨h1, h2⟩ <;> constructor <;> linarith
    have k2 : t / 2 < |x| ↔ x < 0 - t / 2 ∨ 0 + t / 2 < x := by
      rw [lt_abs]; constructor <;> rintro (h | h)
      · right; linarith
      · left; linarith
      · right; linarith
      · left; linarith
    rw [k1, k2]
    exact ⟨p1, p2⟩
  · intro hv σ hσ x0 y z hoff depth h1
    rw [(hsing depth h1).2, leafIntersect]
    have hmap : (Spec.axisRay σ x0 y z).map (turn * moveMatrix off.1 off.2 0)⁻¹ = ⟨point (y - off.1) (z - off.2) x0, vector 0 0 σ⟩ := by
      simp only [Ray.map, Spec.axisRay]
      rw [turn_move_point, turn_move_dir _ _ _ (by simp [vector])]
      simp [vector]
    rw [hmap, aperture_axis_hits hap ht hv hσ hoff x0]
    have hle : ((-t / 2 - x0 * σ : ℝ) : EReal) ≤ ((t / 2 - x0 * σ : ℝ) : EReal) := EReal.coe_le_coe_iff.2 (by linarith)
    simp only [sort2, min_eq_left hle, max_eq_right hle]
  · intro c' h3 hon hedge hd3
    have hT : (s.heap.obj T.root).objT = (turn * moveMatrix off.1 off.2 0)⁻¹ := by
      rw [(c.ready.inv.synced _ hroot).2.1, hl.2.1]
    have hself : ∀ x : ℝ, isclose x x := fun x => by
      unfold isclose; rw [sub_self, abs_zero]; positivity
    have hside : c'.ray.o 0 = t / 2 ∨ c'.ray.o 0 = -t / 2 := by
      rcases abs_choice (c'.ray.o 0) with h | h <;> rw [h] at hon
      · exact .inl hon
      · right; linarith
    have hn1 : ∀ w : ℝ, w = 1 ∨ w = -1 → norm4 (vector 0 0 w) = 1 := by
      intro w hw
      rcases hw with rfl | rfl <;> simp [norm4, vector]
    have hnv : ∀ w : ℝ, w = 1 ∨ w = -1 → normalize ![0, 0, w, 0] = vector 0 0 w := by
      intro w hw
      have : norm4 ![0, 0, w, 0] = 1 := by rcases hw with rfl | rfl <;> simp [norm4]
      funext k
      simp only [normalize, this]
      fin_cases k <;> simp [vector]
    have hn : ∃ w, (w = 1 ∨ w = -1) ∧ (aperturePrim ap t).normal (point (c'.ray.o 1 - off.1) (c'.ray.o 2 - off.2) (c'.ray.o 0 - 0)) = vector 0 0 w := by
      rw [sub_zero]
      cases ap with
      | scalar d =>
        simp only [aperturePrim, Prim.normal]
        have e2 : point (c'.ray.o 1 - off.1) (c'.ray.o 2 - off.2) (c'.ray.o 0) 2 = c'.ray.o 0 := by simp [point]
        rw [e2]
        by_cases h : isclose (c'.ray.o 0) (t / 2)
        · exact ⟨1, .inl rfl, by rw [if_pos h, hnv 1 (.inl rfl)]⟩
        · refine ⟨-1, .inr rfl, ?_⟩
          have : c'.ray.o 0 = -t / 2 := hside.resolve_left fun hh => h (hh ▸ hself _)
          rw [if_neg h, if_pos (this ▸ hself _), hnv (-1) (.inr rfl)]
      | pair a b =>
        obtain ⟨e1, e2, e3, e4⟩ := hedge
        have ha' : 0 < a := hap.1
        have hb' : 0 < b := hap.2
        simp only [aperturePrim, Prim.normal]
        have hcs : ∀ w : ℝ, 0 ≤ w → (min (-w / 2) (w / 2) = -(w / 2) ∧ max (-w / 2) (w / 2) = w / 2) := by
          intro w hw
          rw [min_eq_left (by linarith), max_eq_right (by linarith)]; constructor <;> ring
        have z1 : cubeNormalComp (cubeSpans ![-a / 2, -b / 2, -t / 2] ![a / 2, b / 2, t / 2] 0) (c'.ray.o 1 - off.1) = 0 := by
          simp only [cubeNormalComp, cubeSpans]
          simp only [Matrix.cons_val_zero, hcs a ha'.le]
          rw [if_neg e1, if_neg e2]
        have z2 : cubeNormalComp (cubeSpans ![-a / 2, -b / 2, -t / 2] ![a / 2, b / 2, t / 2] 1) (c'.ray.o 2 - off.2) = 0 := by
          simp only [cubeNormalComp, cubeSpans]
          simp only [Matrix.cons_val_one, Matrix.cons_val_zero, hcs b hb'.le]
          rw [if_neg e3, if_neg e4]
        have z3 : ∃ w, (w = 1 ∨ w = -1) ∧ cubeNormalComp (cubeSpans ![-a / 2, -b / 2, -t / 2] ![a / 2, b / 2, t / 2] 2) (c'.ray.o 0) = w := by
          simp only [cubeNormalComp, cubeSpans]
          simp only [Matrix.cons_val, hcs t ht]
          by_cases h : isclose (c'.ray.o 0) (t / 2)
          · exact ⟨1, .inl rfl, by rw [if_pos h]⟩
          · refine ⟨-1, .inr rfl, ?_⟩
            have : c'.ray.o 0 = -(t / 2) := by rw [hside.resolve_left fun hh => h (hh ▸ hself _)]; ring
            rw [if_neg h, if_pos (this ▸ hself _)]
        obtain ⟨w, hw, z3⟩ := z3
        refine ⟨w, hw, ?_⟩
        have q0 : point (c'.ray.o 1 - off.1) (c'.ray.o 2 - off.2) (c'.ray.o 0) 0 = c'.ray.o 1 - off.1 := by simp [point]
        have q1 : point (c'.ray.o 1 - off.1) (c'.ray.o 2 - off.2) (c'.ray.o 0) 1 = c'.ray.o 2 - off.2 := by simp [point]
        have q2 : point (c'.ray.o 1 - off.1) (c'.ray.o 2 - off.2) (c'.ray.o 0) 2 = c'.ray.o 0 := by simp [point]
        rw [q0, q1, q2, z1, z2, z3, hnv w hw]
    obtain ⟨w, hw, hn⟩ := hn
    have hnorm : surfaceNormal s.heap T.root c'.ray.o = vector w 0 0 := by
      unfold surfaceNormal
      rw [hl.1]
      simp only
      rw [point_eta h3, turn_worldNormal hT _ _ _ _ hn (hn1 w hw), hl.2.2.1]
      simp
    have hw2 : w * w = 1 := by rcases hw with rfl | rfl <;> norm_num
    obtain ⟨eo, ed⟩ := mirror_dir (surfaceNormal s.heap T.root) c'
    rw [hnorm] at ed
    have hdot : dot4 c'.ray.d (vector w 0 0) = c'.ray.d 0 * w := by simp [dot4, vector]
    have : (Material.mirror.trace (surfaceNormal s.heap T.root) c').ray.d = vector (-c'.ray.d 0) (c'.ray.d 1) (c'.ray.d 2) := by
      funext k
      rw [ed, hdot]
      fin_cases k <;> simp [vector, hd3]
      linear_combination (-2 * c'.ray.d 0) * hw2
    cases hr : (Material.mirror.trace (surfaceNormal s.heap T.root) c').ray with
    | mk o d =>
      rw [hr] at eo this
      simp only at eo this
      rw [eo, this]

/-- **C52 is false for the rectangular mirror of thickness 0.** No ray along the axis hits it anywhere. -/
theorem C52_flat_rectangle_false (ha : IsArgsort argsort) {s0 : Scene} (h0 : Ready argsort fuel s0) (hf : 1 ≤ fuel) {a b : ℝ} (ha' : 0 < a) (hb' : 0 < b)
    (m : Material) :
    ∃ s c, planeMirror argsort fuel 0 (.pair a b) m (0, 0) s0 = (.ok c, s) ∧ ∀ σ, (σ = 1 ∨ σ = -1) → ∀ x0 y z, ∀ depth, 1 ≤ depth → ∀ v : ℝ,
      (v : EReal) ∉ (intersectObj argsort depth s.heap c (Spec.axisRay σ x0 y z)).1 := by
  have hap : Spec.goodAperture (.pair a b) := ⟨ha', hb'⟩
  obtain ⟨s, T, e, c⟩ := planeMirror_makes h0 hf 0 hap m (0, 0)
  obtain ⟨hl, hsing⟩ := c.single
  refine ⟨s, T.root, e, fun σ hσ x0 y z depth h1 v => ?_⟩
  have hc : Clear σ := .inr (by rcases hσ with rfl | rfl <;> norm_num)
  rw [(hsing depth h1).2, leafIntersect]
  have hmap : (Spec.axisRay σ x0 y z).map (turn * moveMatrix 0 0 0)⁻¹ = ⟨point y z x0, vector 0 0 σ⟩ := by
    simp only [Ray.map, Spec.axisRay]
    rw [turn_move_point, turn_move_dir _ _ _ (by simp [vector])]
    simp [vector]
  rw [hmap]
  have k := C08_cube ![-a / 2, -b / 2, -0 / 2] ![a / 2, b / 2, 0 / 2] ⟨point y z x0, vector 0 0 σ⟩ (.inl (by simp [vector]))
    (.inl (by simp [vector])) (by simpa [vector] using hc)
  rcases k with ⟨k1, k2⟩ | ⟨k1, -⟩
  · exfalso
    obtain ⟨q, q1, q2⟩ := EReal.lt_iff_exists_real_btwn.1 k1
    obtain ⟨q', q1', q2'⟩ := EReal.lt_iff_exists_real_btwn.1 q2
    have i1 := ((k2 q).1 ⟨q1.le, q2.le⟩) 2
    have i2 := ((k2 q').1 ⟨q1.le.trans q1'.le, q2'.le⟩) 2
    simp [Ray.at, point, vector] at i1 i2
    have : q < q' := EReal.coe_lt_coe_iff.1 q1'
    rcases hσ with rfl | rfl <;> linarith [i1.1, i1.2, i2.1, i2.2]
  · have : sort2 ((aperturePrim (.pair a b) 0).intersect ⟨point y z x0, vector 0 0 σ⟩) = (⊤, ⊤) := by
      simp only [aperturePrim]
      rw [k1]; simp [sort2]
    rw [this]
    simp

/-- non-vacuity of C52: a round mirror of thickness 0 and a square one of thickness 1 -/
example (ha : IsArgsort argsort) : (∃ s c i, planeMirror argsort 1 0 (.scalar 2) .mirror (0, 0) ⟨Heap.empty, fun _ => .absorber⟩ = (.ok c, s) ∧
      intersectObj argsort 1 s.heap c (Spec.axisRay 1 (-3) (1 / 2) 0) = ([((3 : ℝ) : EReal), ((3 : ℝ) : EReal)], [i, i])) ∧
    ∃ s c i, planeMirror argsort 1 1 (.pair 2 2) .mirror (0, 0) ⟨Heap.empty, fun _ => .absorber⟩ = (.ok c, s) ∧
      intersectObj argsort 1 s.heap c (Spec.axisRay 1 (-3) (1 / 2) 0) = ([((5 / 2 : ℝ) : EReal), ((7 / 2 : ℝ) : EReal)], [i, i]) := by
  constructor
  · obtain ⟨s, c, i, e, -, -, -, h, -⟩ := C52_plane_mirror_partial ha (ready_empty (argsort := argsort) (fuel := 1) fun _ => .absorber) le_rfl
      (t := 0) le_rfl (ap := .scalar 2) (by simp [Spec.goodAperture]) (0, 0) .mirror
    refine ⟨s, c, i, e, ?_⟩
    have := h trivial 1 (.inl rfl) (-3) (1 / 2) 0 (by simp [Spec.offAperture]; norm_num) 1 le_rfl
    norm_num at this
    rw [this]
  · obtain ⟨s, c, i, e, -, -, -, h, -⟩ := C52_plane_mirror_partial ha (ready_empty (argsort := argsort) (fuel := 1) fun _ => .absorber) le_rfl
      (t := 1) (by norm_num) (ap := .pair 2 2) (by simp [Spec.goodAperture]) (0, 0) .mirror
    refine ⟨s, c, i, e, ?_⟩
    have := h (by simp [Spec.visible]) 1 (.inl rfl) (-3) (1 / 2) 0 (by simp [Spec.offAperture]; norm_num) 1 le_rfl
    norm_num at this
    rw [this]

end PyRayT
