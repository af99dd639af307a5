import Verif.Props.Paraxial
import Verif.Props.Dispersion

/-!
# C117: the colours of a lens

Glasses have a higher index for shorter waves (C111), so a lens is stronger for blue light than for red light.
-/

namespace PyRayT

open Matrix Classical Spec Lens

variable {argsort : List EReal → List ℕ} {fuel : ℕ}

theorem lensmakers_some {R1 R2 n t f : ℝ} (h : lensmakersEquation R1 R2 n t = some f) :
    R1 ≠ 0 ∧ R2 ≠ 0 ∧ n ≠ 0 ∧ (n - 1) * (1 / R1 - 1 / R2 + (n - 1) * t / (n * R1 * R2)) ≠ 0 ∧
    f = 1 / ((n - 1) * (1 / R1 - 1 / R2 + (n - 1) * t / (n * R1 * R2))) := by
  unfold lensmakersEquation at h
  simp only at h
  split_ifs at h with hc
  push Not at hc
  exact ⟨hc.1, hc.2.1, hc.2.2.1, hc.2.2.2, (Option.some.inj h).symm⟩

/-- the power of a lens -/
theorem power_eq {R1 R2 n t : ℝ} (h1 : R1 ≠ 0) (h2 : R2 ≠ 0) (hn : n ≠ 0) :
    (n - 1) * (1 / R1 - 1 / R2 + (n - 1) * t / (n * R1 * R2)) = (n - 1) * (n * (R2 - R1 + t) - t) / (n * R1 * R2) := by
  field_simp
  ring

/-- **C117 (focal lengths).** By `lensmakers_equation` a biconvex lens that is no thicker than the sum of its radii has a positive focal length, which is
shorter for the higher index; the focal length of a biconcave lens is negative, and nearer to zero for the higher index. -/
theorem C117_focal {R1 R2 t n n' : ℝ} (ht : 0 ≤ t) (hn : 1 < n) (hnn : n < n') :
    (0 < R1 → R2 < 0 → t ≤ R1 - R2 → ∃ f f', lensmakersEquation R1 R2 n t = some f ∧ lensmakersEquation R1 R2 n' t = some f' ∧ 0 < f' ∧ f' < f) ∧
    (R1 < 0 → 0 < R2 → ∃ f f', lensmakersEquation R1 R2 n t = some f ∧ lensmakersEquation R1 R2 n' t = some f' ∧ f' < 0 ∧ f < f') := by
  have some_of : ∀ {n : ℝ}, 1 < n → R1 ≠ 0 → R2 ≠ 0 → (n - 1) * (n * (R2 - R1 + t) - t) / (n * R1 * R2) ≠ 0 →
      lensmakersEquation R1 R2 n t = some (1 / ((n - 1) * (n * (R2 - R1 + t) - t) / (n * R1 * R2))) := by
    intro n hn h1 h2 hp
    have hn0 : n ≠ 0 := by linarith
    unfold lensmakersEquation
    simp only [power_eq h1 h2 hn0]
    rw [if_neg (by simp only [h1, h2, hn0, hp, or_self, not_false_eq_true])]
  constructor
  · intro h1 h2 htr
    have q : 0 < -R2 := by linarith
    have key : ∀ {n : ℝ}, 1 < n → 0 < (n - 1) * (n * (R2 - R1 + t) - t) / (n * R1 * R2) := by
      intro n hn
      have e : (n - 1) * (n * (R2 - R1 + t) - t) / (n * R1 * R2) = (n - 1) * (n * (R1 - R2 - t) + t) / (n * R1 * (-R2)) := by
        have : n ≠ 0 := by linarith
        field_simp; ring
      rw [e]
      apply div_pos
      · apply mul_pos (by linarith)
        rcases ht.eq_or_lt with h | h
        · rw [← h]; nlinarith
        · nlinarith
      · positivity
    have lt : (n - 1) * (n * (R2 - R1 + t) - t) / (n * R1 * R2) < (n' - 1) * (n' * (R2 - R1 + t) - t) / (n' * R1 * R2) := by
      have e : (n' - 1) * (n' * (R2 - R1 + t) - t) / (n' * R1 * R2) - (n - 1) * (n * (R2 - R1 + t) - t) / (n * R1 * R2) =
          (n' - n) * (n * n' * (R1 - R2 - t) + t) / (n * n' * R1 * (-R2)) := by
        have : n ≠ 0 := by linarith
        have : n' ≠ 0 := by linarith
        field_simp; ring
      have : 0 < (n' - n) * (n * n' * (R1 - R2 - t) + t) / (n * n' * R1 * (-R2)) := by
        have hn' : 0 < n' := by linarith
        have hn0 : 0 < n := by linarith
        apply div_pos
        · apply mul_pos (by linarith)
          have : 0 ≤ R1 - R2 - t := by linarith
          rcases ht.eq_or_lt with h | h
          · rw [← h]
            have : 0 < R1 - R2 := by linarith
            simpa using by positivity
          · positivity
        · positivity
      linarith
    have p := key hn
    have p' := key (hn.trans hnn)
    exact ⟨_, _, some_of hn h1.ne' h2.ne p.ne', some_of (hn.trans hnn) h1.ne' h2.ne p'.ne', by positivity, one_div_lt_one_div_of_lt p lt⟩
  · intro h1 h2
    have q : 0 < -R1 := by linarith
    have key : ∀ {n : ℝ}, 1 < n → (n - 1) * (n * (R2 - R1 + t) - t) / (n * R1 * R2) < 0 := by
      intro n hn
      have e : (n - 1) * (n * (R2 - R1 + t) - t) / (n * R1 * R2) = -((n - 1) * (n * (R2 - R1) + (n - 1) * t) / (n * (-R1) * R2)) := by
        have : n ≠ 0 := by linarith
        field_simp; ring
      rw [e, neg_lt_zero]
      have : 0 < n - 1 := by linarith
      have : 0 < R2 - R1 := by linarith
      positivity
    have lt : (n' - 1) * (n' * (R2 - R1 + t) - t) / (n' * R1 * R2) < (n - 1) * (n * (R2 - R1 + t) - t) / (n * R1 * R2) := by
      have e : (n - 1) * (n * (R2 - R1 + t) - t) / (n * R1 * R2) - (n' - 1) * (n' * (R2 - R1 + t) - t) / (n' * R1 * R2) =
          (n' - n) * (n * n' * (R2 - R1) + (n * n' - 1) * t) / (n * n' * (-R1) * R2) := by
        have : n ≠ 0 := by linarith
        have : n' ≠ 0 := by linarith
        field_simp; ring
      have : 0 < (n' - n) * (n * n' * (R2 - R1) + (n * n' - 1) * t) / (n * n' * (-R1) * R2) := by
        have hn' : 0 < n' := by linarith
        have hn0 : 0 < n := by linarith
        have : 0 < n * n' - 1 := by nlinarith
        have : 0 < R2 - R1 := by linarith
        have : 0 < n' - n := by linarith
        positivity
      linarith
    have p := key hn
    have p' := key (hn.trans hnn)
    exact ⟨_, _, some_of hn h1.ne h2.ne' p.ne, some_of (hn.trans hnn) h1.ne h2.ne' p'.ne, by rwa [one_div, inv_lt_zero],
      one_div_lt_one_div_of_neg_of_lt p lt⟩

-- radii 10 and 10, thickness 1, indices 1.5 and 1.6
example : (0 : ℝ) ≤ 1 ∧ (1 : ℝ) < 1.5 ∧ (1.5 : ℝ) < 1.6 ∧ (0 : ℝ) < 10 ∧ (-10 : ℝ) < 0 ∧ (1 : ℝ) ≤ 10 - -10 := by norm_num

/-- where light parallel to the axis of a biconvex lens is focussed, behind the lens -/
theorem back_focus {R1 R2 n t f : ℝ} (hf : lensmakersEquation R1 R2 n t = some f) :
    f * (1 - (n - 1) * t / (n * R1)) = -R2 * (n * (R1 - t) + t) / ((n - 1) * (n * (R1 - R2 - t) + t)) := by
  obtain ⟨h1, h2, hn, hp, rfl⟩ := lensmakers_some hf
  rw [power_eq h1 h2 hn] at hp ⊢
  have hq : (n - 1) * (n * (R1 - R2 - t) + t) ≠ 0 := by
    intro h
    apply hp
    rw [show (n - 1) * (n * (R2 - R1 + t) - t) = -((n - 1) * (n * (R1 - R2 - t) + t)) by ring, h]; simp
  rw [show (n - 1) * (n * (R2 - R1 + t) - t) = -((n - 1) * (n * (R1 - R2 - t) + t)) by ring]
  set w := (n - 1) * (n * (R1 - R2 - t) + t)
  field_simp
  ring

/-- it is nearer for the higher index, if it is not inside the lens -/
theorem back_focus_lt {R1 R2 t n n' : ℝ} (ht : 0 < t) (h2 : R2 < 0) (htr : t < R1 - R2) (hn : 1 < n) (hnn : n < n') (hout : (n' - 1) * t < n' * R1) :
    0 < -R2 * (n' * (R1 - t) + t) / ((n' - 1) * (n' * (R1 - R2 - t) + t)) ∧
    -R2 * (n' * (R1 - t) + t) / ((n' - 1) * (n' * (R1 - R2 - t) + t)) < -R2 * (n * (R1 - t) + t) / ((n - 1) * (n * (R1 - R2 - t) + t)) := by
  set B := R1 - R2 - t with hB
  have B0 : 0 < B := by linarith
  have q : 0 < -R2 := by linarith
  have hn0 : 0 < n := by linarith
  have hn0' : 0 < n' := by linarith
  have n1 : 0 < n - 1 := by linarith
  have n1' : 0 < n' - 1 := by linarith
  have a' : 0 < n' * (R1 - t) + t := by linarith
  have a : 0 < n * (R1 - t) + t := by
    rcases le_or_gt 0 (R1 - t) with h | h
    · nlinarith
    · nlinarith
  have b : 0 < n * B + t := by positivity
  have b' : 0 < n' * B + t := by positivity
  refine ⟨by positivity, ?_⟩
  rw [div_lt_div_iff₀ (by positivity) (by positivity)]
  have r : (n' * (R1 - t) + t) * (n * B + t) < (n * (R1 - t) + t) * (n' * B + t) := by
    have : (n * (R1 - t) + t) * (n' * B + t) - (n' * (R1 - t) + t) * (n * B + t) = t * (n' - n) * (B - (R1 - t)) := by ring
    have : 0 < t * (n' - n) * (B - (R1 - t)) := by
      have : 0 < B - (R1 - t) := by rw [hB]; linarith
      have : 0 < n' - n := by linarith
      positivity
    linarith
  have r2 : (n - 1) * ((n' * (R1 - t) + t) * (n * B + t)) < (n' - 1) * ((n * (R1 - t) + t) * (n' * B + t)) := by
    have p : 0 < (n' * (R1 - t) + t) * (n * B + t) := by positivity
    nlinarith
  nlinarith

/-- A ray that starts in front of a lens, parallel to its axis and at most √δ from it, and goes through both surfaces: its three segments. -/
structure AxialPath (frame : List Row) (ids : List (ℕ × ℕ)) (R1 t lam δ : ℝ) (r0 r1 r2 : Row) : Prop where
  m0 : r0 ∈ frame
  m1 : r1 ∈ frame
  m2 : r2 ∈ frame
  f1 : Follows r0 r1
  f2 : Follows r1 r2
  colour : r0.wavelength = lam
  air : r0.index = 1
  parallel : r0.tilt = ![1, 0, 0]
  off : 0 < r0.start 1 ^ 2 + r0.start 2 ^ 2
  near : r0.start 1 ^ 2 + r0.start 2 ^ 2 < δ
  front : r0.start 0 < -t / 2 + sag (some R1) (r0.start 1 ^ 2 + r0.start 2 ^ 2)
  enters : ∃ e ∈ ids, r0.surface = (e.1 : ℤ)
  leaves : ∃ e ∈ ids, r1.surface = (e.1 : ℤ)

/-- the line of a segment meets the x axis at X -/
def CrossesAxis (p q : Row) (X : ℝ) : Prop :=
  ∃ τ : ℝ, p.stop 0 + τ * q.tilt 0 = X ∧ p.stop 1 + τ * q.tilt 1 = 0 ∧ p.stop 2 + τ * q.tilt 2 = 0

/-- **C117 (traces).** In traced results of a biconvex `thick_lens` whose foci are not inside the glass, axial light with the higher index (blue, say) crosses the
axis nearer to the lens than axial light with the lower index (red), if both start near enough to the axis; both behind the lens. The two rays may
come from different traces and from different sides of the axis. -/
theorem C117_axis (hst : IsStableArgsort argsort) {s0 : Scene} (h0 : Ready argsort fuel s0) (hfu : 3 ≤ fuel) {R1 R2 t blue red : ℝ} {ap : Aperture}
    (fits : LensFits (some R1) (some R2) t ap) (ht : 1e-6 < t) (h1 : 0 < R1) (h2 : R2 < 0) (hf1 : t < 2 * R1) (hf2 : t < -2 * R2) (g : IndexModel)
    (hn : 1 < g.indexAt red) (hnn : g.indexAt red < g.indexAt blue) (hout : (g.indexAt blue - 1) * t < g.indexAt blue * R1) :
    ∃ s a, thickLens argsort fuel (some R1) (some R2) t ap (.glass g) s0 = (.ok a, s) ∧
      ∃ δ > 0, ∀ (objs : List ℕ) (depth : ℕ), a ∈ objs → 3 ≤ depth →
      ∀ (sources sources' : List (ℕ → List Col)) (num num' : ℕ) (limit limit' : ℤ) (k k' : ℕ) (t1 t2 : Tracer),
        Bench argsort fuel s objs depth sources num → Tracer.Traces k (Tracer.new sources (objs.map (s.component argsort depth)) num limit) t1 →
        Bench argsort fuel s objs depth sources' num' → Tracer.Traces k' (Tracer.new sources' (objs.map (s.component argsort depth)) num' limit') t2 →
        ∀ b0 b1 b2 r0 r1 r2, AxialPath t1.frame (surfaceIds depth s.heap a) R1 t blue δ b0 b1 b2 →
          AxialPath t2.frame (surfaceIds depth s.heap a) R1 t red δ r0 r1 r2 →
          ∃ X X', CrossesAxis b1 b2 X ∧ CrossesAxis r1 r2 X' ∧ t / 2 < X ∧ X < X' := by
  have ht0 : 0 < t := by linarith
  obtain ⟨f, f', hf, hf', -, -⟩ := (C117_focal (R1 := R1) (R2 := R2) ht0.le hn hnn).1 h1 h2 (by linarith)
  have hout' : (g.indexAt red - 1) * t < g.indexAt red * R1 := by
    rcases le_or_gt 0 (R1 - t) with h | h <;> nlinarith
  obtain ⟨x0, xlt⟩ := back_focus_lt ht0 h2 (by linarith) hn hnn hout
  rw [← back_focus hf'] at x0 xlt
  rw [← back_focus hf] at xlt
  set X := f' * (1 - (g.indexAt blue - 1) * t / (g.indexAt blue * R1)) with hX
  set X' := f * (1 - (g.indexAt red - 1) * t / (g.indexAt red * R1)) with hX'
  obtain ⟨s, a, hrun, hb⟩ := C88_paraxial hst h0 hfu fits ht (fun _ => hf1) (fun _ => hf2) g (by linarith) hf' (by linarith)
  obtain ⟨s', a', hrun', hr⟩ := C88_paraxial hst h0 hfu fits ht (fun _ => hf1) (fun _ => hf2) g (by linarith) hf (by linarith)
  rw [hrun] at hrun'
  obtain ⟨ea, rfl⟩ := Prod.mk.inj hrun'
  cases ea
  refine ⟨s, a, hrun, ?_⟩
  obtain ⟨δ, hδ, hb⟩ := hb (min X ((X' - X) / 2)) (lt_min x0 (by linarith))
  obtain ⟨δ', hδ', hr⟩ := hr ((X' - X) / 2) (by linarith)
  refine ⟨min δ δ', lt_min hδ hδ', ?_⟩
  intro objs depth hmem hd sources sources' num num' limit limit' k k' t1 t2 B1 T1 B2 T2 b0 b1 b2 r0 r1 r2 P Q
  obtain ⟨-, -, -, Y, τ, hY, c0, c1, c2⟩ := hb objs depth sources num limit k t1 B1 hmem hd T1 b0 P.m0 b1 P.m1 b2 P.m2 P.f1 P.f2 P.colour P.air P.parallel P.off
    (P.near.trans_le (min_le_left _ _)) P.front P.enters P.leaves
  obtain ⟨-, -, -, Y', τ', hY', c0', c1', c2'⟩ := hr objs depth sources' num' limit' k' t2 B2 hmem hd T2 r0 Q.m0 r1 Q.m1 r2 Q.m2 Q.f1 Q.f2 Q.colour Q.air Q.parallel Q.off
    (Q.near.trans_le (min_le_right _ _)) Q.front Q.enters Q.leaves
  rw [lt_min_iff] at hY
  have a1 := abs_lt.1 hY.1
  have a2 := abs_lt.1 hY.2
  have a3 := abs_lt.1 hY'
  exact ⟨Y, Y', ⟨τ, c0, c1, c2⟩, ⟨τ', c0', c1', c2'⟩, by linarith, by linarith⟩

/-- **C117 (catalogue).** The same for lenses of BK7, SF5 and SF2 and any two wavelengths from 0.3 to 2.5 micrometres, if the lens is no thicker than the
radius of its first surface. -/
theorem C117_catalogue (hst : IsStableArgsort argsort) {s0 : Scene} (h0 : Ready argsort fuel s0) (hfu : 3 ≤ fuel) {R1 R2 t blue red : ℝ} {ap : Aperture}
    (fits : LensFits (some R1) (some R2) t ap) (ht : 1e-6 < t) (h2 : R2 < 0) (hf1 : t ≤ R1) (hf2 : t < -2 * R2) {g : IndexModel}
    (hg : g ∈ [glassBK7, glassSF5, glassSF2]) (hb : 0.3 ≤ blue) (hbr : blue < red) (hr : red ≤ 2.5) :
    ∃ s a, thickLens argsort fuel (some R1) (some R2) t ap (.glass g) s0 = (.ok a, s) ∧
      ∃ δ > 0, ∀ (objs : List ℕ) (depth : ℕ), a ∈ objs → 3 ≤ depth →
      ∀ (sources sources' : List (ℕ → List Col)) (num num' : ℕ) (limit limit' : ℤ) (k k' : ℕ) (t1 t2 : Tracer),
        Bench argsort fuel s objs depth sources num → Tracer.Traces k (Tracer.new sources (objs.map (s.component argsort depth)) num limit) t1 →
        Bench argsort fuel s objs depth sources' num' → Tracer.Traces k' (Tracer.new sources' (objs.map (s.component argsort depth)) num' limit') t2 →
        ∀ b0 b1 b2 r0 r1 r2, AxialPath t1.frame (surfaceIds depth s.heap a) R1 t blue δ b0 b1 b2 →
          AxialPath t2.frame (surfaceIds depth s.heap a) R1 t red δ r0 r1 r2 →
          ∃ X X', CrossesAxis b1 b2 X ∧ CrossesAxis r1 r2 X' ∧ t / 2 < X ∧ X < X' := by
  obtain ⟨c1, c2⟩ := C111_catalogue hg hb hbr hr
  have ht0 : 0 < t := by linarith
  exact C117_axis hst h0 hfu fits ht (by linarith) h2 (by linarith) hf2 g c1 c2 (by nlinarith)

/-- A case for the hypotheses of `C117_axis` and `C117_catalogue`, for every δ: a lens of the catalogue glass BK7 and light of 0.45 and 0.65 micrometres. -/
example (hst : IsStableArgsort argsort) : ∃ s0, Ready argsort 3 s0 ∧ ∃ s a,
    thickLens argsort 3 (some 10) (some (-10)) 1 (.scalar 2) (.glass glassBK7) s0 = (.ok a, s) ∧ LensFits (some 10) (some (-10)) 1 (.scalar 2) ∧
    1 < glassBK7.indexAt 0.65 ∧ glassBK7.indexAt 0.65 < glassBK7.indexAt 0.45 ∧ (glassBK7.indexAt 0.45 - 1) * 1 < glassBK7.indexAt 0.45 * 10 ∧
    ∀ δ > 0, ∀ lam ∈ [(0.45 : ℝ), 0.65], ∃ (objs : List ℕ) (sources : List (ℕ → List Col)) (k : ℕ) (t' : Tracer),
      Bench argsort 3 s objs 3 sources 1 ∧ a ∈ objs ∧ Tracer.Traces k (Tracer.new sources (objs.map (s.component argsort 3)) 1 5) t' ∧
      ∃ r0 r1 r2, AxialPath t'.frame (surfaceIds 3 s.heap a) 10 1 lam δ r0 r1 r2 := by
  obtain ⟨s0, h0, s, a, hrun, fits, h⟩ := lens_room hst glassBK7
  obtain ⟨c1, c2⟩ := C111_catalogue (g := glassBK7) (by simp) (w := 0.45) (w' := 0.65) (by norm_num) (by norm_num) (by norm_num)
  refine ⟨s0, h0, s, a, hrun, fits, c1, c2, by linarith, fun δ hδ lam hl => ?_⟩
  obtain ⟨objs, sources, k, t', b, ha, htr, r0, m0, r1, m1, r2, m2, f1, f2, hw, hi, ht, hp, hn, hx, he, hl'⟩ := (h lam (by
    simp only [List.mem_cons, List.not_mem_nil, or_false] at hl
    rcases hl with rfl | rfl
    · linarith
    · exact c1)).2 δ hδ
  exact ⟨objs, sources, k, t', b, ha, htr, r0, r1, r2, ⟨m0, m1, m2, f1, f2, hw, hi, ht, hp, hn, hx, he, hl'⟩⟩

end PyRayT
