import Verif.Proofs.Dispersion

/-!
# Property C111: the prism spreads the colours in order

`examples/chromatic_dispersion.py` shines light of several wavelengths along the same line into an `equilateral_prism` and catches it on a screen. The larger the index, the more the
light is turned towards the base, and the lower it lies on the screen; the index of a catalogue glass falls with the wavelength.
-/

namespace PyRayT

open Classical Matrix Spec

variable {argsort : List EReal → List ℕ} {fuel : ℕ}

/-- Three consecutive rows of a result: to the face with id `enter` of a prism of the given side from outside, inside the glass to the face with id `leave`, and on outside. The rows are
outside the tolerance bands of the faces, and their ends outside those of the edges at the base. -/
structure Spec.Through (frame : List Row) (side : ℝ) (g : IndexModel) (enter leave : ℕ) (r r' r'' : Row) : Prop where
  first : r ∈ frame
  second : r' ∈ frame
  third : r'' ∈ frame
  next : Follows r r'
  next' : Follows r' r''
  goesIn : r.surface = (enter : ℤ)
  goesOut : r'.surface = (leave : ℤ)
  good : GoodRay (rowRay r) ∧ clearOfPrism (rowRay r)
  good' : GoodRay (rowRay r') ∧ clearOfPrism (rowRay r')
  edge : 1e-8 + 1e-5 * side < r.stop 2 + √3 / 4 * side
  edge' : 1e-8 + 1e-5 * side < r'.stop 2 + √3 / 4 * side
  dense : 1 < g.indexAt r.wavelength
  air : r.index = 1
  glass : r'.index = g.indexAt r.wavelength
  air' : r''.index = 1

/-- what is known about one ray through the prism -/
theorem through_pass (hst : IsStableArgsort argsort) {s : Scene} {side width : ℝ} {g : IndexModel} {a x y i j q b : ℕ}
    (hids : ∀ depth, 3 ≤ depth → surfaceIds depth s.heap a = [(q, b), (i, x), (j, y)]) (hmx : s.material x = .glass g) (hmy : s.material y = .glass g)
    (hon : ∀ ray, GoodRay ray → clearOfPrism ray → ∀ depth, 3 ≤ depth → ∀ v : ℝ,
      (Reports argsort s a depth ray v i → onSlant side width (-1) (ray.at v 0) (ray.at v 1) (ray.at v 2)) ∧
      (Reports argsort s a depth ray v j → onSlant side width 1 (ray.at v 0) (ray.at v 1) (ray.at v 2)))
    (hnrm : ∀ px py pz : ℝ, 1e-8 + 1e-5 * side < pz + √3 / 4 * side →
      (onSlant side width (-1) px py pz → surfaceNormal s.heap x (point px py pz) = vector (-(√3 / 2)) 0 (1 / 2)) ∧
      (onSlant side width 1 px py pz → surfaceNormal s.heap y (point px py pz) = vector (√3 / 2) 0 (1 / 2)))
    {objs : List ℕ} {depth : ℕ} {sources : List (ℕ → List Col)} {num : ℕ} {limit : ℤ} {k : ℕ} {t' : Tracer} (haa : a ∈ objs) (h3 : 3 ≤ depth)
    (bench : Bench argsort fuel s objs depth sources num) (htr : Tracer.Traces k (Tracer.new sources (objs.map (s.component argsort depth)) num limit) t')
    {σ : ℝ} {enter leave : ℕ} (hσ : σ = 1 ∧ enter = i ∧ leave = j ∨ σ = -1 ∧ enter = j ∧ leave = i) {r r' r'' : Row}
    (h : Through t'.frame side g enter leave r r' r'') :
    (σ * r.tilt 0) ^ 2 + r.tilt 1 ^ 2 + r.tilt 2 ^ 2 = 1 ∧ σ * r.tilt 0 * (-(√3 / 2)) + r.tilt 2 * (1 / 2) ≤ 0 ∧
    (∃ p X, Pass (g.indexAt r.wavelength) (σ * r.tilt 0) (r.tilt 1) (r.tilt 2) (σ * r'.tilt 0) (r'.tilt 1) (r'.tilt 2) (σ * r''.tilt 0) (r''.tilt 1) (r''.tilt 2) p X) ∧
    ∃ L : ℝ, 0 < L ∧ r'.stop 0 = r.stop 0 + L * r'.tilt 0 ∧ r'.stop 2 = r.stop 2 + L * r'.tilt 2 ∧ r'.stop 2 = √3 / 4 * side - √3 * (σ * r'.stop 0) ∧
      ∀ l, r''.start l = r'.stop l + 1e-6 * r''.tilt l := by
  obtain ⟨k2, k0⟩ := sqrt_three
  have hxm : (i, x) ∈ surfaceIds depth s.heap a := by rw [hids depth h3]; simp
  have hym : (j, y) ∈ surfaceIds depth s.heap a := by rw [hids depth h3]; simp
  have ok := bench.ok hst.1 limit
  have hr0 : Reaches argsort fuel Heap.empty s.heap := bench.history.reaches
  have hσ2 : σ * σ = 1 := by rcases hσ with ⟨rfl, -⟩ | ⟨rfl, -⟩ <;> norm_num
  have hn := h.dense
  -- where a row meets a slanted face
  have face : ∀ {ρ : Row}, ρ ∈ t'.frame → GoodRay (rowRay ρ) → Spec.clearOfPrism (rowRay ρ) → 1e-8 + 1e-5 * side < ρ.stop 2 + √3 / 4 * side →
      (ρ.surface = (i : ℤ) → onSlant side width (-1) (ρ.stop 0) (ρ.stop 1) (ρ.stop 2) ∧ surfaceNormal s.heap x ρ.finish = vector (-(√3 / 2)) 0 (1 / 2)) ∧
      (ρ.surface = (j : ℤ) → onSlant side width 1 (ρ.stop 0) (ρ.stop 1) (ρ.stop 2) ∧ surfaceNormal s.heap y ρ.finish = vector (√3 / 2) 0 (1 / 2)) := by
    intro ρ hρ hgood hclear hz
    obtain ⟨d, -, hnear, hat⟩ := row_arrives ok htr hρ
    refine ⟨fun hsf => ?_, fun hsf => ?_⟩
    · have hrep := nearest_reports hst.1 hr0 bench.exist bench.distinct hnear haa hxm hsf
      rw [hsf] at hrep
      have := (hon _ hgood hclear depth h3 d).1 hrep
      rw [hat] at this
      exact ⟨this, (hnrm _ _ _ hz).1 this⟩
    · have hrep := nearest_reports hst.1 hr0 bench.exist bench.distinct hnear haa hym hsf
      rw [hsf] at hrep
      have := (hon _ hgood hclear depth h3 d).2 hrep
      rw [hat] at this
      exact ⟨this, (hnrm _ _ _ hz).2 this⟩
  have hu := (C35_unit_tilts ok htr r h.first).1
  have hw := (C35_unit_tilts ok htr r' h.second).1
  have hv := (C35_unit_tilts ok htr r'' h.third).1
  have hwl := bench.wavelength hst.1 htr h.first h.second h.next
  have both : ∃ x1 x2 : ℕ, s.material x1 = .glass g ∧ s.material x2 = .glass g ∧ (enter, x1) ∈ surfaceIds depth s.heap a ∧ (leave, x2) ∈ surfaceIds depth s.heap a ∧
      surfaceNormal s.heap x1 r.finish = vector (σ * (-(√3 / 2))) 0 (1 / 2) ∧ surfaceNormal s.heap x2 r'.finish = vector (σ * (√3 / 2)) 0 (1 / 2) ∧
      r'.stop 2 = √3 / 4 * side - √3 * (σ * r'.stop 0) := by
    rcases hσ with ⟨rfl, rfl, rfl⟩ | ⟨rfl, rfl, rfl⟩
    · obtain ⟨-, n1⟩ := (face h.first h.good.1 h.good.2 h.edge).1 h.goesIn
      obtain ⟨o2, n2⟩ := (face h.second h.good'.1 h.good'.2 h.edge').2 h.goesOut
      exact ⟨x, y, hmx, hmy, hxm, hym, by rw [n1]; congr 1; ring, by rw [n2]; congr 1; ring, o2.1⟩
    · obtain ⟨-, n1⟩ := (face h.first h.good.1 h.good.2 h.edge).2 h.goesIn
      obtain ⟨o2, n2⟩ := (face h.second h.good'.1 h.good'.2 h.edge').1 h.goesOut
      exact ⟨y, x, hmy, hmx, hym, hxm, by rw [n1]; congr 1; ring, by rw [n2]; congr 1; ring, o2.1⟩
  obtain ⟨x1, x2, hm1, hm2, hx1, hx2, n1, n2, hface⟩ := both
  obtain ⟨-, -, hi1⟩ := bench.optics hst.1 htr h.first h.second h.next haa hx1 h.goesIn
  obtain ⟨-, -, hi2⟩ := bench.optics hst.1 htr h.second h.third h.next' haa hx2 h.goesOut
  rw [hm1, n1, h.air, h.glass] at hi1
  rw [hm2, n2, h.glass, h.air', hwl] at hi2
  simp only [Interacts, one_mul] at hi1 hi2
  have dots : ∀ (ρ : Row) (c : ℝ), dot4 ρ.dir (vector (σ * c) 0 (1 / 2)) = σ * ρ.tilt 0 * c + ρ.tilt 2 * (1 / 2) := by
    intro ρ c
    simp [dot4, vector, Row.dir]; ring
  simp only [dots] at hi1 hi2
  have hin : ¬ 0 < σ * r.tilt 0 * (-(√3 / 2)) + r.tilt 2 * (1 / 2) := by
    intro hp
    rw [if_pos hp] at hi1
    rcases hi1 with h | h
    · exact hn.ne' h.2.2.2.2.2.2
    · exact hn.ne' h.2.2
  have hout : 0 < σ * r'.tilt 0 * (√3 / 2) + r'.tilt 2 * (1 / 2) := by
    by_contra hp
    rw [if_neg hp] at hi2
    rcases hi2 with h | h
    · exact hn.ne h.2.2.2.2.2.2
    · exact hn.ne h.2.2
  rw [if_neg hin] at hi1
  rw [if_pos hout] at hi2
  rcases hi1 with ⟨-, -, t1, -, -, p1, -⟩ | ⟨-, -, h⟩
  swap
  · exact absurd h hn.ne'
  rcases hi2 with ⟨-, -, t2, -, p2, -, -⟩ | ⟨-, -, h⟩
  swap
  · exact absurd h hn.ne
  have a0 : r.tilt 0 - (σ * r.tilt 0 * (-(√3 / 2)) + r.tilt 2 * (1 / 2)) * (σ * (-(√3 / 2))) =
    g.indexAt r.wavelength * (r'.tilt 0 - (σ * r'.tilt 0 * (-(√3 / 2)) + r'.tilt 2 * (1 / 2)) * (σ * (-(√3 / 2)))) := t1 0
  have a1 : r.tilt 1 - (σ * r.tilt 0 * (-(√3 / 2)) + r.tilt 2 * (1 / 2)) * 0 =
    g.indexAt r.wavelength * (r'.tilt 1 - (σ * r'.tilt 0 * (-(√3 / 2)) + r'.tilt 2 * (1 / 2)) * 0) := t1 1
  have a2 : r.tilt 2 - (σ * r.tilt 0 * (-(√3 / 2)) + r.tilt 2 * (1 / 2)) * (1 / 2) =
    g.indexAt r.wavelength * (r'.tilt 2 - (σ * r'.tilt 0 * (-(√3 / 2)) + r'.tilt 2 * (1 / 2)) * (1 / 2)) := t1 2
  have b0 : g.indexAt r.wavelength * (r'.tilt 0 - (σ * r'.tilt 0 * (√3 / 2) + r'.tilt 2 * (1 / 2)) * (σ * (√3 / 2))) =
    r''.tilt 0 - (σ * r''.tilt 0 * (√3 / 2) + r''.tilt 2 * (1 / 2)) * (σ * (√3 / 2)) := (t2 0).trans (one_mul _)
  have b1 : g.indexAt r.wavelength * (r'.tilt 1 - (σ * r'.tilt 0 * (√3 / 2) + r'.tilt 2 * (1 / 2)) * 0) =
    r''.tilt 1 - (σ * r''.tilt 0 * (√3 / 2) + r''.tilt 2 * (1 / 2)) * 0 := (t2 1).trans (one_mul _)
  have b2 : g.indexAt r.wavelength * (r'.tilt 2 - (σ * r'.tilt 0 * (√3 / 2) + r'.tilt 2 * (1 / 2)) * (1 / 2)) =
    r''.tilt 2 - (σ * r''.tilt 0 * (√3 / 2) + r''.tilt 2 * (1 / 2)) * (1 / 2) := (t2 2).trans (one_mul _)
  refine ⟨?_, not_lt.1 hin, ⟨_, _, pass_of hn ?_ ?_ (p1 (not_lt.1 hin)) hout (p2 hout) ?_ ?_ a2 ?_ ?_ b2⟩, ?_⟩
  · linear_combination hu + r.tilt 0 ^ 2 * hσ2
  · linear_combination hw + r'.tilt 0 ^ 2 * hσ2
  · linear_combination hv + r''.tilt 0 ^ 2 * hσ2
  · linear_combination σ * a0 + ((σ * r.tilt 0 * (-(√3 / 2)) + r.tilt 2 * (1 / 2)) * (-(√3 / 2)) -
      g.indexAt r.wavelength * ((σ * r'.tilt 0 * (-(√3 / 2)) + r'.tilt 2 * (1 / 2)) * (-(√3 / 2)))) * hσ2
  · linear_combination a1
  · linear_combination σ * b0 + (g.indexAt r.wavelength * ((σ * r'.tilt 0 * (√3 / 2) + r'.tilt 2 * (1 / 2)) * (√3 / 2)) -
      (σ * r''.tilt 0 * (√3 / 2) + r''.tilt 2 * (1 / 2)) * (√3 / 2)) * hσ2
  · linear_combination b1
  · obtain ⟨d, d0, -, hat⟩ := C28_segment ok htr r' h.second
    have hs := (C28_connected ok htr r r' h.first h.second h.next.1 h.next.2).1
    have hs' := (C28_connected ok htr r' r'' h.second h.third h.next'.1 h.next'.2).1
    have ho : (Tracer.new sources (objs.map (s.component argsort depth)) num limit).offset = 1e-6 := rfl
    rw [ho] at hs hs'
    refine ⟨1e-6 + d, by linarith, ?_, ?_, hface, hs'⟩
    · rw [hat 0, hs 0]; ring
    · rw [hat 2, hs 2]; ring

set_option maxHeartbeats 1000000 in
/-- **C111.** After `equilateral_prism(side, width, glass)` has been called, on any scene built before, let two rays, of the same trace or of two, go along the same line through the
two slanted faces, and let the glass have a larger index for the wavelength of the second. Then the second is turned by a larger angle, and leaves in a direction that is the other's turned
towards the base; y tilts are equal. If the rays come from below the normal of the first face, and leave forwards, then where they have come equally far (as on a screen across the x axis) the
second is below the other. `σ` is 1 for light that goes in on the side of negative x, and -1 for light in the other direction. -/
theorem C111_spectrum (hst : IsStableArgsort argsort) {s0 : Scene} (h0 : Ready argsort fuel s0) (hf : 3 ≤ fuel) {side width : ℝ} (hs : 1e-6 ≤ side) (hw : 1e-6 ≤ width)
    (g : IndexModel) :
    ∃ s a q i j, equilateralPrism argsort fuel side width (.glass g) s0 = (.ok a, s) ∧ [q, i, j].Nodup ∧
      (∀ depth, 3 ≤ depth → (surfaceIds depth s.heap a).map Prod.fst = [q, i, j]) ∧
      ∀ (objs : List ℕ) (depth : ℕ), a ∈ objs → 3 ≤ depth →
      ∀ (sources sources' : List (ℕ → List Col)) (num num' : ℕ) (limit limit' : ℤ) (k k' : ℕ) (t t' : Tracer),
        Bench argsort fuel s objs depth sources num → Tracer.Traces k (Tracer.new sources (objs.map (s.component argsort depth)) num limit) t →
        Bench argsort fuel s objs depth sources' num' → Tracer.Traces k' (Tracer.new sources' (objs.map (s.component argsort depth)) num' limit') t' →
      ∀ (σ : ℝ) (enter leave : ℕ), (σ = 1 ∧ enter = i ∧ leave = j ∨ σ = -1 ∧ enter = j ∧ leave = i) →
      ∀ r1 r1' r1'' r2 r2' r2'', Through t.frame side g enter leave r1 r1' r1'' → Through t'.frame side g enter leave r2 r2' r2'' →
        (∀ l, r2.start l = r1.start l) → (∀ l, r2.tilt l = r1.tilt l) → g.indexAt r1.wavelength < g.indexAt r2.wavelength →
        turned r1 r1'' < turned r2 r2'' ∧ r2''.tilt 1 = r1''.tilt 1 ∧ 0 < σ * (r1''.tilt 2 * r2''.tilt 0 - r1''.tilt 0 * r2''.tilt 2) ∧
        (0 < σ * r1''.tilt 0 → 0 ≤ σ * r1.tilt 0 + √3 * r1.tilt 2 → ∀ d1 d2 : ℝ, 0 ≤ d1 → 0 ≤ d2 →
          r1''.start 0 + d1 * r1''.tilt 0 = r2''.start 0 + d2 * r2''.tilt 0 → r2''.start 2 + d2 * r2''.tilt 2 < r1''.start 2 + d1 * r1''.tilt 2) := by
  obtain ⟨s, a, q, b, i, x, j, y, hrun, hb, hids, hqi, hqj, hij, ⟨hmb, hmx, hmy⟩, hon, hnrm⟩ := C92_faces hst.1 h0 hf hs hw (.glass g)
  refine ⟨s, a, q, i, j, hrun, by simp [hqi, hqj, hij], fun depth h3 => by simp [hids depth h3], ?_⟩
  intro objs depth haa h3 sources sources' num num' limit limit' k k' t t' bench htr bench' htr' σ enter leave hσ r1 r1' r1'' r2 r2' r2'' T1 T2 hstart htilt hidx
  have hon' := fun ray h1 h2 depth h3 v => (hon hst ray h1 h2 depth h3 v).2
  obtain ⟨u1, in1, ⟨p, X, P⟩, L, L0, x1, z1, f1, s1⟩ := through_pass hst hids hmx hmy hon' hnrm haa h3 bench htr hσ T1
  obtain ⟨u2, in2, ⟨p', Y, Q⟩, M, M0, x2, z2, f2, s2⟩ := through_pass hst hids hmx hmy hon' hnrm haa h3 bench' htr' hσ T2
  have hσ2 : σ * σ = 1 := by rcases hσ with ⟨rfl, -⟩ | ⟨rfl, -⟩ <;> norm_num
  obtain ⟨t0, t1, t2⟩ : r2.tilt 0 = r1.tilt 0 ∧ r2.tilt 1 = r1.tilt 1 ∧ r2.tilt 2 = r1.tilt 2 := ⟨htilt 0, htilt 1, htilt 2⟩
  rw [t0, t1, t2] at Q
  -- both go in at the same point
  have hstop : ∀ l, r2.stop l = r1.stop l := by
    obtain ⟨d, -, hn, hd⟩ := C28_segment (bench.ok hst.1 limit) htr r1 T1.first
    obtain ⟨d', -, hn', hd'⟩ := C28_segment (bench'.ok hst.1 limit') htr' r2 T2.first
    have hray : rowRay r2 = rowRay r1 := by
      unfold rowRay
      rw [t0, t1, t2, hstart 0, hstart 1, hstart 2]
    rw [hray] at hn'
    have e : d = d' := (Spec.Nearest.unique hn hn').1
    intro l
    rw [hd l, hd' l, e, hstart l, htilt l]
  obtain ⟨-, -, hcr, hdot⟩ := pass_compare T1.dense hidx u1 in1 P Q
  have e1 : ∀ v w : Row, σ * v.tilt 0 * (σ * w.tilt 0) = v.tilt 0 * w.tilt 0 := by
    intro v w; linear_combination v.tilt 0 * w.tilt 0 * hσ2
  have unit : ∀ (a b c d e f : ℝ), a ^ 2 + b ^ 2 + c ^ 2 = 1 → d ^ 2 + e ^ 2 + f ^ 2 = 1 → -1 ≤ a * d + b * e + c * f ∧ a * d + b * e + c * f ≤ 1 := by
    intro a b c d e f h1 h2
    constructor
    · linarith [sq_nonneg (a + d), sq_nonneg (b + e), sq_nonneg (c + f)]
    · linarith [sq_nonneg (a - d), sq_nonneg (b - e), sq_nonneg (c - f)]
  refine ⟨?_, by rw [Q.vy, P.vy], ?_, ?_⟩
  · unfold turned
    have d1 := unit _ _ _ _ _ _ u1 P.unit
    have d2 := unit _ _ _ _ _ _ u1 Q.unit
    rw [e1] at d1 d2
    rw [e1, e1] at hdot
    rw [t0, t1, t2]
    exact Real.arccos_lt_arccos d2.1 hdot d1.2
  · have : r1''.tilt 2 * (σ * r2''.tilt 0) - σ * r1''.tilt 0 * r2''.tilt 2 = σ * (r1''.tilt 2 * r2''.tilt 0 - r1''.tilt 0 * r2''.tilt 2) := by ring
    rwa [this] at hcr
  · intro hfwd hlow d1 d2 hd1 hd2 he
    have hp : 0 ≤ p := by rw [P.hp]; linarith
    have := pass_below T1.dense hidx u1 in1 P Q hp (x := σ * r1.stop 0) (ζ := r1.stop 2) (L := L) (M := M) (s := d1 + 1e-6) (t := d2 + 1e-6) (h := √3 / 4 * side) L0 M0
      (by linarith)
      (by rw [← z1, f1, x1]; ring)
      (by rw [← hstop 2, ← z2, f2, x2, hstop 0]; ring) hfwd (by
        rw [s1 0, s2 0, x1, x2, hstop 0] at he
        linear_combination σ * he)
    rw [s1 2, s2 2, z1, z2, hstop 2]
    linarith

/-- **C111, the index.** The index of a Sellmeier glass with coefficients that are not negative falls with the wavelength, in any range without poles in which it is defined. -/
theorem C111_index {b1 b2 b3 c1 c2 c3 w w' : ℝ} (hb : 0 < b1 ∧ 0 ≤ b2 ∧ 0 ≤ b3) (hc : 0 < c1 ∧ 0 ≤ c2 ∧ 0 ≤ c3) (h0 : 0 < w) (h : w < w')
    (hp : ∀ c ∈ [c1, c2, c3], 0 < (w ^ 2 - c) * (w' ^ 2 - c))
    (hr : 0 ≤ 1 + b1 * w' ^ 2 / (w' ^ 2 - c1) + b2 * w' ^ 2 / (w' ^ 2 - c2) + b3 * w' ^ 2 / (w' ^ 2 - c3)) :
    (IndexModel.sellmeier b1 b2 b3 c1 c2 c3).indexAt w' < (IndexModel.sellmeier b1 b2 b3 c1 c2 c3).indexAt w := by
  unfold IndexModel.indexAt
  apply Real.sqrt_lt_sqrt hr
  have a1 := sellmeier_term_strictAnti hb.1 hc.1 h0 h (hp c1 (by simp))
  have a2 := sellmeier_term_anti hb.2.1 hc.2.1 h0 h.le (hp c2 (by simp))
  have a3 := sellmeier_term_anti hb.2.2 hc.2.2 h0 h.le (hp c3 (by simp))
  linarith

/-- **C111, the catalogue.** From 0.3 to 2.5 micrometres the indices of BK7, SF5 and SF2 are greater than 1 and fall with the wavelength. -/
theorem C111_catalogue {g : IndexModel} (hg : g ∈ [glassBK7, glassSF5, glassSF2]) {w w' : ℝ} (h0 : 0.3 ≤ w) (h : w < w') (h1 : w' ≤ 2.5) :
    1 < g.indexAt w' ∧ g.indexAt w' < g.indexAt w := by
  have q0 : 0.09 ≤ w ^ 2 := by nlinarith
  have q1 : w ^ 2 < w' ^ 2 := by nlinarith
  have q2 : w' ^ 2 ≤ 6.25 := by nlinarith
  have key : ∀ {b1 b2 b3 c1 c2 c3 : ℝ}, 1 < b1 → 0 ≤ b2 → 0 ≤ b3 → b3 ≤ 2 → 0 < c1 → c1 < 0.09 → 0 ≤ c2 → c2 < 0.09 → 100 ≤ c3 →
      1 < (IndexModel.sellmeier b1 b2 b3 c1 c2 c3).indexAt w' ∧
      (IndexModel.sellmeier b1 b2 b3 c1 c2 c3).indexAt w' < (IndexModel.sellmeier b1 b2 b3 c1 c2 c3).indexAt w := by
    intro b1 b2 b3 c1 c2 c3 hb1 hb2 hb3 hb3' hc1 hc1' hc2 hc2' hc3
    have t1 : 1 < b1 * w' ^ 2 / (w' ^ 2 - c1) := by
      rw [lt_div_iff₀ (by linarith)]; nlinarith
    have t2 : 0 ≤ b2 * w' ^ 2 / (w' ^ 2 - c2) := div_nonneg (by positivity) (by linarith)
    have t3 : -1 ≤ b3 * w' ^ 2 / (w' ^ 2 - c3) := by
      rw [le_div_iff_of_neg (by linarith)]; nlinarith
    refine ⟨?_, C111_index ⟨by linarith, hb2, hb3⟩ ⟨hc1, hc2, by linarith⟩ (by linarith) h ?_ (by linarith)⟩
    · unfold IndexModel.indexAt
      rw [Real.lt_sqrt (by norm_num)]
      linarith
    · intro c hc
      simp only [List.mem_cons, List.not_mem_nil, or_false] at hc
      rcases hc with rfl | rfl | rfl
      · exact mul_pos (by linarith) (by linarith)
      · exact mul_pos (by linarith) (by linarith)
      · exact mul_pos_of_neg_of_neg (by linarith) (by linarith)
  simp only [List.mem_cons, List.not_mem_nil, or_false] at hg
  rcases hg with rfl | rfl | rfl
  all_goals
    first
      | unfold glassBK7
      | unfold glassSF5
      | unfold glassSF2
    apply key <;> norm_num

/-- C111: violet and red light in BK7 -/
example : 1 < glassBK7.indexAt 0.75 ∧ glassBK7.indexAt 0.75 < glassBK7.indexAt 0.44 :=
  C111_catalogue (by simp) (by norm_num) (by norm_num) (by norm_num)

set_option maxHeartbeats 2000000 in
/-- C111: a prism of side 2, width 1 in the room, of a glass with the indices √(10/9) at 1 micrometre and √(7/6) at 0.5. Light of both colours that comes at right angles to the face on the
left leaves by the middle of the other. -/
example (hst : IsStableArgsort argsort) : ∃ s0, Ready argsort 3 s0 ∧ ∃ g : IndexModel, g.indexAt 1 < g.indexAt 0.5 ∧
    ∃ s a q i j, equilateralPrism argsort 3 2 1 (.glass g) s0 = (.ok a, s) ∧ (surfaceIds 3 s.heap a).map Prod.fst = [q, i, j] ∧
    ∃ objs, a ∈ objs ∧ ∃ ray : Ray, ∀ lam, lam = 1 ∨ lam = 0.5 → ∃ (sources : List (ℕ → List Col)) (k : ℕ) (t' : Tracer),
      Bench argsort 3 s objs 3 sources 1 ∧ Tracer.Traces k (Tracer.new sources (objs.map (s.component argsort 3)) 1 5) t' ∧
      ∃ r r' r'', Through t'.frame 2 g i j r r' r'' ∧ rowRay r = ray ∧ r.wavelength = lam ∧ 0 ≤ 1 * r.tilt 0 + √3 * r.tilt 2 ∧ 0 < 1 * r''.tilt 0 := by
  obtain ⟨k2, k0⟩ := sqrt_three
  have ka : √3 < 1.74 := by rw [Real.sqrt_lt' (by norm_num)]; norm_num
  have kb : 1.73 < √3 := by rw [Real.lt_sqrt (by norm_num)]; norm_num
  obtain ⟨s0, -, h0, hsz, hk0, hw0, hm0⟩ := room_made (argsort := argsort) (fuel := 3)
  obtain ⟨g, hg⟩ : ∃ g : IndexModel, g = .sellmeier 0.1 0 0 0.1 0 0 := ⟨_, rfl⟩
  have g1 : g.indexAt 1 = √(10 / 9) := by rw [hg]; unfold IndexModel.indexAt; congr 1; norm_num
  have g2 : g.indexAt 0.5 = √(7 / 6) := by rw [hg]; unfold IndexModel.indexAt; congr 1; norm_num
  refine ⟨s0, h0, g, by rw [g1, g2]; exact Real.sqrt_lt_sqrt (by norm_num) (by norm_num), ?_⟩
  obtain ⟨s, a, q, b', i, x, j, y, hrun, hb, hids, hqi, hqj, hij, ⟨hmb, hmx, hmy⟩, hon, hnrm⟩ := C92_faces hst.1 h0 le_rfl (side := 2) (width := 1) (by norm_num) (by norm_num)
    (.glass g)
  obtain ⟨T, rfl, c⟩ := (prism_makes h0 le_rfl 2 1 (.glass g)).of_run hrun
  have hdepth : (prismMade 2 1 (.glass g)).depth ≤ 2 + 1 := by simp [prismMade, Made.depth]
  refine ⟨s, T.root, q, i, j, hrun, by simp [hids 3 le_rfl], [T.root, 0], by simp, ?_⟩
  obtain ⟨ray, hray⟩ : ∃ ray : Ray, ray = ⟨point (-1 / 4 - √3 / 2) 0 (√3 / 4 + 1 / 2), vector (√3 / 2) 0 (-1 / 2)⟩ := ⟨_, rfl⟩
  refine ⟨ray, fun lam hlam => ?_⟩
  obtain ⟨n, hn⟩ : ∃ n, n = g.indexAt lam := ⟨_, rfl⟩
  obtain ⟨hn1, hn2⟩ : 1 < n ∧ n ^ 2 < 4 / 3 := by
    rcases hlam with rfl | rfl
    · rw [hn, g1, Real.lt_sqrt (by norm_num), Real.sq_sqrt (by norm_num)]; norm_num
    · rw [hn, g2, Real.lt_sqrt (by norm_num), Real.sq_sqrt (by norm_num)]; norm_num
  obtain ⟨col, hcol⟩ : ∃ col : Col, col = ⟨ray, 0, 100, lam, 1, 0⟩ := ⟨_, rfl⟩
  have hmt : ∀ l ∈ (prismMade 2 1 (.glass g)).leaves, l.2.2.2 = some (.glass g) := by
    rw [prism_leaves]; simp
  have hunit0 : norm4 ray.d = 1 := by
    rw [hray]
    simp only [norm4, vector]
    simp
    rw [show (√3 / 2) ^ 2 + (-1 / 2) ^ 2 = (1 : ℝ) by linear_combination k2 / 4]
  have b : Bench argsort 3 s [T.root, 0] 3 [fun _ => [col]] 1 := by
    refine room_bench hsz hk0 hm0 c hdepth ?_ hmt ?_ ?_ ?_
    · rw [prism_leaves]
      simp [Sized, cutBlock]
    · rw [hcol]
      exact ⟨rfl, by rw [hray]; rfl, by rw [hray]; rfl, hunit0⟩
    · rw [hcol]; exact one_pos
    · rintro g' hg'
      cases hg'
      rw [hcol]
      show 0 < g.indexAt lam
      rw [← hn]
      linarith
  have hkp : (s.heap.obj 0).kind = .prim (.sphere 1000) := (c.old 0 hsz).1.trans hk0
  have hTp : (s.heap.obj 0).objT = 1 := by
    have hinv := reaches_inv argsort empty_inv b.history.reaches
    rw [(hinv.synced 0 (b.exist 0 (by simp))).2.1, (c.old 0 hsz).2.1, hw0, inv_one]
  have hmat : ∀ e ∈ surfaceIds 3 s.heap T.root, s.material e.2 ≠ .absorber := by
    intro e he
    rw [c.material hdepth hmt e he]
    simp
  obtain ⟨k, t', htr, -, -, -⟩ := C26_terminates (Tracer.new [fun _ => [col]] ([T.root, 0].map (s.component argsort 3)) 1 5) (by simp [Tracer.new]) (by simp [Tracer.new])
    (by simp [Tracer.new, hcol])
  have ok := b.ok hst.1 5
  refine ⟨_, k, t', b, htr, ?_⟩
  have hxm : (i, x) ∈ surfaceIds 3 s.heap T.root := by rw [hids 3 le_rfl]; simp
  have hym : (j, y) ∈ surfaceIds 3 s.heap T.root := by rw [hids 3 le_rfl]; simp
  have hat : ∀ t, ray.at t 0 = -1 / 4 + √3 / 2 * (t - 1) ∧ ray.at t 1 = 0 ∧ ray.at t 2 = √3 / 4 - 1 / 2 * (t - 1) := by
    intro t
    rw [hray]
    refine ⟨?_, ?_, ?_⟩ <;> simp [Ray.at, point, vector] <;> ring
  have goodOf : ∀ p : Vec4, p 3 = 1 → GoodRay ⟨p, vector (√3 / 2) 0 (-1 / 2)⟩ ∧ Spec.clearOfPrism ⟨p, vector (√3 / 2) 0 (-1 / 2)⟩ := by
    intro p hp
    refine ⟨⟨hp, rfl, ⟨.inr ?_, .inl rfl, .inr ?_⟩, .inl ?_⟩, .inr ?_, .inr ?_, .inl ?_, .inr ?_⟩
    · show 1e-8 < |√3 / 2|
      rw [abs_of_pos (by linarith)]; linarith
    · show 1e-8 < |(-1 / 2 : ℝ)|
      norm_num [abs_of_neg]
    · show √3 / 2 ≠ 0
      positivity
    · show 1e-8 < |√3 / 2 * (√3 / 2) + 1 / 2 * (-1 / 2)|
      rw [show √3 / 2 * (√3 / 2) + 1 / 2 * (-1 / 2) = (1 / 2 : ℝ) by linear_combination k2 / 4]; norm_num
    · show 1e-8 < |√3 / 2 * (√3 / 2) - 1 / 2 * (-1 / 2)|
      rw [show √3 / 2 * (√3 / 2) - 1 / 2 * (-1 / 2) = (1 : ℝ) by linear_combination k2 / 4]; norm_num
    · show √3 / 2 * (-1 / 2) + 1 / 2 * (√3 / 2) = 0
      ring
    · show 1e-8 < |√3 / 2 * (-1 / 2) - 1 / 2 * (√3 / 2)|
      rw [abs_of_neg (by linarith)]; linarith
  have hgood : GoodRay ray ∧ Spec.clearOfPrism ray := by rw [hray]; exact goodOf _ rfl
  obtain ⟨id0, hnear0, hrep0⟩ := hb.entry hst hgood.1 hgood.2 (depth := 3) le_rfl (d := 1) (d' := 5 / 4) one_pos (by norm_num)
    (by
      intro t t0 t1
      obtain ⟨e0, e1, e2⟩ := hat t
      right; right
      rw [e0, e2, abs_of_neg (by nlinarith)]
      nlinarith)
    (by
      intro t t0 t1
      obtain ⟨e0, e1, e2⟩ := hat t
      refine ⟨by rw [e1]; norm_num, ?_, ?_⟩
      · rw [e2]; nlinarith
      · rw [e0, e2, abs_of_neg (by nlinarith)]; nlinarith)
  have hhit : ((1 : ℝ) : EReal) ∈ (intersectObj argsort 3 s.heap T.root ray).1 := by
    obtain ⟨m, hm, -⟩ := hrep0
    exact List.mem_of_getElem? hm
  have hcr : col.ray = ray := by rw [hcol]
  rcases C89_starts b hst.1 htr (i := 0) (c := col) rfl with ⟨r, hr, g0, -, hray0, hwl, hi0⟩ | hmiss
  swap
  · rw [hcr] at hmiss
    exact absurd ⟨by exact_mod_cast (by norm_num : (0 : ℝ) < 1), EReal.coe_lt_top _⟩ (hmiss (s.component argsort 3 T.root) (by simp) _ hhit)
  rw [hcr] at hray0
  have hwl : r.wavelength = lam := by rw [hwl, hcol]
  have hi0 : r.index = 1 := by rw [hi0, hcol]
  have hdir : r.dir = vector (√3 / 2) 0 (-1 / 2) := by
    have : r.dir = (rowRay r).d := rfl
    rw [this, hray0, hray]
  have ho : ∀ l : Fin 3, r.start l = ray.o l.castSucc := fun l => by
    rw [← hray0]; fin_cases l <;> rfl
  have hsm : ∀ l, |r.start l| ≤ 20 := by
    intro l
    rw [ho l, hray]
    have h : l = 0 ∨ l = 1 ∨ l = 2 := by fin_cases l <;> simp
    rcases h with rfl | rfl | rfl
    · show |-1 / 4 - √3 / 2| ≤ 20
      rw [abs_le]; constructor <;> linarith
    · show |(0 : ℝ)| ≤ 20
      norm_num
    · show |√3 / 4 + 1 / 2| ≤ 20
      rw [abs_le]; constructor <;> linarith
  obtain ⟨⟨e, he, hse⟩, r', hr', hf⟩ := room_step b hst.1 htr hkp hTp hr (fun e he _ => hmat e he) hsm ⟨1, one_pos, by norm_num, by rw [hray0]; exact hhit⟩
    (by rw [g0]; norm_num)
  obtain ⟨d, d0, hnr, hatd⟩ := row_arrives ok htr hr
  have hrep := nearest_reports hst.1 b.history.reaches b.exist b.distinct hnr (a := T.root) (by simp) he hse
  rw [hray0] at hnr hatd hrep
  have hd1 : d = 1 := by
    apply le_antisymm
    · exact EReal.coe_le_coe_iff.1 (hnr.2.1 (s.component argsort 3 T.root) (by simp [Tracer.new]) ((1 : ℝ) : EReal) hhit (by exact_mod_cast (by norm_num : (0 : ℝ) < 1)))
    · obtain ⟨m, hm, -⟩ := hrep
      exact EReal.coe_le_coe_iff.1 (hnear0.2.1 (s.component argsort 3 T.root) (by simp) (d : EReal) (List.mem_of_getElem? hm) (by exact_mod_cast d0))
  rw [hd1] at hrep hatd
  obtain ⟨p0, p1, p2⟩ := hat 1
  rw [sub_self, mul_zero, add_zero] at p0
  rw [sub_self, mul_zero, sub_zero] at p2
  have hstop : ∀ l : Fin 3, r.stop l = ray.at 1 l.castSucc := fun l => by
    rw [hatd]; fin_cases l <;> rfl
  have q0 : r.stop 0 = -1 / 4 := by rw [hstop 0]; exact p0
  have q1 : r.stop 1 = 0 := by rw [hstop 1]; exact p1
  have q2 : r.stop 2 = √3 / 4 := by rw [hstop 2]; exact p2
  obtain ⟨f1, f2, f3⟩ := hon hst ray hgood.1 hgood.2 3 le_rfl 1
  rw [p1, p2] at f1
  rw [p0, p1, p2] at f2 f3
  have hes : r.surface = (i : ℤ) := by
    rw [hids 3 le_rfl] at he
    simp only [List.mem_cons, List.not_mem_nil, or_false] at he
    rcases he with rfl | rfl | rfl
    · rw [hse] at hrep
      rcases f1 hrep with h | h
      · norm_num at h
      · linarith
    · exact hse
    · rw [hse] at hrep
      have h := (f3 hrep).1
      linarith
  rw [hes] at hrep
  have hnormal : surfaceNormal s.heap x r.finish = vector (-(√3 / 2)) 0 (1 / 2) := by
    have : r.finish = point (-1 / 4) 0 (√3 / 4) := by
      unfold Row.finish
      rw [q0, q1, q2]
    rw [this]
    exact (hnrm _ _ _ (by linarith)).1 (f2 hrep)
  obtain ⟨hnn, -, hi⟩ := b.optics hst.1 htr hr hr' hf (a := T.root) (by simp) hxm hes
  rw [hmx, hnormal, hdir, hi0, hwl] at hi
  have hdot : dot4 (vector (√3 / 2) 0 (-1 / 2)) (vector (-(√3 / 2)) 0 (1 / 2)) = -1 := by
    simp [dot4, vector]; linear_combination (-1 / 4 : ℝ) * k2
  have hunit' := b.unit hst.1 htr hr'
  obtain ⟨hidx', hw'⟩ := interacts_enter (by rw [← hdir]; exact b.unit hst.1 htr hr) (by rw [← hnormal]; exact hnn) hunit' (by rw [← hn]; linarith) (by rw [hdot]; norm_num)
    (by rw [Spec.sinTo, hdot, ← hn]; norm_num; linarith) hi
  rw [← hn] at hidx'
  rw [hdot, show 1 - (1 / g.indexAt lam) ^ 2 * (1 - (-1) ^ 2) = (1 : ℝ) by ring, Real.sqrt_one] at hw'
  have w0 : r'.tilt 0 = √3 / 2 := by
    have : r'.tilt 0 = 1 / g.indexAt lam * (√3 / 2 - -1 * (-(√3 / 2))) - 1 * (-(√3 / 2)) := hw' 0
    rw [this]; ring
  have w1 : r'.tilt 1 = 0 := by
    have : r'.tilt 1 = 1 / g.indexAt lam * (0 - -1 * 0) - 1 * 0 := hw' 1
    rw [this]; ring
  have w2 : r'.tilt 2 = -1 / 2 := by
    have : r'.tilt 2 = 1 / g.indexAt lam * (-1 / 2 - -1 * (1 / 2)) - 1 * (1 / 2) := hw' 2
    rw [this]; ring
  have hstart := (C28_connected ok htr r r' hr hr' hf.1 hf.2).1
  obtain ⟨ε, hε⟩ : ∃ ε : ℝ, ε = 1e-6 := ⟨_, rfl⟩
  have hoff : (Tracer.new [fun _ => [col]] ([T.root, 0].map (s.component argsort 3)) 1 5).offset = ε := by rw [hε]; rfl
  rw [hoff] at hstart
  have hst0 : r'.start 0 = -1 / 4 + ε * (√3 / 2) := by rw [hstart 0, q0, w0]
  have hst1 : r'.start 1 = 0 := by rw [hstart 1, q1, w1]; ring
  have hst2 : r'.start 2 = √3 / 4 + ε * (-1 / 2) := by rw [hstart 2, q2, w2]
  have hray1 : rowRay r' = ⟨point (-1 / 4 + ε * (√3 / 2)) 0 (√3 / 4 + ε * (-1 / 2)), vector (√3 / 2) 0 (-1 / 2)⟩ := by
    unfold rowRay
    rw [hst0, hst1, hst2, w0, w1, w2]
  have hgood1 : GoodRay (rowRay r') ∧ Spec.clearOfPrism (rowRay r') := by rw [hray1]; exact goodOf _ rfl
  have hat1 : ∀ t, (rowRay r').at t 0 = -1 / 4 + √3 / 2 * (ε + t) ∧ (rowRay r').at t 1 = 0 ∧ (rowRay r').at t 2 = √3 / 4 - 1 / 2 * (ε + t) := by
    intro t
    rw [hray1]
    refine ⟨?_, ?_, ?_⟩ <;> simp [Ray.at, point, vector] <;> ring
  have hits := fun v => hb.chord hst hgood1.1 hgood1.2 (depth := 3) le_rfl (c1 := -ε) (c2 := √3 / 2 - ε) (by linarith)
    (by
      intro t h1 h2
      obtain ⟨e0, e1, e2⟩ := hat1 t
      refine ⟨by rw [e1]; norm_num, ?_, ?_⟩
      · rw [e2]; linarith
      · rw [e0, e2]
        rcases abs_cases (-1 / 4 + √3 / 2 * (ε + t)) with ⟨h, -⟩ | ⟨h, -⟩ <;> rw [h] <;> nlinarith)
    (by
      intro t h
      obtain ⟨e0, e1, e2⟩ := hat1 t
      right; right
      rw [e0, e2]
      rcases h with h | h
      · have : -(-1 / 4 + √3 / 2 * (ε + t)) ≤ |-1 / 4 + √3 / 2 * (ε + t)| := neg_le_abs _
        nlinarith
      · have : -1 / 4 + √3 / 2 * (ε + t) ≤ |-1 / 4 + √3 / 2 * (ε + t)| := le_abs_self _
        nlinarith) v
  obtain ⟨⟨e', he', hse'⟩, r'', hr'', hf'⟩ := room_step b hst.1 htr hkp hTp hr' (fun e he _ => hmat e he)
    (by
      intro l
      have h : l = 0 ∨ l = 1 ∨ l = 2 := by fin_cases l <;> simp
      rcases h with rfl | rfl | rfl
      · rw [hst0, hε, abs_le]; constructor <;> linarith
      · rw [hst1]; norm_num
      · rw [hst2, hε, abs_le]; constructor <;> linarith) ⟨√3 / 2 - ε, by rw [hε]; linarith, by rw [hε]; linarith, (hits (√3 / 2 - ε)).2 (.inr rfl)⟩ (by rw [hf.2, g0]; norm_num)
  obtain ⟨d', d0', hnr', hatd'⟩ := row_arrives ok htr hr'
  have hrep' := nearest_reports hst.1 b.history.reaches b.exist b.distinct hnr' (a := T.root) (by simp) he' hse'
  have hd1' : d' = √3 / 2 - ε := by
    obtain ⟨m, hm, -⟩ := hrep'
    rcases (hits d').1 (List.mem_of_getElem? hm) with h | h
    · rw [hε] at h; norm_num at h; linarith
    · exact h
  rw [hd1'] at hrep' hatd'
  obtain ⟨f1', f2', f3'⟩ := hon hst (rowRay r') hgood1.1 hgood1.2 3 le_rfl (√3 / 2 - ε)
  obtain ⟨v0, v1, v2⟩ := hat1 (√3 / 2 - ε)
  rw [show -1 / 4 + √3 / 2 * (ε + (√3 / 2 - ε)) = (1 / 2 : ℝ) by linear_combination k2 / 4] at v0
  rw [show √3 / 4 - 1 / 2 * (ε + (√3 / 2 - ε)) = (0 : ℝ) by ring] at v2
  have hstop' : ∀ l : Fin 3, r'.stop l = (rowRay r').at (√3 / 2 - ε) l.castSucc := fun l => by
    rw [hatd']; fin_cases l <;> rfl
  have u0 : r'.stop 0 = 1 / 2 := by rw [hstop' 0]; exact v0
  have u1 : r'.stop 1 = 0 := by rw [hstop' 1]; exact v1
  have u2 : r'.stop 2 = 0 := by rw [hstop' 2]; exact v2
  rw [v1, v2] at f1'
  rw [v0, v1, v2] at f2' f3'
  have hes' : r'.surface = (j : ℤ) := by
    rw [hids 3 le_rfl] at he'
    simp only [List.mem_cons, List.not_mem_nil, or_false] at he'
    rcases he' with rfl | rfl | rfl
    · rw [hse'] at hrep'
      rcases f1' hrep' with h | h
      · norm_num at h
      · linarith
    · rw [hse'] at hrep'
      have h := (f2' hrep').1
      linarith
    · exact hse'
  rw [hes'] at hrep'
  have hnormal' : surfaceNormal s.heap y r'.finish = vector (√3 / 2) 0 (1 / 2) := by
    have : r'.finish = point (1 / 2) 0 0 := by
      unfold Row.finish
      rw [u0, u1, u2]
    rw [this]
    exact (hnrm _ _ _ (by linarith)).2 (f3' hrep')
  obtain ⟨hnn', -, hi'⟩ := b.optics hst.1 htr hr' hr'' hf' (a := T.root) (by simp) hym hes'
  rw [hmy, hnormal', hidx'] at hi'
  have hdot' : dot4 r'.dir (vector (√3 / 2) 0 (1 / 2)) = 1 / 2 := by
    simp [dot4, vector, Row.dir, w0, w2]; linear_combination k2 / 4
  obtain ⟨hidx'', hv⟩ := interacts_leave hunit' (by rw [← hnormal']; exact hnn') (b.unit hst.1 htr hr'') (by rw [hdot']; positivity) (by
      rw [Spec.sinTo, hdot', show (1 : ℝ) - (1 / 2) ^ 2 = (√3 / 2) ^ 2 by linarith, Real.sqrt_sq (by positivity)]
      apply lt_of_pow_lt_pow_left₀ 2 (by norm_num)
      nlinarith) hi'
  refine ⟨r, r', r'', ⟨hr, hr', hr'', hf, hf', hes, hes', hray0 ▸ hgood, hgood1, by rw [q2]; linarith, by rw [u2]; linarith, by rw [hwl, ← hn]; exact hn1, hi0, by rw [hwl, ← hn]; exact hidx', hidx''⟩,
    hray0, hwl, ?_, ?_⟩
  · have t0 : r.tilt 0 = √3 / 2 := congrFun hdir 0
    have t2 : r.tilt 2 = -1 / 2 := congrFun hdir 2
    rw [t0, t2]; linarith
  · have : r''.tilt 0 = n * (r'.tilt 0 - dot4 r'.dir (vector (√3 / 2) 0 (1 / 2)) * (√3 / 2)) + √(1 - n ^ 2 * (1 - dot4 r'.dir (vector (√3 / 2) 0 (1 / 2)) ^ 2)) * (√3 / 2) := hv 0
    rw [this, hdot', w0]
    have h1 : 0 < n * (√3 / 2 - 1 / 2 * (√3 / 2)) := mul_pos (by linarith) (by linarith)
    have h2 : 0 ≤ √(1 - n ^ 2 * (1 - (1 / 2) ^ 2)) * (√3 / 2) := by positivity
    linarith

end PyRayT
