import Verif.Props.Bench
import Verif.Props.Components2

/-!
# Property C87: the parabolic mirror in a trace

`C48` is about the object that `parabolic_mirror` builds and about one call of the mirror. Here a whole trace is looked at: rays parallel
to the axis are sent through the focus, and rays from the focus become parallel to the axis.
-/

namespace PyRayT

open Classical Matrix Spec

variable {argsort : List EReal → List ℕ} {fuel : ℕ}

/-- The hit at the end of a row is reported by the object that has the surface named in the row. -/
theorem nearest_reports (ha : IsArgsort argsort) {fuel : ℕ} {s : Scene} (hr : Reaches argsort fuel Heap.empty s.heap) {objs : List ℕ}
    (hlt : ∀ a ∈ objs, a < s.heap.size) {depth : ℕ} (hnd : (objs.flatMap fun a => (surfaceIds depth s.heap a).map Prod.snd).Nodup)
    {ray : Ray} {d : ℝ} {k : ℤ} (hn : Nearest (objs.map (s.component argsort depth)) ray d k) {a y id : ℕ} (haa : a ∈ objs)
    (hy : (id, y) ∈ surfaceIds depth s.heap a) (hk : k = id) : Spec.Reports argsort s a depth ray d k := by
  have hi := reaches_inv argsort empty_inv hr
  obtain ⟨-, -, m, c, i, h1, -, h3, -, h5⟩ := hn
  obtain ⟨b, hb, rfl⟩ := List.mem_map.1 (List.mem_of_getElem? h1)
  obtain ⟨x, p, -, hm, -, e, -⟩ := intersectObj_label argsort ha s.heap ray depth b i d k h3 (EReal.coe_ne_top d) h5
  obtain ⟨hx, -, -⟩ := surfaceIds_spec hi depth b (hlt b hb) _ hm
  obtain ⟨hys, ey, -⟩ := surfaceIds_spec hi depth a (hlt a haa) _ hy
  dsimp only at hx hys ey
  have hxy : x = y := by
    by_contra hne
    apply (C56_unique_ids argsort fuel s.heap (hr.any argsort)).1 x y hx hys hne
    rw [← ey]
    exact_mod_cast e.symm.trans hk
  subst hxy
  have hab : a = b := by
    by_contra hne
    have hp := (List.nodup_flatMap.1 hnd).2
    haveI : Std.Symm (Function.onFun List.Disjoint fun a => List.map Prod.snd (surfaceIds depth s.heap a)) := ⟨fun u v h => h.symm⟩
    exact hp.forall haa hb hne (List.mem_map.2 ⟨_, hy, rfl⟩) (List.mem_map.2 ⟨_, hm, rfl⟩)
  subst hab
  exact ⟨i, h3, h5⟩

/-- a row as the ray that arrives at the material -/
theorem row_arrives {n : ℕ} {t t' : Tracer} (ok : TracerOk t) (h : Tracer.Traces n t t') {r : Row} (hr : r ∈ t'.frame) :
    ∃ d : ℝ, 0 < d ∧ Nearest t.components (rowRay r) d r.surface ∧ (rowRay r).at d = r.finish := by
  obtain ⟨d, h0, hn, hstop⟩ := C28_segment ok h r hr
  refine ⟨d, h0, hn, ?_⟩
  funext i
  fin_cases i
  · exact (hstop 0).symm
  · exact (hstop 1).symm
  · exact (hstop 2).symm
  · simp [rowRay, Ray.at, Row.finish, point, vector]

/-- what the mirror at the end of a row makes of it -/
theorem row_mirrored (ha : IsArgsort argsort) {s : Scene} (hr : Reaches argsort fuel Heap.empty s.heap) {objs : List ℕ}
    (hlt : ∀ a ∈ objs, a < s.heap.size) {depth : ℕ} (hnd : (objs.flatMap fun a => (surfaceIds depth s.heap a).map Prod.snd).Nodup)
    {sources : List (ℕ → List Col)} {n : ℕ} {limit : ℤ}
    (hem : ∀ f ∈ sources, ∀ c ∈ f n, c.generation = 0 ∧ c.ray.o 3 = 1 ∧ c.ray.d 3 = 0 ∧ norm4 c.ray.d = 1)
    {k : ℕ} {t' : Tracer} (ht : Tracer.Traces k (Tracer.new sources (objs.map (s.component argsort depth)) n limit) t')
    {r r' : Row} (hrm : r ∈ t'.frame) (hrm' : r' ∈ t'.frame) (hf : Follows r r') {a y id : ℕ} (haa : a ∈ objs)
    (hy : (id, y) ∈ surfaceIds depth s.heap a) (hs : r.surface = (id : ℤ)) (hm : s.material y = .mirror) :
    r'.index = r.index ∧ ∃ c : Col, c.ray = ⟨r.finish, r.dir⟩ ∧
      r'.dir = (Material.mirror.trace (surfaceNormal s.heap y) c).ray.d := by
  have ok := scene_tracer_ok argsort ha fuel s hr objs hlt depth hnd sources n limit hem
  have hi := reaches_inv argsort empty_inv hr
  obtain ⟨-, -, -, f, hfl, e1, e2⟩ := C28_connected ok ht r r' hrm hrm' hf.1 hf.2
  obtain ⟨c, hc, hfc⟩ := List.mem_flatMap.1 hfl
  obtain ⟨b, hb, rfl⟩ := List.mem_map.1 hc
  obtain ⟨e, he, hfe⟩ := List.mem_map.1 hfc
  simp only [Prod.mk.injEq] at hfe
  obtain ⟨hse, rfl⟩ := hfe
  obtain ⟨hx, ex, -⟩ := surfaceIds_spec hi depth b (hlt b hb) _ he
  obtain ⟨hys, ey, -⟩ := surfaceIds_spec hi depth a (hlt a haa) _ hy
  have hxy : e.2 = y := by
    by_contra hne
    apply (C56_unique_ids argsort fuel s.heap (hr.any argsort)).1 e.2 y hx hys hne
    rw [← ex, ← ey]
    exact_mod_cast hse.trans hs
  rw [hxy, hm] at e1 e2
  exact ⟨e2, _, rfl, e1⟩

/-- **C87.** After `parabolic_mirror(f, t, ...)` with the mirror as material has been called, on any scene built before, let any tracer
have the mirror among its components and let a row `r` end on the paraboloid.

If `r` is parallel to the axis (tilt (σ, 0, 0)), the next row of the ray leaves the end of `r` along the line through the origin,
which is the focus; for rays from the front (σ = -1) the focus lies ahead at the distance x + 2f, so that the path from a plane across the axis to
the focus is the same for all of them.

If `r` runs on a line that comes from the origin, the next row has tilt (1, 0, 0).

(The opening must not be negligible against f and the tolerances must not misjudge the direction of `r`, as in C48.) -/
theorem C87_focus (hst : IsStableArgsort argsort) {s0 : Scene} (h0 : Ready argsort fuel s0) (hfu : 2 ≤ fuel) {f t : ℝ} (hf : 1e-8 < 4 * f)
    (ht : 0 ≤ t) {ap : Aperture} (hap : Spec.goodAperture ap) (hbig : 4 * f * 1e-7 < Spec.rim ap) (off : ℝ × ℝ) :
    ∃ s a j, parabolicMirror argsort fuel f t ap .mirror off s0 = (.ok a, s) ∧
      ∀ (objs : List ℕ) (depth : ℕ) (sources : List (ℕ → List Col)) (n : ℕ) (limit : ℤ) (k : ℕ) (t' : Tracer),
        a ∈ objs → 3 ≤ depth → (∀ a ∈ objs, a < s.heap.size) →
        (objs.flatMap fun a => (surfaceIds depth s.heap a).map Prod.snd).Nodup →
        (∀ f ∈ sources, ∀ c ∈ f n, c.generation = 0 ∧ c.ray.o 3 = 1 ∧ c.ray.d 3 = 0 ∧ norm4 c.ray.d = 1) →
        Tracer.Traces k (Tracer.new sources (objs.map (s.component argsort depth)) n limit) t' →
        ∀ r ∈ t'.frame, ∀ r' ∈ t'.frame, Follows r r' → r.surface = (j : ℤ) →
          (∀ σ, (σ = 1 ∨ σ = -1) → r.tilt = ![σ, 0, 0] →
            r.stop 0 = (r.stop 1 ^ 2 + r.stop 2 ^ 2) / (4 * f) - f ∧ 0 < r.stop 0 + 2 * f ∧
            ∀ i, r.stop i + -σ * (r.stop 0 + 2 * f) * r'.tilt i = 0) ∧
          (∀ ρ : ℝ, 0 < ρ → (∀ i, r.stop i = ρ * r.tilt i) → GoodRay (rowRay r) → Spec.clearOfAxis (rowRay r) →
            Spec.clearOfParabola f (rowRay r) → r'.tilt = ![1, 0, 0]) := by
  have hf0 : 0 < f := by linarith
  obtain ⟨s, a, i, x, j, y, hbuild, hb, hids, hij, hmx, hmy, hon, -, hfoc⟩ := C48_parabolic_mirror_partial hst.1 h0 hfu hf ht hap hbig off .mirror
  refine ⟨s, a, j, hbuild, ?_⟩
  intro objs depth sources n limit k t' haa h3 hlt hnd hem htr r hrm r' hrm' hfol hsf
  have hr : Reaches argsort fuel Heap.empty s.heap := TidyReaches.reaches argsort hb.ready.tidy
  have ok := scene_tracer_ok argsort hst.1 fuel s hr objs hlt depth hnd sources n limit hem
  have hy : (j, y) ∈ surfaceIds depth s.heap a := by rw [hids depth h3]; simp
  obtain ⟨d, hd0, hnear, hat⟩ := row_arrives ok htr hrm
  have hrep := nearest_reports hst.1 hr hlt hnd hnear haa hy hsf
  rw [hsf] at hrep
  obtain ⟨-, c, hcr, hw⟩ := row_mirrored hst.1 hr hlt hnd hem htr hrm hrm' hfol haa hy hsf hmy
  have hP : ∀ (hg : GoodRay (rowRay r)) (h1 : Spec.clearOfAxis (rowRay r)) (h2 : Spec.clearOfParabola f (rowRay r)),
      r.stop 0 = (r.stop 1 ^ 2 + r.stop 2 ^ 2) / (4 * f) - f ∧ ¬ Spec.offAperture ap (r.stop 1 - off.1) (r.stop 2 - off.2) := by
    intro hg h1 h2
    have := hon hst _ hg h1 h2 depth h3 d hrep
    rw [hat] at this
    exact this
  have hsum : ∀ σ : ℝ, r.stop 0 = (r.stop 1 ^ 2 + r.stop 2 ^ 2) / (4 * f) - f →
      -σ * (4 * f ^ 2 + r.stop 1 ^ 2 + r.stop 2 ^ 2) / (4 * f) = -σ * (r.stop 0 + 2 * f) := by
    intro σ h
    rw [h]; field_simp; ring
  have hpos : r.stop 0 = (r.stop 1 ^ 2 + r.stop 2 ^ 2) / (4 * f) - f → 0 < r.stop 0 + 2 * f := by
    intro h
    rw [h]
    have : 0 ≤ (r.stop 1 ^ 2 + r.stop 2 ^ 2) / (4 * f) := by positivity
    linarith
  refine ⟨fun σ hσ htilt => ?_, fun ρ hρ hline hg hc1 hc2 => ?_⟩
  · have hray : rowRay r = Spec.axisRay σ (r.start 0) (r.start 1) (r.start 2) := by
      unfold rowRay Spec.axisRay
      rw [htilt]; rfl
    have hcp : Spec.clearOfParabola f (rowRay r) := by
      rw [hray]
      refine .inr ⟨by simp [Spec.axisRay, vector], ?_⟩
      have : |σ| = 1 := by rcases hσ with rfl | rfl <;> simp
      simp only [Spec.axisRay, vector]
      simp [abs_mul, this, abs_of_pos hf0]
      exact hf
    obtain ⟨hsag, hoff⟩ := hP (by rw [hray]; exact axisRay_good hσ _ _ _) (by rw [hray]; exact axisRay_clear _ _ _ _) hcp
    refine ⟨hsag, hpos hsag, fun i => ?_⟩
    have hdir : c.ray.d = vector σ 0 0 := by
      rw [hcr]; simp only [Row.dir, htilt]; rfl
    obtain ⟨ho, hlast⟩ := hfoc c (by rw [hcr]; rfl) (by rw [hcr]; exact hsag) (by rw [hcr]; exact hoff) σ hσ hdir
    have key : ∀ l : Fin 4, r.finish l + -σ * (r.stop 0 + 2 * f) * r'.dir l = point 0 0 0 l := by
      intro l
      have := congrFun hlast l
      change (Material.mirror.trace (surfaceNormal s.heap y) c).ray.o l + _ * (Material.mirror.trace (surfaceNormal s.heap y) c).ray.d l = _ at this
      rw [ho, hcr, ← hw] at this
      change r.finish l + -σ * (4 * f ^ 2 + r.stop 1 ^ 2 + r.stop 2 ^ 2) / (4 * f) * r'.dir l = _ at this
      rw [hsum σ hsag] at this
      exact this
    fin_cases i
    · exact key 0
    · exact key 1
    · exact key 2
  · obtain ⟨hsag, hoff⟩ := hP hg hc1 hc2
    have hN := (surfaceNormal_ok argsort hr (surfaceIds_spec (reaches_inv argsort empty_inv hr) depth a (hlt a haa) _ hy).1) r.finish
    set nn := surfaceNormal s.heap y r.finish with hnn
    have hL := hpos hsag
    -- the ray that comes in along the axis at the same point
    obtain ⟨-, hlast⟩ := hfoc { c with ray := ⟨r.finish, vector (-1) 0 0⟩ } rfl hsag hoff (-1) (Or.inr rfl) rfl
    have key : ∀ l : Fin 4, r.finish l + (r.stop 0 + 2 * f) * (vector (-1) 0 0 l - 2 * nn l * dot4 (vector (-1) 0 0) nn) = point 0 0 0 l := by
      intro l
      have := congrFun hlast l
      change r.finish l + - -1 * (4 * f ^ 2 + r.stop 1 ^ 2 + r.stop 2 ^ 2) / (4 * f) * (vector (-1) 0 0 l - 2 * nn l * dot4 (vector (-1) 0 0) nn) = _ at this
      rw [hsum (-1) hsag, neg_neg, one_mul] at this
      exact this
    have huu : dot4 r.dir r.dir = 1 := by
      rw [← (C35_unit_tilts ok htr r hrm).1]
      simp [dot4, Row.dir, vector]
      ring
    set e : Vec4 := vector (-1) 0 0 with he
    have hee : dot4 e e = 1 := by simp [he, dot4, vector]
    set w : Vec4 := fun l => e l - 2 * nn l * dot4 e nn with hwdef
    have hdw : dot4 w nn = -dot4 e nn ∨ nn = 0 := by
      rcases hN.2 with h1 | h1
      · left
        have h1 := norm4_eq_one.1 h1
        have : dot4 w nn = dot4 e nn - 2 * dot4 e nn * dot4 nn nn := by simp only [dot4, hwdef]; ring
        rw [this, h1]; ring
      · exact Or.inr h1
    have hww : dot4 w w = 1 := by
      have : dot4 w w = dot4 e e - 2 * dot4 e nn * (dot4 e nn + dot4 w nn) := by simp only [dot4, hwdef]; ring
      rw [this, hee]
      rcases hdw with h1 | h1
      · rw [h1]; ring
      · rw [h1]; simp [dot4]
    have hback : ∀ l, w l - 2 * nn l * dot4 w nn = e l := by
      intro l
      rcases hdw with h1 | h1
      · rw [h1]; simp only [hwdef]; ring
      · simp only [hwdef, h1]; simp
    have hwl : ∀ l, (r.stop 0 + 2 * f) * w l = -(ρ * r.dir l) := by
      intro l
      have h := key l
      fin_cases l
      · have := hline 0
        simp [Row.finish, Row.dir, point, vector] at h ⊢
        linarith
      · have := hline 1
        simp [Row.finish, Row.dir, point, vector] at h ⊢
        linarith
      · have := hline 2
        simp [Row.finish, Row.dir, point, vector] at h ⊢
        linarith
      · simp [Row.finish, Row.dir, point, vector] at h ⊢
        rcases h with h | h
        · exact Or.inl h
        · right
          simp only [hwdef, he, vector, hN.1]
          simp
    have hρ2 : ρ = r.stop 0 + 2 * f := by
      have h1 : (r.stop 0 + 2 * f) ^ 2 * dot4 w w = ρ ^ 2 * dot4 r.dir r.dir := by
        have e1 : (r.stop 0 + 2 * f) ^ 2 * dot4 w w = ((r.stop 0 + 2 * f) * w 0) ^ 2 + ((r.stop 0 + 2 * f) * w 1) ^ 2 +
          ((r.stop 0 + 2 * f) * w 2) ^ 2 + ((r.stop 0 + 2 * f) * w 3) ^ 2 := by simp only [dot4]; ring
        rw [e1, hwl, hwl, hwl, hwl]
        simp only [dot4]; ring
      rw [hww, huu, mul_one, mul_one] at h1
      nlinarith
    have hw' : ∀ l, w l = -r.dir l := by
      intro l
      have := hwl l
      rw [← hρ2] at this
      have h2 : ρ * (w l + r.dir l) = 0 := by linarith
      rcases mul_eq_zero.1 h2 with h3 | h3
      · exact absurd h3 hρ.ne'
      · linarith
    have hfin : ∀ l, r'.dir l = -e l := by
      intro l
      rw [hw]
      change c.ray.d l - 2 * surfaceNormal s.heap y c.ray.o l * dot4 c.ray.d (surfaceNormal s.heap y c.ray.o) = _
      rw [hcr]
      change r.dir l - 2 * nn l * dot4 r.dir nn = _
      have hd : dot4 r.dir nn = -dot4 w nn := by simp only [dot4, hw']; ring
      rw [hd, ← hback l, hw' l]; ring
    funext i
    fin_cases i
    · simpa [Row.dir, vector, he] using hfin 0
    · simpa [Row.dir, vector, he] using hfin 1
    · simpa [Row.dir, vector, he] using hfin 2

/-- a reported distance has a label at its first position -/
theorem first_label (ha : IsArgsort argsort) {s : Scene} {a depth : ℕ} {ray : Ray} {d : ℝ}
    (hm : (d : EReal) ∈ (intersectObj argsort depth s.heap a ray).1) (hd : 0 < d)
    (hmin : ∀ v : ℝ, (v : EReal) ∈ (intersectObj argsort depth s.heap a ray).1 → 0 < v → d ≤ v) :
    ∃ k, Nearest ([a].map (s.component argsort depth)) ray d k ∧ Spec.Reports argsort s a depth ray d k := by
  set l := (intersectObj argsort depth s.heap a ray).1 with hl
  have hex : ∃ i, l[i]? = some (d : EReal) := List.mem_iff_getElem?.1 hm
  have hlen : (intersectObj argsort depth s.heap a ray).2.length = l.length := by
    obtain ⟨i, hi⟩ := hex
    have := (component_ok argsort ha s depth a).len ray
    exact this
  have hi := Nat.find_spec hex
  set i := Nat.find hex with hidef
  have hlt : i < (intersectObj argsort depth s.heap a ray).2.length := by
    rw [hlen]
    exact (List.getElem?_eq_some_iff.1 hi).1
  refine ⟨(intersectObj argsort depth s.heap a ray).2[i], ⟨hd, ?_, 0, s.component argsort depth a, i, rfl, fun j hj => by omega, hi, ?_, ?_⟩, i, hi, ?_⟩
  · intro c hc h hh hp
    simp only [List.map_cons, List.map_nil, List.mem_singleton] at hc
    subst hc
    change h ∈ l at hh
    induction h with
    | bot => exact absurd hp (by simp)
    | top => exact le_top
    | coe v => exact EReal.coe_le_coe_iff.2 (hmin v hh (by exact_mod_cast hp))
  · intro j hj
    exact Nat.find_min hex hj
  · exact List.getElem?_eq_getElem hlt
  · exact List.getElem?_eq_getElem hlt

/-- where a ray enters the object from outside, the nearest hit is found -/
theorem Spec.Built.entry {s0 s : Scene} {a : ℕ} {seen : Ray → Prop} {inside outside : ℝ → ℝ → ℝ → Prop}
    (h : Spec.Built argsort fuel s0 s a seen inside outside) (hst : IsStableArgsort argsort) {ray : Ray} (hray : GoodRay ray)
    (hseen : seen ray) {depth : ℕ} (hd : 3 ≤ depth) {d d' : ℝ} (h0 : 0 < d) (hd' : d < d')
    (hout : ∀ t, 0 < t → t < d → outside (ray.at t 0) (ray.at t 1) (ray.at t 2))
    (hin : ∀ t, d < t → t < d' → inside (ray.at t 0) (ray.at t 1) (ray.at t 2)) :
    ∃ k, Nearest ([a].map (s.component argsort depth)) ray d k ∧ Spec.Reports argsort s a depth ray d k := by
  have hb := fun v => h.bound hst ray hray hseen depth hd v
  have hh := fun t => h.hits ray hray hseen depth hd t
  have none_before : ∀ v : ℝ, (v : EReal) ∈ (intersectObj argsort depth s.heap a ray).1 → 0 < v → d ≤ v := by
    intro v hv hv0
    by_contra hc
    exact (hb v hv).2 (hout v hv0 (not_le.1 hc))
  refine first_label hst.1 ?_ h0 none_before
  have hi := (hh ((d + d') / 2)).1 (hin _ (by linarith) (by linarith))
  have ho := (hh (d / 2)).2 (hout _ (by linarith) (by linarith))
  obtain ⟨w, hw, w1, w2⟩ := crossing_hit (t := d / 2) (t' := (d + d') / 2) (by linarith) (fun e => ho (e.2 hi))
  have h1 := none_before w hw (by linarith)
  rcases lt_or_eq_of_le h1 with h2 | h2
  · exact absurd (hin w h2 (by linarith)) (hb w hw).1
  · rw [h2]; exact hw

/-- a ray that comes in parallel to the axis, at the distance 2 from it -/
def dishCol : Col := { ray := Spec.axisRay (-1) 5 2 0, generation := 0, intensity := 100, wavelength := 0.633, index := 1, id := 0 }

/-- non-vacuity of C87: a mirror of focal length 1. The ray at y = 2 is sent across the focus and meets the mirror again at y = -2: its first
two rows are as in the first part of the theorem. -/
example (hst : IsStableArgsort argsort) : ∃ s a j, parabolicMirror argsort 2 1 1 (.scalar 10) .mirror (0, 0) ⟨Heap.empty, fun _ => .absorber⟩ = (.ok a, s) ∧
    ∃ (k : ℕ) (t' : Tracer) (r r' : Row),
      Tracer.Traces k (Tracer.new [fun _ => [dishCol]] ([a].map (s.component argsort 3)) 1 3) t' ∧ r ∈ t'.frame ∧ r' ∈ t'.frame ∧
      Follows r r' ∧ r.surface = (j : ℕ) ∧ r.tilt = ![-1, 0, 0] ∧ r'.tilt = ![0, -1, 0] := by
  obtain ⟨s, a, i, x, j, y, e, hb, hids, hij, -, hm, -, h1, h2⟩ := C48_parabolic_mirror_partial hst.1
    (ready_empty (argsort := argsort) (fuel := 2) fun _ => .absorber) le_rfl (f := 1) (t := 1) (by norm_num) (by norm_num)
    (ap := .scalar 10) (by simp [Spec.goodAperture]) (by norm_num [Spec.rim]) (0, 0) .mirror
  refine ⟨s, a, j, e, ?_⟩
  have hr : Reaches argsort 2 Heap.empty s.heap := TidyReaches.reaches argsort hb.ready.tidy
  have hlt : ∀ b ∈ [a], b < s.heap.size := by
    intro b hb'; simp only [List.mem_singleton] at hb'; rw [hb']; exact hb.new.2.1
  have hi := reaches_inv argsort empty_inv hr
  have hids3 := hids 3 le_rfl
  have hx := surfaceIds_spec hi 3 a hb.new.2.1 (i, x) (by rw [hids3]; simp)
  have hy := surfaceIds_spec hi 3 a hb.new.2.1 (j, y) (by rw [hids3]; simp)
  have hxy : x ≠ y := by
    rintro rfl
    exact hij (hx.2.1.trans hy.2.1.symm)
  have ok := scene_tracer_ok argsort hst.1 2 s hr [a] hlt 3 (by simp [hids3, hxy]) [fun _ => [dishCol]] 1 3 (by
    intro f hf c hc
    simp only [List.mem_singleton] at hf
    subst hf
    simp only [List.mem_singleton] at hc
    subst hc
    exact ⟨rfl, rfl, rfl, by simp [dishCol, Spec.axisRay, norm4, vector]⟩)
  set t := Tracer.new [fun _ => [dishCol]] ([a].map (s.component argsort 3)) 1 3 with ht
  obtain ⟨k, t', h, -⟩ := C26_terminates t (by simp [ht, Tracer.new]) (by simp [ht, Tracer.new])
    (fun s hs c hc => (ok.emits s hs c hc).1)
  -- the first hit
  obtain ⟨hmem, hrj, hri⟩ := h1 hst 5 2 0 (by simp [Spec.inAperture]; norm_num) (by norm_num) 3 le_rfl
  norm_num at hmem hrj hri
  have hfive : ((5 : ℝ) : EReal) ∈ (intersectObj argsort 3 s.heap a (Spec.axisRay (-1) 5 2 0)).1 := (hmem 5).2 (Or.inl rfl)
  obtain ⟨k0, n0, p0⟩ := first_label hst.1 hfive (by norm_num) (by
    intro v hv _
    rcases (hmem v).1 hv with rfl | rfl <;> norm_num)
  have hk0 : k0 = j := by
    obtain ⟨m, q1, q2⟩ := p0
    obtain ⟨x', p, -, hm', -, e', -⟩ := intersectObj_label argsort hst.1 s.heap _ 3 a m _ k0 q1 (EReal.coe_ne_top _) q2
    rw [hids3] at hm'
    simp only [List.mem_cons, List.not_mem_nil, or_false, Prod.mk.injEq] at hm'
    rcases hm' with ⟨h3, -⟩ | ⟨h3, -⟩
    · exfalso
      apply hri
      refine ⟨m, q1, ?_⟩
      rw [q2, e', h3]
    · rw [e', h3]
  subst hk0
  -- the reflected ray
  have hmv : (moved dishCol 5).ray = ⟨point 0 2 0, vector (-1) 0 0⟩ := by
    simp only [moved, dishCol, Spec.axisRay]
    congr 1
    funext l; fin_cases l <;> simp [point, vector]
  obtain ⟨g1, g2⟩ := h2 (moved dishCol 5) (by rw [hmv]; rfl) (by rw [hmv]; simp [point]; norm_num)
    (by rw [hmv]; simp [point, Spec.offAperture]; norm_num) (-1) (Or.inr rfl) (by rw [hmv])
  set c1 := Material.mirror.trace (surfaceNormal s.heap y) (moved dishCol 5) with hc1
  have hd1 : c1.ray.d = vector 0 (-1) 0 := by
    funext l
    have := congrFun g2 l
    change c1.ray.o l + _ * c1.ray.d l = _ at this
    rw [g1, hmv] at this
    fin_cases l
    · simp [point, vector] at this ⊢; norm_num at this; linarith
    · simp [point, vector] at this ⊢; norm_num at this; linarith
    · simp [point, vector] at this ⊢; norm_num at this; linarith
    · simp [point, vector] at this ⊢; norm_num at this; linarith
  have hj1 := Journey.next (t := t) (Journey.start (c0 := dishCol)) (not_extinct_of_unit (by simp [dishCol, Spec.axisRay, norm4, vector])) n0
    (f := fun c => (s.material y).trace (surfaceNormal s.heap y) c) (by simp [ht, Tracer.new, Scene.component, hids3])
  rw [hm] at hj1
  simp only [← hc1] at hj1
  set c2 := moved { c1 with generation := ((0 : ℕ) : ℝ) + 1 } t.offset with hc2
  have hray2 : c2.ray = ⟨point 0 (2 - 1e-6) 0, vector 0 (-1) 0⟩ := by
    have ho : c1.ray.o = point 0 2 0 := by rw [g1, hmv]
    simp only [hc2, moved, hd1, ho]
    congr 1
    funext l
    fin_cases l <;> simp [point, vector, ht, Tracer.new]
    ring
  have hat : ∀ v, c2.ray.at v 0 = 0 ∧ c2.ray.at v 1 = 2 - 1e-6 - v ∧ c2.ray.at v 2 = 0 := by
    intro v
    rw [hray2]
    simp only [Ray.at, point, vector]
    refine ⟨by simp, by simp; ring, by simp⟩
  obtain ⟨k1, n1, -⟩ := hb.entry hst (ray := c2.ray) (depth := 3) (d := 4 - 1e-6) (d' := 4.5)
    (by
      rw [hray2]
      refine ⟨rfl, rfl, ⟨Or.inl rfl, Or.inr ?_, Or.inl rfl⟩, Or.inr (Or.inl ?_)⟩
      · simp [vector]; norm_num
      · simp [vector])
    (by
      rw [hray2]
      exact ⟨Or.inr (by simp [vector]; norm_num), Or.inl (by simp [vector]; norm_num)⟩) le_rfl (by norm_num) (by norm_num)
    (by
      intro v v0 v1
      obtain ⟨e0, e1, e2⟩ := hat v
      rw [e0, e1, e2]
      refine Or.inr (Or.inr ?_)
      norm_num
      nlinarith)
    (by
      intro v v0 v1
      obtain ⟨e0, e1, e2⟩ := hat v
      rw [e0, e1, e2]
      refine ⟨?_, by norm_num, ?_⟩
      · simp only [Spec.inAperture]
        norm_num
        nlinarith
      · norm_num
        nlinarith)
  obtain ⟨r, hseg⟩ := segment_exists dishCol 5 j
  obtain ⟨r', hseg'⟩ := segment_exists c2 (4 - 1e-6) k1
  have he : Emitted t 0 dishCol := ⟨dishCol, rfl, by simp [dishCol]⟩
  refine ⟨k, t', r, r', h, (trace_iff ok h r).2 ⟨0, 0, fun _ => by simp [ht, Tracer.new], _, _, _, _, he, Journey.start,
      not_extinct_of_unit (by simp [dishCol, Spec.axisRay, norm4, vector]), n0, hseg⟩,
    (trace_iff ok h r').2 ⟨0, 1, fun _ => by simp [ht, Tracer.new], _, _, _, _, he, hj1,
      not_extinct_of_unit (by rw [hray2]; simp [norm4, vector]), n1, hseg'⟩, ⟨?_, ?_⟩, hseg.surface, ?_, ?_⟩
  · rw [hseg.id, hseg'.id]; rfl
  · rw [hseg.generation, hseg'.generation]; simp [hc2, moved, dishCol]
  · funext l
    rw [hseg.tilt]
    fin_cases l <;> simp [dishCol, Spec.axisRay, vector]
  · funext l
    rw [hseg'.tilt, hray2]
    fin_cases l <;> simp [vector]

end PyRayT
