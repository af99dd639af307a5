import Verif.Proofs.Reverse2
import Verif.Props.Focus

/-!
# Property C98: light goes back the way it came

A second trace, through the same components, of a ray sent back along the last row of a ray of a first trace.
-/

namespace PyRayT

open Classical Matrix Spec

/-- The row `r` and the next row `r'` of a ray can be gone backwards, as far as finding the surface is concerned: on the line of `r'` the
surface at the end of `r` is reported at the end of `r`, which is `offset` behind the start of `r'`; no other surface is reported there, and
none in between; and the components report the same points from both sides of the line. -/
structure Spec.Returns (cs : List Component) (offset : ℝ) (r r' : Row) : Prop where
  there : ∃ c ∈ cs, Reported (c.intersect (rowRay r')) (-offset) r.surface
  only : ∀ c ∈ cs, ∀ s, Reported (c.intersect (rowRay r')) (-offset) s → s = r.surface
  between : ∀ c ∈ cs, ∀ v : ℝ, -offset < v → v ≤ 0 → (v : EReal) ∉ (c.intersect (rowRay r')).1
  twoWay : ∀ c ∈ cs, TwoWay c (rowRay r')

/-- The material `f` turns the ray of `r'`, sent back to the end of `r`, into the ray of `r`, sent back. -/
def Spec.TurnsBack (f : Col → Col) (r r' : Row) : Prop :=
  ∀ b : Col, b.ray = ⟨r.finish, -r'.dir⟩ → b.index = r'.index → b.wavelength = r.wavelength →
    (f b).ray.d = -r.dir ∧ (f b).index = r.index

theorem twoWay_mem {c : Component} (hc : ComponentOk c) {r : Ray} (h : TwoWay c r) (T v : ℝ) :
    (v : EReal) ∈ (c.intersect (r.back T)).1 ↔ ((T - v : ℝ) : EReal) ∈ (c.intersect r).1 := by
  constructor
  · intro hm
    obtain ⟨s, hs⟩ := reported_of_mem (hc.len _) hm
    exact ((h T v s).1 hs).mem
  · intro hm
    obtain ⟨s, hs⟩ := reported_of_mem (hc.len _) hm
    exact ((h T v s).2 hs).mem

/-- the nearest surface, if all components agree on it -/
theorem nearest_of_agreed {cs : List Component} (hc : ∀ c ∈ cs, ComponentOk c) {ray : Ray} {d : ℝ} {s : ℤ} (h0 : 0 < d)
    (hle : ∀ c ∈ cs, ∀ h ∈ (c.intersect ray).1, 0 < h → (d : EReal) ≤ h) (hex : ∃ c ∈ cs, (d : EReal) ∈ (c.intersect ray).1)
    (hs : ∀ c ∈ cs, ∀ s', Reported (c.intersect ray) d s' → s' = s) : Nearest cs ray d s := by
  rcases hitOf_spec (fun c h => (hc c h).len) ray with ⟨hm, -⟩ | ⟨d', s', hn, -⟩
  · obtain ⟨c, h1, h2⟩ := hex
    exact absurd ⟨by exact_mod_cast h0, EReal.coe_lt_top _⟩ (hm c h1 _ h2)
  · have hn' := hn
    obtain ⟨p, m, k, c, i, e1, -, e3, -, e5⟩ := hn'
    have hcm := List.mem_of_getElem? e1
    have e : d' = d := by
      obtain ⟨c1, h1, h2⟩ := hex
      have a := m c1 h1 _ h2 (by exact_mod_cast h0)
      have b := hle c hcm _ (List.mem_of_getElem? e3) (by exact_mod_cast p)
      exact le_antisymm (by exact_mod_cast a) (by exact_mod_cast b)
    subst e
    rw [← hs c hcm s' ⟨i, e3, e5⟩]
    exact hn

/-- the way back along one row: the nearest surface is the one the row came from -/
theorem back_nearest {cs : List Component} (hc : ∀ c ∈ cs, ComponentOk c) {offset : ℝ} {r r' : Row} (hr : Returns cs offset r r') {T : ℝ} (hT : -offset < T)
    (hfree : ∀ c ∈ cs, ∀ v : ℝ, 0 < v → v < T → (v : EReal) ∉ (c.intersect (rowRay r')).1) :
    Nearest cs ((rowRay r').back T) (T + offset) r.surface := by
  have hv : T - (T + offset) = -offset := by ring
  refine nearest_of_agreed hc (by linarith) ?_ ?_ ?_
  · intro c hm h hh h0
    induction h with
    | bot => exact absurd h0 not_lt_bot
    | top => exact le_top
    | coe v =>
      by_contra hlt
      have hlt : v < T + offset := by exact_mod_cast not_le.1 hlt
      have h0 : 0 < v := by exact_mod_cast h0
      have hh' := (twoWay_mem (hc c hm) (hr.twoWay c hm) T v).1 hh
      by_cases hp : 0 < T - v
      · exact hfree c hm _ hp (by linarith) hh'
      · exact hr.between c hm _ (by linarith) (not_lt.1 hp) hh'
  · obtain ⟨c, hm, hs⟩ := hr.there
    refine ⟨c, hm, (twoWay_mem (hc c hm) (hr.twoWay c hm) T _).2 ?_⟩
    rw [hv]
    exact hs.mem
  · intro c hm s hs
    have := (hr.twoWay c hm T _ s).1 hs
    rw [hv] at this
    exact hr.only c hm s this

theorem dir_unit {r : Row} (h : r.tilt 0 ^ 2 + r.tilt 1 ^ 2 + r.tilt 2 ^ 2 = 1) : dot4 r.dir r.dir = 1 := by
  rw [← h]
  simp [dot4, Row.dir, vector]
  try ring

/-- what the row of the way back looks like -/
theorem back_row {b c0 : Col} {k : ℕ} (w : OnTheWay c0 k b) (hx : ¬ Extinct b) {r r' x : Row} {T offset : ℝ} {s : ℤ}
    (hray : b.ray = (rowRay r').back T) (hfin : (rowRay r').at (-offset) = r.finish) (hseg : Segment b (T + offset) s x) :
    (∀ i, x.stop i = r.stop i) ∧ (∀ i, x.tilt i = -r'.tilt i) := by
  obtain ⟨h1, h2, h3⟩ := segment_ray w hx hseg
  have hd : ∀ i : Fin 3, b.ray.d i.castSucc = -r'.tilt i := by
    intro i
    rw [hray]
    fin_cases i <;> rfl
  refine ⟨fun i => ?_, fun i => by rw [h2, hd]⟩
  have e : b.ray.at (T + offset) = r.finish := by
    rw [hray, Ray.back_at, ← hfin]
    congr 1
    ring
  have := congrFun e i.castSucc
  rw [hseg.stop i]
  rw [show b.ray.o i.castSucc + (T + offset) * b.ray.d i.castSucc = b.ray.at (T + offset) i.castSucc from rfl, this]
  fin_cases i <;> rfl

/-- **C98.** Let a ray of a first trace have the rows `rows 0`, ..., `rows n`. Send a ray back from a point of the last row (at the distance `T`
from its start, not beyond its end), with the index and the wavelength of that row and any intensity, in a second trace through the same
components with the same offset. If each pair of consecutive rows can be gone backwards (`Returns` for the surfaces, `TurnsBack` for the materials),
then the second ray meets the surfaces of the first one in the opposite order at the same points, goes between them in the opposite direction with
the same index, and finally goes off in the opposite direction of the first row, from its end (offset included). -/
theorem C98_retraces {k1 k2 : ℕ} {t1 t2 f1 f2 : Tracer} (ok1 : TracerOk t1) (ok2 : TracerOk t2) (hcomp : t2.components = t1.components)
    (hoff : t2.offset = t1.offset) (h0 : 0 ≤ t1.offset) (h1 : Tracer.Traces k1 t1 f1) (h2 : Tracer.Traces k2 t2 f2) {n : ℕ} (hlim : 0 < t2.limit → (n : ℤ) ≤ t2.limit)
    {i j : ℕ} {rows : ℕ → Row} (hrows : ∀ g ≤ n, rows g ∈ f1.frame ∧ (rows g).id = i ∧ (rows g).generation = g)
    (hret : ∀ g < n, Returns t1.components t1.offset (rows g) (rows (g + 1)))
    (hmat : ∀ g < n, ∀ f, ((rows g).surface, f) ∈ t1.lut → TurnsBack f (rows g) (rows (g + 1)))
    {b : Col} (hb : Emitted t2 j b) {T : ℝ} (hray : b.ray = (rowRay (rows n)).back T) (hindex : b.index = (rows n).index)
    (hwave : b.wavelength = (rows n).wavelength) (hT : -t1.offset < T)
    (hend : ∃ d, T ≤ d ∧ ∀ m, (rows n).stop m = (rows n).start m + d * (rows n).tilt m) :
    (∀ g < n, ∃ x ∈ f2.frame, x.id = j ∧ x.generation = ((n - 1 - g : ℕ) : ℝ) ∧ x.surface = (rows g).surface ∧ x.stop = (rows g).stop ∧
      x.tilt = -(rows (g + 1)).tilt ∧ x.index = (rows (g + 1)).index ∧ x.wavelength = (rows g).wavelength ∧ x.intensity = b.intensity) ∧
    (0 < n → ∀ x ∈ f2.frame, x.id = j → x.generation = n → x.tilt = -(rows 0).tilt ∧ x.index = (rows 0).index ∧
      ∀ m, x.start m = (rows 0).stop m - t1.offset * (rows 0).tilt m) := by
  have hlut : t2.lut = t1.lut := by rw [ok1.lut, ok2.lut, hcomp]
  -- the rows of the first ray
  have hfin : ∀ g < n, (rowRay (rows (g + 1))).at (-t1.offset) = (rows g).finish ∧ (rows (g + 1)).wavelength = (rows g).wavelength := by
    intro g hg
    obtain ⟨a1, a2, a3⟩ := hrows g hg.le
    obtain ⟨b1, b2, b3⟩ := hrows (g + 1) hg
    obtain ⟨c1, -, c3, -⟩ := C28_connected ok1 h1 _ _ a1 b1 (by rw [a2, b2]) (by rw [a3, b3]; push_cast; rfl)
    refine ⟨?_, c3⟩
    funext m
    have e : ∀ m : Fin 3, (rowRay (rows (g + 1))).at (-t1.offset) m.castSucc = (rows g).stop m := by
      intro m
      have := c1 m
      have e1 : (rowRay (rows (g + 1))).at (-t1.offset) m.castSucc = (rows (g + 1)).start m + -t1.offset * (rows (g + 1)).tilt m := by
        fin_cases m <;> rfl
      rw [e1, this]
      ring
    fin_cases m
    · exact e 0
    · exact e 1
    · exact e 2
    · simp [rowRay, Ray.at, Row.finish, point, vector]
  have hseg : ∀ g ≤ n, ∃ d, 0 < d ∧ (rowRay (rows g)).at d = (rows g).finish ∧
      ∀ c ∈ t1.components, ∀ v : ℝ, 0 < v → v < d → (v : EReal) ∉ (c.intersect (rowRay (rows g))).1 := by
    intro g hg
    obtain ⟨d, hd0, hn, e⟩ := row_arrives ok1 h1 (hrows g hg).1
    refine ⟨d, hd0, e, fun c hc v hv hlt hm => ?_⟩
    exact absurd (hn.2.1 c hc _ hm (by exact_mod_cast hv)) (not_le.2 (by exact_mod_cast hlt))
  -- the way back
  have way : ∀ k ≤ n, ∃ (b' : Col) (T' : ℝ), Journey t2 b k b' ∧ norm4 b'.ray.d = 1 ∧ b'.ray = (rowRay (rows (n - k))).back T' ∧
      b'.index = (rows (n - k)).index ∧ -t1.offset < T' ∧ b'.wavelength = (rows (n - k)).wavelength ∧
      (∀ c ∈ t1.components, ∀ v : ℝ, 0 < v → v < T' → (v : EReal) ∉ (c.intersect (rowRay (rows (n - k)))).1) ∧
      (0 < k → (rowRay (rows (n - k))).at T' = fun m => (rows (n - k)).finish m - t1.offset * (rows (n - k)).dir m) := by
    intro k
    induction k with
    | zero =>
      intro _
      obtain ⟨d, hd0, e, hfree⟩ := hseg n le_rfl
      refine ⟨b, T, .start, (ok2.emitted hb).2.2.2, hray, hindex, hT, hwave, ?_, fun h => absurd h (lt_irrefl _)⟩
      intro c hc v hv hlt
      obtain ⟨d', hle, hd'⟩ := hend
      have hdd : d' = d := by
        have hu := (C35_unit_tilts ok1 h1 _ (hrows n le_rfl).1).1
        have : ∀ m : Fin 3, (d - d') * (rows n).tilt m = 0 := by
          intro m
          have e1 := congrFun e m.castSucc
          have e2 := hd' m
          have e3 : (rowRay (rows n)).at d m.castSucc = (rows n).start m + d * (rows n).tilt m := by fin_cases m <;> rfl
          have e4 : (rows n).finish m.castSucc = (rows n).stop m := by fin_cases m <;> rfl
          rw [e3, e4] at e1
          linarith
        by_contra hne
        have hz : ∀ m : Fin 3, (rows n).tilt m = 0 := fun m => by
          rcases mul_eq_zero.1 (this m) with h | h
          · exact absurd (by linarith) hne
          · exact h
        rw [hz 0, hz 1, hz 2] at hu
        norm_num at hu
      exact hfree c hc v hv (by linarith)
    | succ k ih =>
      intro hk
      obtain ⟨b', T', hj, hu, e1, e2, e3, e4, e5, -⟩ := ih (by omega)
      have en : n - k = (n - (k + 1)) + 1 := by omega
      rw [en] at e1 e2 e4 e5
      set g := n - (k + 1) with hg
      have hgn : g < n := by omega
      have hnear : Nearest t2.components b'.ray (T' + t1.offset) (rows g).surface := by
        rw [hcomp, e1]
        exact back_nearest ok1.comps (hret g hgn) e3 e5
      have hx : ¬ Extinct b' := not_extinct_of_unit hu
      -- the material
      obtain ⟨f, hf⟩ : ∃ f, ((rows g).surface, f) ∈ t1.lut := by
        obtain ⟨a1, a2, a3⟩ := hrows g hgn.le
        obtain ⟨b1, b2, b3⟩ := hrows (g + 1) hgn
        obtain ⟨-, -, -, f, hf, -⟩ := C28_connected ok1 h1 _ _ a1 b1 (by rw [a2, b2]) (by rw [a3, b3]; push_cast; rfl)
        exact ⟨f, hf⟩
      have hpos : (moved b' (T' + t1.offset)).ray = ⟨(rows g).finish, -(rows (g + 1)).dir⟩ := by
        have e : b'.ray.at (T' + t1.offset) = (rows g).finish := by
          rw [e1, Ray.back_at, ← (hfin g hgn).1]
          congr 1
          ring
        show (⟨b'.ray.at (T' + t1.offset), b'.ray.d⟩ : Ray) = _
        rw [e, e1]
        rfl
      obtain ⟨m1, m2⟩ := hmat g hgn f hf (moved b' (T' + t1.offset)) hpos e2 (e4.trans (hfin g hgn).2)
      have mo := ok1.materials _ hf
      obtain ⟨d, hd0, e, hfree⟩ := hseg g hgn.le
      have hat : (rowRay (rows g)).at (d - t1.offset) = fun m => (rows g).finish m - t1.offset * (rows g).dir m := by
        funext m
        have := congrFun e m
        rw [← this]
        simp only [Ray.at]
        show _ + (d - t1.offset) * (rows g).dir m = _ + d * (rows g).dir m - _
        ring
      refine ⟨_, d - t1.offset, Journey.next hj hx hnear (hlut ▸ hf), ?_, ?_, ?_, by linarith, ?_, ?_, fun _ => hat⟩
      · show norm4 (f (moved b' (T' + t1.offset))).ray.d = 1
        rw [m1]
        have hu := dir_unit (C35_unit_tilts ok1 h1 _ (hrows g hgn.le).1).1
        rw [norm4_eq_one, dot4_neg_left, dot4_neg_right, neg_neg, hu]
      · show (⟨fun m => (f (moved b' (T' + t1.offset))).ray.o m + t2.offset * (f (moved b' (T' + t1.offset))).ray.d m,
          (f (moved b' (T' + t1.offset))).ray.d⟩ : Ray) = ⟨(rowRay (rows g)).at (d - t1.offset), -(rows g).dir⟩
        rw [m1, mo.origin, hpos, hat, hoff]
        congr 1
        funext m
        simp only [Pi.neg_apply]
        ring
      · exact m2
      · show (f (moved b' (T' + t1.offset))).wavelength = _
        rw [mo.wavelength]
        exact e4.trans (hfin g hgn).2
      · intro c hc v hv hlt
        exact hfree c hc v hv (by linarith)
  constructor
  · intro g hg
    obtain ⟨b', T', hj, hu, e1, e2, e3, e4, e5, -⟩ := way (n - 1 - g) (by omega)
    have en : n - (n - 1 - g) = g + 1 := by omega
    rw [en] at e1 e2 e4 e5
    have hx : ¬ Extinct b' := not_extinct_of_unit hu
    have hnear : Nearest t2.components b'.ray (T' + t1.offset) (rows g).surface := by
      rw [hcomp, e1]
      exact back_nearest ok1.comps (hret g hg) e3 e5
    obtain ⟨x, hxs⟩ := segment_exists b' (T' + t1.offset) (rows g).surface
    have w := hj.onTheWay ok2 hb
    obtain ⟨y1, y2⟩ := back_row w hx e1 (hfin g hg).1 hxs
    refine ⟨x, (trace_iff ok2 h2 x).2 ⟨j, n - 1 - g, fun hp => ?_, b, b', _, _, hb, hj, hx, hnear, hxs⟩, ?_, ?_, hxs.surface, funext y1, funext y2,
      hxs.index.trans e2, (hxs.wavelength.trans e4).trans (hfin g hg).2, hxs.intensity.trans w.intensity⟩
    · have := hlim hp
      omega
    · rw [hxs.id, w.id, hb.id]
    · rw [hxs.generation, w.generation]
  · intro hn x hxm hid hgen
    obtain ⟨b', T', hj, hu, e1, e2, e3, e4, e5, e6⟩ := way n le_rfl
    rw [Nat.sub_self] at e1 e2 e4 e5 e6
    obtain ⟨i', g', -, hl⟩ := (trace_iff ok2 h2 x).1 hxm
    have hi' : i' = j := by
      have := (hl.spec ok2).2
      rw [hid] at this
      exact_mod_cast this.symm
    have hg' : g' = n := by
      have := (hl.spec ok2).1
      rw [hgen] at this
      exact_mod_cast this.symm
    subst hi' hg'
    obtain ⟨c0, c, d, s, he, hj', hx', hn', hs'⟩ := hl
    obtain rfl := he.unique hb
    obtain rfl := hj.unique ok2 hj'
    obtain ⟨z1, z2, z3⟩ := segment_ray (hj.onTheWay ok2 hb) hx' hs'
    refine ⟨?_, hs'.index.trans e2, fun m => ?_⟩
    · funext m
      rw [z2, e1]
      fin_cases m <;> rfl
    · rw [hs'.start, e1]
      show (rowRay (rows 0)).at T' m.castSucc = _
      rw [e6 hn]
      fin_cases m <;> rfl

/-! ### the materials -/

theorem unit_div {u : Vec4} (h : norm4 u = 1) : (fun i => u i / norm4 u) = u := by
  funext i; rw [h, div_one]

/-- what the glass does to a ray it undoes to the ray sent back, total reflection included -/
theorem refract_back {u n : Vec4} {n1 n2 : ℝ} (hu : norm4 u = 1) (hn : norm4 n = 1) (h1 : 0 < n1) (h2 : 0 < n2)
    (hside : (dot4 u n < 0 ∧ n1 = 1) ∨ (0 < dot4 u n ∧ n1 = n2)) :
    (refract (-(refract u n n1 n2 1).2.1) n (refract u n n1 n2 1).2.2 n2 1).2 = (-u, n1) := by
  have hu0 : u ≠ 0 := by rintro rfl; simp [norm4] at hu
  have hgraze : dot4 u n ≠ 0 := by rcases hside with h | h; exacts [h.1.ne, h.1.ne']
  by_cases hlt : n1 * Spec.sinTo u n < Spec.farIndex u n n2 1
  · have := C24_reversible u n n1 n2 1 hu0 hn h1 h2 one_pos hgraze hside
    simp only [unit_div hu] at this
    exact Prod.ext (this hlt).1 (this hlt).2
  · have hlt := not_lt.1 hlt
    have t := (C23_total_internal_reflection u n n1 n2 1 hu0 hn h1 h2 one_pos).1
    simp only [unit_div hu, mul_one] at t
    obtain ⟨t1, t2⟩ := t hlt
    set w := (refract u n n1 n2 1).2.1 with hw
    have ew : w = fun i => u i - 2 * dot4 u n * n i := funext fun i => by rw [t1, hu, div_one]
    have hn' := norm4_eq_one.1 hn
    have hu' := norm4_eq_one.1 hu
    have hwn : dot4 w n = -dot4 u n := by
      rw [ew]
      simp only [dot4] at hn' ⊢
      linear_combination (-2 * (u 0 * n 0 + u 1 * n 1 + u 2 * n 2 + u 3 * n 3)) * hn'
    have hww : dot4 w w = 1 := by
      rw [ew]
      simp only [dot4] at hn' hu' ⊢
      linear_combination hu' + 4 * (u 0 * n 0 + u 1 * n 1 + u 2 * n 2 + u 3 * n 3) ^ 2 * hn'
    have hb : norm4 (-w) = 1 := by rw [norm4_eq_one, dot4_neg_left, dot4_neg_right, neg_neg, hww]
    have hbn : dot4 (-w) n = dot4 u n := by rw [dot4_neg_left, hwn, neg_neg]
    have hb0 : -w ≠ 0 := by intro h; rw [h] at hb; simp [norm4] at hb
    have t' := (C23_total_internal_reflection (-w) n n1 n2 1 hb0 hn h1 h2 one_pos).1
    simp only [unit_div hb, mul_one] at t'
    have ef : Spec.farIndex (-w) n n2 1 = Spec.farIndex u n n2 1 := by unfold Spec.farIndex; rw [hbn]
    have es : Spec.sinTo (-w) n = Spec.sinTo u n := by unfold Spec.sinTo; rw [hbn]
    rw [ef, es, hbn] at t'
    obtain ⟨t3, t4⟩ := t' hlt
    rw [t2]
    refine Prod.ext (funext fun i => ?_) t4
    rw [t3 i, hb, div_one, ew]
    simp only [Pi.neg_apply]
    ring

section
variable {argsort : List EReal → List ℕ} {fuel : ℕ} {s : Scene} {objs : List ℕ} {depth : ℕ}

/-- Conditions under which the rows `r` and `r'` of a ray can be gone backwards, for objects of a scene: the tolerances do not misjudge the line
of `r'`, which meets no two surfaces in the same point; on this line the surface at the end of `r` is reported there (1e-6 behind the start of `r'`) and
no surface is reported in between; and the ray of `r` arrives, if at a glass, not grazing and with the index of its side of the surface. -/
structure Spec.Crossing (argsort : List EReal → List ℕ) (s : Scene) (objs : List ℕ) (depth : ℕ) (r r' : Row) : Prop where
  good : GoodRay (rowRay r')
  seen : ∀ a ∈ objs, ∃ S, Represents s.heap a S ∧ S.All fun p w => Affine w ∧ Sees p ((rowRay r').map w⁻¹)
  apart : (objs.flatMap (surfaceIds depth s.heap)).Pairwise fun x y => ∀ v : ℝ,
    (v : EReal) ∈ (intersectObj argsort 1 s.heap x.2 (rowRay r')).1 → (v : EReal) ∉ (intersectObj argsort 1 s.heap y.2 (rowRay r')).1
  there : ∃ a ∈ objs, Reported (intersectObj argsort depth s.heap a (rowRay r')) (-1e-6) r.surface
  between : ∀ a ∈ objs, ∀ v : ℝ, -1e-6 < v → v ≤ 0 → (v : EReal) ∉ (intersectObj argsort depth s.heap a (rowRay r')).1
  side : ∀ a ∈ objs, ∀ x id g, (id, x) ∈ surfaceIds depth s.heap a → r.surface = (id : ℤ) → s.material x = .glass g →
    (dot4 r.dir (surfaceNormal s.heap x r.finish) < 0 ∧ r.index = 1) ∨
    (0 < dot4 r.dir (surfaceNormal s.heap x r.finish) ∧ r.index = g.indexAt r.wavelength)

/-- **C98, components.** An object of any history, whatever it is composed of, reports the same points with the same surfaces from both sides
of a line, if the line meets no two of its surfaces in the same point (and the tolerances do not misjudge it). -/
theorem C98_twoWay (ha : IsStableArgsort argsort) (hre : Reaches argsort fuel Heap.empty s.heap) {a : ℕ} (hlt : a < s.heap.size) {ray : Ray}
    (hray : GoodRay ray) {S : Solid} (hrep : Represents s.heap a S) (hall : S.All fun p w => Affine w ∧ Sees p (ray.map w⁻¹))
    (hties : NoTies argsort depth s.heap a ray) : TwoWay (s.component argsort depth a) ray := fun T v k =>
  (intersectObj_mirrored argsort ha hre hray T hrep hlt hall depth hties).label v k

theorem Spec.Crossing.returns (ha : IsStableArgsort argsort) (hre : Reaches argsort fuel Heap.empty s.heap) (hlt : ∀ a ∈ objs, a < s.heap.size)
    {r r' : Row} (h : Crossing argsort s objs depth r r') : Returns (objs.map (s.component argsort depth)) 1e-6 r r' where
  there := by
    obtain ⟨a, h1, h2⟩ := h.there
    exact ⟨_, List.mem_map.2 ⟨a, h1, rfl⟩, h2⟩
  only := by
    intro c hc k hk
    obtain ⟨b, hb, rfl⟩ := List.mem_map.1 hc
    obtain ⟨a, h1, h2⟩ := h.there
    have leaf : ∀ b ∈ objs, ∀ k, Reported (intersectObj argsort depth s.heap b (rowRay r')) (-1e-6) k →
        ∃ x ∈ objs.flatMap (surfaceIds depth s.heap), k = (x.1 : ℤ) ∧ ((-1e-6 : ℝ) : EReal) ∈ (intersectObj argsort 1 s.heap x.2 (rowRay r')).1 := by
      rintro b hb k ⟨i, e1, e2⟩
      obtain ⟨x, p, -, hm, hk, e, hm2⟩ := intersectObj_label argsort ha.1 s.heap (rowRay r') depth b i _ k e1 (EReal.coe_ne_top _) e2
      refine ⟨_, List.mem_flatMap.2 ⟨b, hb, hm⟩, e, ?_⟩
      rw [intersectObj, hk]
      exact hm2
    obtain ⟨x, hx, ex, mx⟩ := leaf b hb k hk
    obtain ⟨y, hy, ey, my⟩ := leaf a h1 _ h2
    have hxy : x = y := by
      by_contra hne
      haveI : Std.Symm fun x y : ℕ × ℕ => ∀ v : ℝ, (v : EReal) ∈ (intersectObj argsort 1 s.heap x.2 (rowRay r')).1 →
        (v : EReal) ∉ (intersectObj argsort 1 s.heap y.2 (rowRay r')).1 := ⟨fun x y h v h1 h2 => h v h2 h1⟩
      exact h.apart.forall hx hy hne _ mx my
    rw [ex, ey, hxy]
  between := by
    intro c hc
    obtain ⟨b, hb, rfl⟩ := List.mem_map.1 hc
    exact h.between b hb
  twoWay := by
    intro c hc
    obtain ⟨b, hb, rfl⟩ := List.mem_map.1 hc
    obtain ⟨S, h1, h2⟩ := h.seen b hb
    exact C98_twoWay ha hre (hlt b hb) h.good h1 h2 ((List.pairwise_flatMap.1 h.apart).1 b hb)

/-- **C98, scenes.** Rays in a scene of objects of any history with the built-in materials (mirrors and glasses; total reflection included) go
back the way they came. -/
theorem C98_scene (ha : IsStableArgsort argsort) {sources sources' : List (ℕ → List Col)} {m m' : ℕ} {limit limit' : ℤ}
    (b : Bench argsort fuel s objs depth sources m)
    (hem : ∀ f ∈ sources', ∀ c ∈ f m', c.generation = 0 ∧ c.ray.o 3 = 1 ∧ c.ray.d 3 = 0 ∧ norm4 c.ray.d = 1)
    {k1 k2 : ℕ} {f1 f2 : Tracer} (h1 : Tracer.Traces k1 (Tracer.new sources (objs.map (s.component argsort depth)) m limit) f1)
    (h2 : Tracer.Traces k2 (Tracer.new sources' (objs.map (s.component argsort depth)) m' limit') f2)
    {n : ℕ} (hlim : 0 < limit' → (n : ℤ) ≤ limit') {i j : ℕ} {rows : ℕ → Row}
    (hrows : ∀ g ≤ n, rows g ∈ f1.frame ∧ (rows g).id = i ∧ (rows g).generation = g)
    (hcross : ∀ g < n, Crossing argsort s objs depth (rows g) (rows (g + 1)))
    {c : Col} (hc : (sources'.flatMap fun f => f m')[j]? = some c) {T : ℝ} (hray : c.ray = (rowRay (rows n)).back T) (hindex : c.index = (rows n).index)
    (hwave : c.wavelength = (rows n).wavelength) (hT : -1e-6 < T)
    (hend : ∃ d, T ≤ d ∧ ∀ q, (rows n).stop q = (rows n).start q + d * (rows n).tilt q) :
    (∀ g < n, ∃ x ∈ f2.frame, x.id = j ∧ x.generation = ((n - 1 - g : ℕ) : ℝ) ∧ x.surface = (rows g).surface ∧ x.stop = (rows g).stop ∧
      x.tilt = -(rows (g + 1)).tilt ∧ x.index = (rows (g + 1)).index ∧ x.wavelength = (rows g).wavelength ∧ x.intensity = c.intensity) ∧
    (0 < n → ∀ x ∈ f2.frame, x.id = j → x.generation = n → x.tilt = -(rows 0).tilt ∧ x.index = (rows 0).index ∧
      ∀ q, x.start q = (rows 0).stop q - 1e-6 * (rows 0).tilt q) := by
  have hre := b.history.reaches
  have ok1 := b.ok ha.1 limit
  have ok2 := scene_tracer_ok argsort ha.1 fuel s hre objs b.exist depth b.distinct sources' m' limit' hem
  refine C98_retraces (b := { c with id := (j : ℝ) }) ok1 ok2 rfl rfl (by show (0 : ℝ) ≤ 1e-6; norm_num) h1 h2 hlim hrows
    (fun g hg => (hcross g hg).returns ha hre b.exist) ?_ ⟨c, hc, rfl⟩ hray hindex hwave hT hend
  intro g hg f hf col e1 e2 e3
  obtain ⟨a1, a2, a3⟩ := hrows g hg.le
  obtain ⟨b1, b2, b3⟩ := hrows (g + 1) hg
  have hfol : Follows (rows g) (rows (g + 1)) := ⟨by rw [a2, b2], by rw [a3, b3]; push_cast; rfl⟩
  -- the surface
  obtain ⟨c', hc', hfc⟩ := List.mem_flatMap.1 hf
  obtain ⟨a, haa, rfl⟩ := List.mem_map.1 hc'
  obtain ⟨e, he, hfe⟩ := List.mem_map.1 hfc
  simp only [Prod.mk.injEq] at hfe
  obtain ⟨hs, rfl⟩ := hfe
  obtain ⟨hn, hidx, hint⟩ := b.optics ha.1 h1 a1 b1 hfol haa he hs.symm
  have hu := b.unit ha.1 h1 a1
  obtain ⟨-, -, -, f', hf', k1, k2⟩ := C28_connected ok1 h1 _ _ a1 b1 hfol.1 hfol.2
  have hff : f' = fun c => (s.material e.2).trace (surfaceNormal s.heap e.2) c := lut_unique ok1.nodup hf' hf
  subst hff
  set nn := surfaceNormal s.heap e.2 (rows g).finish with hnn
  cases hmat : s.material e.2 with
  | absorber =>
    rw [hmat] at hint
    exact hint.elim
  | mirror =>
    rw [hmat] at hint
    obtain ⟨w1, w2⟩ := hint
    constructor
    · funext q
      show col.ray.d q - 2 * surfaceNormal s.heap e.2 col.ray.o q * dot4 col.ray.d (surfaceNormal s.heap e.2 col.ray.o) = _
      rw [e1]
      show -(rows (g + 1)).dir q - 2 * nn q * dot4 (-(rows (g + 1)).dir) nn = -(rows g).dir q
      have ed : dot4 (rows (g + 1)).dir nn = -dot4 (rows g).dir nn := by
        have : (rows (g + 1)).dir = fun q => (rows g).dir q - 2 * dot4 (rows g).dir nn * nn q := funext w1
        rw [this]
        simp only [dot4] at hn ⊢
        linear_combination (-2 * ((rows g).dir 0 * nn 0 + (rows g).dir 1 * nn 1 + (rows g).dir 2 * nn 2 + (rows g).dir 3 * nn 3)) * hn
      rw [dot4_neg_left, ed, w1 q]
      ring
    · show col.index = _
      rw [e2, w2]
  | glass gl =>
    have hglass := b.glass_pos ha.1 h1 a1 haa he hmat
    have key := refract_back (norm4_eq_one.2 hu) (norm4_eq_one.2 hn) hidx hglass ((hcross g hg).side a haa _ _ gl he hs.symm hmat)
    simp only [hmat, Material.trace] at k1 k2
    have k1 : (rows (g + 1)).dir = (refract (rows g).dir nn (rows g).index (gl.indexAt (rows g).wavelength) 1).2.1 := k1
    have k2 : (rows (g + 1)).index = (refract (rows g).dir nn (rows g).index (gl.indexAt (rows g).wavelength) 1).2.2 := k2
    rw [← k1, ← k2] at key
    constructor
    · show (refract col.ray.d (surfaceNormal s.heap e.2 col.ray.o) col.index (gl.indexAt col.wavelength) 1).2.1 = _
      rw [e1, e2, e3]
      exact congrArg Prod.fst key
    · show (refract col.ray.d (surfaceNormal s.heap e.2 col.ray.o) col.index (gl.indexAt col.wavelength) 1).2.2 = _
      rw [e1, e2, e3]
      exact congrArg Prod.snd key

end

/-- the columns of the ray in the spherical mirror -/
theorem resonator_columns (argsort : List EReal → List ℕ) (limit : ℤ) (g : ℕ) :
    Journey (ballTracer argsort .mirror 0 1 100 limit) (axisCol 0 1 100 0) (g + 1) (axisCol ((-1) ^ g * (1 - 1e-6)) ((-1) ^ (g + 1)) 100 (g + 1)) := by
  induction g with
  | zero =>
    have hσ : (1 : ℝ) ^ 2 = 1 := by norm_num
    have := (Journey.start (t := ballTracer argsort .mirror 0 1 100 limit) (c0 := axisCol 0 1 100 0)).next (not_extinct_of_unit (axis_norm hσ))
      (ball_nearest argsort .mirror hσ (by simp) 0) (ballTracer_lut argsort .mirror 0 1 100 limit)
    have hm := ball_mirror hσ (z := 0) (by simp) 100 0 1e-6
    have e : moved { (fun c => Material.mirror.trace (surfaceNormal (ball .mirror).heap 0) c) (moved (axisCol 0 1 100 0) (1 - 1 * 0)) with
        generation := ((0 : ℕ) : ℝ) + 1 } (ballTracer argsort .mirror 0 1 100 limit).offset = axisCol (1 * (1 - 1e-6)) (-1) 100 (0 + 1) := hm
    rw [e] at this
    simpa using this
  | succ g ih =>
    have hσ : ((-1 : ℝ) ^ (g + 1)) ^ 2 = 1 := by rw [← pow_mul, mul_comm, pow_mul]; norm_num
    have hz : |(-1 : ℝ) ^ g * (1 - 1e-6)| < 1 := by
      rw [abs_mul, abs_pow, abs_neg, abs_one, one_pow, one_mul, abs_lt]
      norm_num
    have := ih.next (not_extinct_of_unit (axis_norm hσ)) (ball_nearest argsort .mirror hσ hz 0) (ballTracer_lut argsort .mirror 0 1 100 limit)
    have hm := ball_mirror hσ hz 100 (g + 1) 1e-6
    have e : moved { (fun c => Material.mirror.trace (surfaceNormal (ball .mirror).heap 0) c)
          (moved (axisCol ((-1) ^ g * (1 - 1e-6)) ((-1) ^ (g + 1)) 100 (g + 1)) (1 - (-1) ^ (g + 1) * ((-1) ^ g * (1 - 1e-6)))) with
        generation := ((g + 1 : ℕ) : ℝ) + 1 } (ballTracer argsort .mirror 0 1 100 limit).offset =
        axisCol ((-1) ^ (g + 1) * (1 - 1e-6)) (-(-1) ^ (g + 1)) 100 (g + 1 + 1) := hm
    rw [e] at this
    rw [show (-1 : ℝ) ^ (g + 1 + 1) = -(-1) ^ (g + 1) by ring]
    exact this

set_option maxHeartbeats 1000000 in
/-- non-vacuity of C98: a ray bounces twice in a spherical mirror; sent back from the start of its third row, it meets the mirror in the
same two points in the opposite order. -/
example (argsort : List EReal → List ℕ) (ha : IsStableArgsort argsort) : ∃ (k1 k2 : ℕ) (f1 f2 : Tracer) (rows : ℕ → Row),
    Tracer.Traces k1 (ballTracer argsort .mirror 0 1 100 3) f1 ∧ Tracer.Traces k2 (ballTracer argsort .mirror (-(1 - 1e-6)) (-1) 50 3) f2 ∧
    (∀ g < 2, rows g ∈ f1.frame ∧ (rows g).generation = g ∧
      ∃ x ∈ f2.frame, x.generation = ((2 - 1 - g : ℕ) : ℝ) ∧ x.surface = (rows g).surface ∧ x.stop = (rows g).stop) ∧
    (rows 0).stop = ![0, 0, 1] ∧ (rows 1).stop = ![0, 0, -1] := by
  have hσ : (1 : ℝ) ^ 2 = 1 := by norm_num
  have hσ' : (-1 : ℝ) ^ 2 = 1 := by norm_num
  have ok1 := ballTracer_ok argsort ha.1 .mirror (z := 0) hσ 100 3
  have ok2 := ballTracer_ok argsort ha.1 .mirror (z := -(1 - 1e-6)) hσ' 50 3
  obtain ⟨k1, f1, h1, -⟩ := C26_terminates (ballTracer argsort .mirror 0 1 100 3) (by simp [ballTracer, Tracer.new])
    (by simp [ballTracer, Tracer.new]) (fun s hs c hc => (ok1.emits s hs c hc).1)
  obtain ⟨k2, f2, h2, -⟩ := C26_terminates (ballTracer argsort .mirror (-(1 - 1e-6)) (-1) 50 3) (by simp [ballTracer, Tracer.new])
    (by simp [ballTracer, Tracer.new]) (fun s hs c hc => (ok2.emits s hs c hc).1)
  -- the rows of the first ray
  have hcol : ∀ g : ℕ, ∃ z σ, σ ^ 2 = 1 ∧ |z| < 1 ∧ Journey (ballTracer argsort .mirror 0 1 100 3) (axisCol 0 1 100 0) g (axisCol z σ 100 g) ∧
      (0 < g → -(σ * z) - 1 = -1e-6) ∧ (g = 0 → z = 0 ∧ σ = 1) ∧ (g = 1 → z = 1 - 1e-6 ∧ σ = -1) ∧ (g = 2 → z = -(1 - 1e-6) ∧ σ = 1) := by
    intro g
    rcases g with _ | g
    · exact ⟨0, 1, hσ, by simp, .start, by simp, by simp, by simp, by simp⟩
    · refine ⟨_, _, ?_, ?_, resonator_columns argsort 3 g, ?_, by simp, ?_, ?_⟩
      · rw [← pow_mul, mul_comm, pow_mul]; norm_num
      · rw [abs_mul, abs_pow, abs_neg, abs_one, one_pow, one_mul, abs_lt]
        norm_num
      · intro _
        have : ((-1 : ℝ) ^ g) ^ 2 = 1 := by rw [← pow_mul, mul_comm, pow_mul]; norm_num
        rw [pow_succ]
        linear_combination (1 - 1e-6) * this
      · intro h
        have : g = 0 := by omega
        subst this
        norm_num
      · intro h
        have : g = 1 := by omega
        subst this
        norm_num
  choose z σ c1 c2 c3 c4 c5 c6 c7 using hcol
  choose rows hrows using fun g => segment_exists (axisCol (z g) (σ g) 100 g) (1 - σ g * z g) 0
  have hl : ∀ g, Leaves (ballTracer argsort .mirror 0 1 100 3) 0 g (rows g) := fun g =>
    ⟨_, _, _, _, ballTracer_emitted argsort _ _ _ _ _, c3 g, not_extinct_of_unit (axis_norm (c1 g)), ball_nearest argsort .mirror (c1 g) (c2 g) 0, hrows g⟩
  have hmem : ∀ g ≤ 2, rows g ∈ f1.frame ∧ (rows g).id = ((0 : ℕ) : ℝ) ∧ (rows g).generation = g := by
    intro g hg
    refine ⟨(trace_iff ok1 h1 _).2 ⟨0, g, fun _ => ?_, hl g⟩, ((hl g).spec ok1).2, ((hl g).spec ok1).1⟩
    show (g : ℤ) < 3
    exact_mod_cast Nat.lt_succ_of_le hg
  have hrr : ∀ g, rowRay (rows g) = axisRay (z g) (σ g) := fun g =>
    (segment_ray ((c3 g).onTheWay ok1 (ballTracer_emitted argsort _ _ _ _ _)) (not_extinct_of_unit (axis_norm (c1 g))) (hrows g)).1
  have hobj := ball_obj .mirror
  have hint : ∀ g, intersectObj argsort 1 (ball .mirror).heap 0 (rowRay (rows g)) =
      ([((-(σ g * z g) - 1 : ℝ) : EReal), ((-(σ g * z g) + 1 : ℝ) : EReal)], [0, 0]) := by
    intro g
    rw [hrr]
    exact ball_intersect argsort .mirror (c1 g) 0
  have hsu : ∀ g, σ g = 1 ∨ σ g = -1 := fun g => by simpa using c1 g
  have hcross : ∀ g < 2, Crossing argsort (ball .mirror) [0] 1 (rows g) (rows (g + 1)) := by
    intro g hg
    have hr := hint (g + 1)
    have hr4 := c4 (g + 1) (by omega)
    refine ⟨?_, ?_, ?_, ?_, ?_, ?_⟩
    · rw [hrr]
      refine ⟨rfl, rfl, ⟨Or.inl rfl, Or.inl rfl, Or.inr ?_⟩, ?_⟩
      · show 1e-8 < |σ (g + 1)|
        rcases hsu (g + 1) with h | h <;> rw [h] <;> norm_num
      · right; right
        show σ (g + 1) ≠ 0
        rcases hsu (g + 1) with h | h <;> rw [h] <;> norm_num
    · intro a ha
      simp only [List.mem_singleton] at ha
      subst ha
      have hw : ((ball .mirror).heap.obj 0).world = 1 := by simp [ball, newPrim, Heap.alloc, Heap.empty]
      refine ⟨_, .leaf hobj.1, ⟨?_, ?_⟩, ?_⟩
      · rw [hw]; funext i; fin_cases i <;> rfl
      · rw [hw]; simp
      · rw [hw, hrr]
        simp only [inv_one, Ray.map, one_mulVec, Sees]
        right; right
        show σ (g + 1) ≠ 0
        rcases hsu (g + 1) with h | h <;> rw [h] <;> norm_num
    · simp [surfaceIds, hobj.1]
    · refine ⟨0, by simp, 0, ?_, ?_⟩
      · rw [hr]
        simp only [List.getElem?_cons_zero]
        rw [hr4]
      · rw [hr, (hrows g).surface]
        rfl
    · intro a ha v hv hv'
      simp only [List.mem_singleton] at ha
      subst ha
      rw [hr]
      simp only [List.mem_cons, List.not_mem_nil, or_false, EReal.coe_eq_coe_iff, not_or]
      constructor
      · rw [hr4]; exact hv.ne'
      · intro h
        linarith
    · intro a ha x id gl hx hs hm
      cases hm
  have hback : (axisCol (-(1 - 1e-6)) (-1) 50 0).ray = (rowRay (rows 2)).back 0 := by
    rw [hrr, (c7 2 rfl).1, (c7 2 rfl).2]
    show axisRay _ _ = _
    have e1 : (axisRay (-(1 - 1e-6)) 1).at 0 = point 0 0 (-(1 - 1e-6)) := by
      funext i; simp [Ray.at, axisRay]
    have e2 : -(axisRay (-(1 - 1e-6)) 1).d = vector 0 0 (-1) := by
      funext i; fin_cases i <;> simp [axisRay, vector]
    simp only [Ray.back, e1, e2]
    rfl
  have key := (C98_scene (limit := 3) (limit' := 3) (sources' := [fun _ => [axisCol (-(1 - 1e-6)) (-1) 50 0]]) (m' := 1) ha (ball_bench argsort) ok2.emits h1 h2 (n := 2)
    (by norm_num) hmem hcross (c := axisCol (-(1 - 1e-6)) (-1) 50 0) (j := 0) rfl hback (hrows 2).index.symm (hrows 2).wavelength.symm (by norm_num)
    (by
      obtain ⟨d, h0, -, e⟩ := C28_segment ok1 h1 _ (hmem 2 le_rfl).1
      exact ⟨d, h0.le, e⟩)).1
  refine ⟨k1, k2, f1, f2, rows, h1, h2, fun g hg => ⟨(hmem g hg.le).1, (hmem g hg.le).2.2, ?_⟩, ?_, ?_⟩
  · obtain ⟨x, x1, -, x2, x3, x4, -⟩ := key g hg
    exact ⟨x, x1, x2, x3, x4⟩
  · have hs := (hrows 0).stop
    rw [(c5 0 rfl).1, (c5 0 rfl).2] at hs
    funext i
    rw [hs i]
    fin_cases i <;> simp [axisCol, axisRay, point, vector]
  · have hs := (hrows 1).stop
    rw [(c6 1 rfl).1, (c6 1 rfl).2] at hs
    funext i
    rw [hs i]
    fin_cases i <;> simp [axisCol, axisRay, point, vector]

end PyRayT
