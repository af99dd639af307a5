import Mathlib.Analysis.SpecialFunctions.Trigonometric.Deriv
import Verif.Proofs.Fermat
import Verif.Props.Bench

/-!
# Property C100: Fermat's principle

The optical path length (`Spec.opticalPath`, sum of index times length) along the rows of a traced ray is stationary: if the points in
which the ray meets the surfaces are moved on these surfaces in any differentiable way, its derivative is zero.
-/

namespace PyRayT

open Classical Matrix Spec Topology Filter

variable {argsort : List EReal → List ℕ} {fuel : ℕ} {s : Scene} {objs : List ℕ} {depth : ℕ}

/-- index times direction changes along the normal only -/
theorem interacts_normal {m : Material} {wl n1 n2 : ℝ} {n u w : Vec4} (h : Interacts m wl n u n1 w n2) : ∃ c, ∀ i, n1 * u i - n2 * w i = c * n i := by
  cases m with
  | absorber => exact h.elim
  | mirror =>
    obtain ⟨h1, h2⟩ := h
    exact ⟨2 * n1 * dot4 u n, fun i => by rw [h1, h2]; ring⟩
  | glass g =>
    rcases h with ⟨-, -, h1, -, -, -, h2⟩ | ⟨-, h1, h2⟩
    · refine ⟨n1 * dot4 u n - n2 * dot4 w n, fun i => ?_⟩
      have := h1 i
      rw [← h2] at this
      linarith
    · exact ⟨2 * n1 * dot4 u n, fun i => by rw [h1, h2]; ring⟩

/-- start of a row as a homogeneous point -/
noncomputable def Row.begin (r : Row) : Vec4 := point (r.start 0) (r.start 1) (r.start 2)

/-- **C100.** Let `rows 0, ..., rows n` be consecutive rows of a ray in the result of `trace()` (objects of any history with the built-in
materials). Move the points between them along any differentiable curves `P 1, ..., P n` on the surfaces that the ray meets there, where it meets
them in smooth points; the start of the first row and the end of the last row are kept. The optical path length has derivative zero. -/
theorem C100_fermat (ha : IsArgsort argsort) {sources : List (ℕ → List Col)} {m : ℕ} {limit : ℤ}
    (b : Bench argsort fuel s objs depth sources m) {k : ℕ} {f : Tracer}
    (ht : Tracer.Traces k (Tracer.new sources (objs.map (s.component argsort depth)) m limit) f) {n : ℕ} {rows : ℕ → Row}
    (hrows : ∀ g ≤ n, rows g ∈ f.frame) (hfol : ∀ g < n, Follows (rows g) (rows (g + 1))) {P : ℕ → ℝ → Vec4} (h3 : ∀ g v, P g v 3 = 1)
    (hstart : ∀ v, P 0 v = (rows 0).begin) (hend : ∀ v, P (n + 1) v = (rows n).finish) (hpass : ∀ g < n, P (g + 1) 0 = (rows g).finish)
    (hdiff : ∀ g < n, DifferentiableAt ℝ (P (g + 1)) 0)
    (hon : ∀ g < n, ∀ a ∈ objs, ∀ x id p, (id, x) ∈ surfaceIds depth s.heap a → (rows g).surface = (id : ℤ) → (s.heap.obj x).kind = .prim p →
      (SmoothPoint p ((s.heap.obj x).world⁻¹ *ᵥ (rows g).finish) ∨ ∃ w l, p = .plane w l) ∧
      ∀ᶠ v in 𝓝 (0 : ℝ), OnBoundary (.leaf p (s.heap.obj x).world) (P (g + 1) v)) :
    HasDerivAt (fun v => opticalPath (fun g => (rows g).index) (fun g => P g v) (n + 1)) 0 0 := by
  have ok := b.ok ha limit
  have hi := reaches_inv argsort empty_inv b.history.reaches
  -- velocities of the points
  set U : ℕ → Vec4 := fun g => deriv (P g) 0 with hU
  have hder : ∀ g ≤ n + 1, HasDerivAt (P g) (U g) 0 := by
    intro g hg
    rcases Nat.eq_zero_or_pos g with rfl | hpos
    · have : P 0 = fun _ => (rows 0).begin := funext hstart
      have hd : DifferentiableAt ℝ (P 0) 0 := by rw [this]; exact differentiableAt_const _
      exact hd.hasDerivAt
    · obtain ⟨g, rfl⟩ : ∃ g', g = g' + 1 := ⟨g - 1, by omega⟩
      rcases Nat.lt_or_ge g n with hlt | hge
      · exact (hdiff g hlt).hasDerivAt
      · have : g = n := by omega
        subst this
        have : P (g + 1) = fun _ => (rows g).finish := funext hend
        have hd : DifferentiableAt ℝ (P (g + 1)) 0 := by rw [this]; exact differentiableAt_const _
        exact hd.hasDerivAt
  have hU0 : U 0 = 0 := by
    have : P 0 = fun _ => (rows 0).begin := funext hstart
    simp [hU, this]
  have hUn : U (n + 1) = 0 := by
    have : P (n + 1) = fun _ => (rows n).finish := funext hend
    simp [hU, this]
  have hU3 : ∀ g ≤ n + 1, U g 3 = 0 := by
    intro g hg
    have := hasDerivAt_pi.1 (hder g hg) 3
    simp only [h3] at this
    exact this.unique (hasDerivAt_const _ _)
  -- the pieces
  have hunit : ∀ g ≤ n, (rows g).tilt 0 ^ 2 + (rows g).tilt 1 ^ 2 + (rows g).tilt 2 ^ 2 = 1 := by
    intro g hg
    have := b.unit ha ht (hrows g hg)
    simp only [dot4, Row.dir, vector, cons_val] at this
    linarith
  have hpiece : ∀ g ≤ n, ∃ L, 0 < L ∧ ∀ i : Fin 3, P (g + 1) 0 i.castSucc - P g 0 i.castSucc = L * (rows g).tilt i := by
    intro g hg
    obtain ⟨d, hd, -, hst⟩ := C28_segment ok ht _ (hrows g hg)
    have hfin : P (g + 1) 0 = (rows g).finish := by
      rcases Nat.lt_or_ge g n with hlt | hge
      · exact hpass g hlt
      · have : g = n := by omega
        subst this
        exact hend 0
    have cs : ∀ (q : Fin 3 → ℝ) (i : Fin 3), point (q 0) (q 1) (q 2) i.castSucc = q i := fun q i => by fin_cases i <;> rfl
    rcases Nat.eq_zero_or_pos g with rfl | hpos
    · refine ⟨d, hd, fun i => ?_⟩
      rw [hfin, hstart, Row.finish, Row.begin, cs, cs, hst]
      ring
    · obtain ⟨g, rfl⟩ : ∃ g', g = g' + 1 := ⟨g - 1, by omega⟩
      have hconn := (C28_connected ok ht _ _ (hrows g (by omega)) (hrows (g + 1) hg) (hfol g (by omega)).1 (hfol g (by omega)).2).1
      refine ⟨d + 1e-6, by positivity, fun i => ?_⟩
      rw [hfin, hpass g (by omega), Row.finish, Row.finish, cs, cs, hst, hconn]
      show _ + 1e-6 * _ + _ - _ = _
      ring
  -- what the surfaces do
  have hsurf : ∀ g < n, (rows g).index * ((rows g).tilt 0 * U (g + 1) 0 + (rows g).tilt 1 * U (g + 1) 1 + (rows g).tilt 2 * U (g + 1) 2) =
      (rows (g + 1)).index * ((rows (g + 1)).tilt 0 * U (g + 1) 0 + (rows (g + 1)).tilt 1 * U (g + 1) 1 + (rows (g + 1)).tilt 2 * U (g + 1) 2) := by
    intro g hg
    obtain ⟨d, -, hnear, -⟩ := C28_segment ok ht _ (hrows g hg.le)
    obtain ⟨a, haa, x, id, hx, hid, -⟩ := C25_surface argsort ha s objs depth _ d _ hnear
    obtain ⟨hxl, -, p, hk⟩ := surfaceIds_spec hi depth a (b.exist a haa) _ hx
    obtain ⟨-, -, hint⟩ := b.optics ha ht (hrows g hg.le) (hrows (g + 1) hg) (hfol g hg) haa hx hid
    obtain ⟨c, hc⟩ := interacts_normal hint
    obtain ⟨hsm, hbd⟩ := hon g hg a haa x id p hx hid hk
    have htan := surface_tangent b.history.reaches hxl hk (hder (g + 1) (by omega)) (h3 (g + 1)) (by rw [hpass g hg]; exact hsm) hbd
    rw [hpass g hg] at htan
    simp only [dot4, hU3 (g + 1) (by omega), mul_zero, add_zero] at htan
    have c0 := hc 0
    have c1 := hc 1
    have c2 := hc 2
    simp only [Row.dir, vector, cons_val] at c0 c1 c2
    linear_combination c * htan + U (g + 1) 0 * c0 + U (g + 1) 1 * c1 + U (g + 1) 2 * c2
  -- the sum
  have hsum : HasDerivAt (fun v => opticalPath (fun g => (rows g).index) (fun g => P g v) (n + 1))
      (∑ g ∈ Finset.range (n + 1), (rows g).index * ((rows g).tilt 0 * (U (g + 1) 0 - U g 0) + (rows g).tilt 1 * (U (g + 1) 1 - U g 1) +
        (rows g).tilt 2 * (U (g + 1) 2 - U g 2))) 0 := by
    unfold opticalPath
    refine HasDerivAt.fun_sum fun g hg => ?_
    have hg : g ≤ n := by simpa [Nat.lt_succ_iff] using hg
    obtain ⟨L, hL, hLe⟩ := hpiece g hg
    refine HasDerivAt.const_mul _ ?_
    exact hasDerivAt_norm (V := fun v i => P (g + 1) v i.castSucc - P g v i.castSucc) (V' := fun i => U (g + 1) i.castSucc - U g i.castSucc)
      (fun i => (hasDerivAt_pi.1 (hder (g + 1) (by omega)) i.castSucc).sub (hasDerivAt_pi.1 (hder g (by omega)) i.castSucc)) hL
      (hunit g hg) hLe
  refine hsum.congr_deriv ?_
  have htel : ∀ j ≤ n, ∑ g ∈ Finset.range j, (rows g).index * ((rows g).tilt 0 * (U (g + 1) 0 - U g 0) + (rows g).tilt 1 * (U (g + 1) 1 - U g 1) +
      (rows g).tilt 2 * (U (g + 1) 2 - U g 2)) = (rows j).index * ((rows j).tilt 0 * U j 0 + (rows j).tilt 1 * U j 1 + (rows j).tilt 2 * U j 2) := by
    intro j
    induction j with
    | zero => intro _; simp [hU0]
    | succ j ih =>
      intro hj
      rw [Finset.sum_range_succ, ih (by omega), ← hsurf j (by omega)]
      ring
  rw [Finset.sum_range_succ, htel n le_rfl, hUn]
  simp only [Pi.zero_apply]
  ring

/-- non-vacuity of C100: the first two rows of the ray on the axis of a spherical mirror; the point of reflection moves on a great circle -/
example (argsort : List EReal → List ℕ) (ha : IsArgsort argsort) : ∃ (k : ℕ) (t' : Tracer) (rows : ℕ → Row) (P : ℕ → ℝ → Vec4),
    Tracer.Traces k (ballTracer argsort .mirror 0 1 100 3) t' ∧ (∀ g ≤ 1, rows g ∈ t'.frame) ∧ Follows (rows 0) (rows 1) ∧
    (∀ v, P 1 v = point (Real.sin v) 0 (Real.cos v)) ∧
    HasDerivAt (fun v => opticalPath (fun g => (rows g).index) (fun g => P g v) 2) 0 0 := by
  obtain ⟨k, t', h, ok, hrows⟩ := resonator_rows argsort ha
  obtain ⟨r, h1, h2, h3⟩ := (hrows 0).2 (by norm_num)
  obtain ⟨r', h1', h2', h3'⟩ := (hrows 1).2 (by norm_num)
  have hf : Follows r r' := ⟨by rw [h3, h3'], by rw [h2, h2']; norm_num⟩
  obtain ⟨i, g, -, hl⟩ := (trace_iff ok h r).1 h1
  have eg : g = 0 := by
    have := (hl.spec ok).1.symm.trans h2
    exact_mod_cast this
  obtain ⟨c0, c, d, sf, he, hj, hx, hn, hseg⟩ := hl
  subst eg
  cases hj
  obtain ⟨c', hc', rfl⟩ := he
  have hc0 : c' = axisCol 0 1 100 0 := by
    have := List.mem_of_getElem? hc'
    simpa [ballTracer, Tracer.new] using this
  subst hc0
  have hw : ((ball .mirror).heap.obj 0).world = 1 := by simp [ball, newPrim, Heap.alloc, Heap.empty]
  have hd : d = 1 := by
    have hn' := ball_nearest argsort .mirror (z := 0) (σ := 1) (by norm_num) (by simp) 0
    have := (Spec.Nearest.unique hn hn').1
    linarith
  have hfin : r.finish = point 0 0 1 := by
    funext i
    fin_cases i <;> simp only [Row.finish, point, hseg.stop] <;> simp [axisCol, axisRay, point, vector, hd]
  let P : ℕ → ℝ → Vec4 := fun g v => if g = 0 then r.begin else if g = 1 then point (Real.sin v) 0 (Real.cos v) else r'.finish
  refine ⟨k, t', fun g => if g = 0 then r else r', P, h, ?_, ?_, fun _ => rfl, ?_⟩
  · intro g hg
    by_cases h0 : g = 0 <;> simp [h0, h1, h1']
  · exact hf
  · refine C100_fermat (argsort := argsort) ha (ball_bench argsort) h (n := 1) (P := P) ?_ ?_ ?_ ?_ ?_ ?_ ?_ ?_
    · intro g hg
      by_cases h0 : g = 0 <;> simp [h0, h1, h1']
    · intro g hg
      obtain rfl : g = 0 := by omega
      exact hf
    · intro g v
      by_cases h0 : g = 0
      · simp [P, h0, Row.begin, point]
      · by_cases h1 : g = 1 <;> simp [P, h0, h1, Row.finish, point]
    · intro v; rfl
    · intro v; rfl
    · intro g hg
      obtain rfl : g = 0 := by omega
      show point (Real.sin 0) 0 (Real.cos 0) = r.finish
      rw [hfin, Real.sin_zero, Real.cos_zero]
    · intro g hg
      obtain rfl : g = 0 := by omega
      show DifferentiableAt ℝ (fun v => point (Real.sin v) 0 (Real.cos v)) 0
      refine differentiableAt_pi.2 fun i => ?_
      fin_cases i
      · exact Real.differentiableAt_sin
      · exact differentiableAt_const _
      · exact Real.differentiableAt_cos
      · exact differentiableAt_const _
    · intro g hg a haa x id p hx hid hk
      obtain rfl : g = 0 := by omega
      simp only [List.mem_singleton] at haa
      subst haa
      simp only [surfaceIds, (ball_obj .mirror).1, List.mem_singleton, Prod.mk.injEq] at hx
      obtain ⟨-, rfl⟩ := hx
      rw [(ball_obj .mirror).1] at hk
      cases hk
      refine ⟨Or.inl ?_, Filter.Eventually.of_forall fun v => ?_⟩
      · rw [hw, inv_one, one_mulVec]
        show SmoothPoint _ r.finish
        rw [hfin]
        refine ⟨one_pos, ?_⟩
        simp [point]
      · show OnBoundary _ (point (Real.sin v) 0 (Real.cos v))
        have hcs := Real.sin_sq_add_cos_sq v
        rw [hw]
        constructor
        · rintro ⟨y, hy, hin⟩
          rw [one_mulVec] at hy
          subst hy
          simp only [Spec.Interior, point, cons_val] at hin
          linarith
        · intro ho
          refine ho _ (one_mulVec _) ?_
          simp only [Spec.Closed, point, cons_val]
          linarith

end PyRayT
