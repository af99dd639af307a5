import Verif.Proofs.Special3

/-!
# Property C110: no nan in the results

The other models know no nan: a division by zero gives 0 there. `Model/Special.lean` models the way from the rays to the table once more, with numbers that can be infinite or nan. Under the
conditions of C74 (surfaces of nonzero size, unit directions, positive indices) both models give the same table, and every number in it is finite. Where the conditions fail, nan
does arise: in the distances to a sphere along an extinct ray (harmless), and in the index of a glass at a wavelength where the Sellmeier formula has no real value; such a glass
acts as a mirror.
-/

namespace PyRayT

open Classical Flt Matrix Spec

/-- a finite number -/
def Spec.IsReal (x : Flt) : Prop := ∃ y : ℝ, x = .num (y : EReal)

/-- every number of a row is finite -/
structure Spec.SoundRow (r : RowF) : Prop where
  generation : IsReal r.generation
  intensity : IsReal r.intensity
  wavelength : IsReal r.wavelength
  index : IsReal r.index
  id : IsReal r.id
  start : ∀ i, IsReal (r.start i)
  stop : ∀ i, IsReal (r.stop i)
  tilt : ∀ i, IsReal (r.tilt i)

variable {argsort : List EReal → List ℕ} {argsortF : List Flt → List ℕ}

theorem simF_start {fuel : ℕ} {s : Scene} {objs : List ℕ} {depth : ℕ} (hs : GoodScene argsort fuel s objs depth) {sources : List (ℕ → List Col)} {n : ℕ} {limit : ℤ}
    (hem : ∀ f ∈ sources, ∀ c ∈ f n, c.ray.d 3 = 0 ∧ norm4 c.ray.d = 1 ∧ 0 < c.index ∧ GoodWave s objs depth c.wavelength) :
    TracerF.Sim argsort argsortF s objs depth
      { TracerF.new (sources.map fun f k => (f k).map ColF.of) (objs.map (s.componentF argsortF depth)) n limit with phase := .initialize }
      { Tracer.new sources (objs.map (s.component argsort depth)) n limit with phase := .initialize } :=
  ⟨rfl, rfl, rfl, rfl, rfl, rfl, rfl, rfl, rfl, rfl, rfl, rfl, rfl, rfl, rfl, fun f hf c hc => ⟨(hem f hf c hc).1, .inl (hem f hf c hc).2.1, (hem f hf c hc).2.2.1, (hem f hf c hc).2.2.2⟩,
    fun c h => absurd h (List.not_mem_nil), fun h => by cases h⟩

/-- **C110.** Let the components be objects of any history of affine movements, made of surfaces with nonzero radii and focal lengths, with the built-in materials; let the sources
emit directions of length one with w = 0, and positive indices, and let the glasses have positive indices at the emitted wavelengths, none of which is a resonance. Let the sorting function agree on
numbers with that of the model without nan. Then `trace()` computed with nan and infinities ends after the same number of steps as without, and the table is the same; every number in it is
finite. -/
theorem C110_no_nan (ha : IsArgsort argsort) (hF : ∀ xs, argsortF (xs.map num) = argsort xs) (fuel : ℕ) (s : Scene) (hr : Placed argsort fuel s.heap)
    (objs : List ℕ) (hlt : ∀ a ∈ objs, a < s.heap.size) (depth : ℕ)
    (hnd : (objs.flatMap fun a => (surfaceIds depth s.heap a).map Prod.snd).Nodup)
    (hsz : ∀ a ∈ objs, ∀ x id p, (id, x) ∈ surfaceIds depth s.heap a → (s.heap.obj x).kind = .prim p → Sized p)
    (sources : List (ℕ → List Col)) (n : ℕ) (limit : ℤ)
    (hem : ∀ f ∈ sources, ∀ c ∈ f n, c.ray.d 3 = 0 ∧ norm4 c.ray.d = 1 ∧ 0 < c.index)
    (hgl : ∀ f ∈ sources, ∀ c ∈ f n, ∀ a ∈ objs, ∀ x id g, (id, x) ∈ surfaceIds depth s.heap a → s.material x = .glass g →
      0 < g.indexAt c.wavelength ∧ g.Regular c.wavelength) (k : ℕ) :
    let withNan := TracerF.new (sources.map fun f k => (f k).map ColF.of) (objs.map (s.componentF argsortF depth)) n limit
    let without := Tracer.new sources (objs.map (s.component argsort depth)) n limit
    (∀ u, TracerF.Traces k withNan u → (∃ t, Tracer.Traces k without t ∧ u.frame = t.frame.map RowF.of) ∧ u.complete = true ∧ ∀ r ∈ u.frame, SoundRow r) ∧
      ∀ t, Tracer.Traces k without t → ∃ u, TracerF.Traces k withNan u ∧ u.frame = t.frame.map RowF.of := by
  intro withNan without
  have hs : GoodScene argsort fuel s objs depth := ⟨ha, hr, hlt, hnd, hsz⟩
  have h0 := simF_start (argsortF := argsortF) hs (sources := sources) (n := n) (limit := limit)
    fun f hf c hc => ⟨(hem f hf c hc).1, (hem f hf c hc).2.1, (hem f hf c hc).2.2, hgl f hf c hc⟩
  refine ⟨fun u hu => ?_, fun t ht => ?_⟩
  · obtain ⟨t, ht, hsim⟩ := TracerF.Sim.runs hF hs hu h0
    refine ⟨⟨t, ht, hsim.frame⟩, ?_, ?_⟩
    · rw [hsim.complete]
      obtain ⟨-, G, hd, -⟩ := Tracer.Traces.result ht
      exact hd.complete
    · intro r hrm
      rw [hsim.frame] at hrm
      obtain ⟨r', -, rfl⟩ := List.mem_map.1 hrm
      exact ⟨⟨_, rfl⟩, ⟨_, rfl⟩, ⟨_, rfl⟩, ⟨_, rfl⟩, ⟨_, rfl⟩, fun _ => ⟨_, rfl⟩, fun _ => ⟨_, rfl⟩, fun _ => ⟨_, rfl⟩⟩
  · obtain ⟨u, hu, hsim⟩ := TracerF.Sim.runs_back hF hs ht h0
    exact ⟨u, hu, hsim.frame⟩

/-- The hypothesis on the sorting functions can be met: every sorting function for numbers can be extended to lists with nan. -/
theorem extend_argsort (argsort : List EReal → List ℕ) : ∃ argsortF : List Flt → List ℕ, ∀ xs : List EReal, argsortF (xs.map num) = argsort xs :=
  ⟨fun xs => argsort (xs.map fun x => match x with | .num y => y | .nan => ⊤), fun xs => by
    simp only [List.map_map]
    congr 1
    exact List.map_id xs⟩

/-- non-vacuity of C110: the ray in the spherical mirror, which is traced for three generations -/
example (ha : IsArgsort argsort) : ∃ (argsortF : List Flt → List ℕ) (k : ℕ) (u : TracerF),
    TracerF.Traces k (TracerF.new [fun _ => [ColF.of (axisCol 0 1 100 0)]] [(ball .mirror).componentF argsortF 1 0] 1 3) u ∧ u.frame ≠ [] ∧ ∀ r ∈ u.frame, SoundRow r := by
  obtain ⟨argsortF, hF⟩ := extend_argsort argsort
  obtain ⟨k, t, h, ok, hrows⟩ := resonator_rows argsort ha
  obtain ⟨hk, -, hid, -, hsz⟩ := ball_obj .mirror
  have hsurf : ∀ x id, (id, x) ∈ surfaceIds 1 (ball .mirror).heap 0 → x = 0 ∧ id = 0 := by
    intro x id hx
    simp only [surfaceIds, hk, List.mem_singleton, Prod.mk.injEq] at hx
    exact ⟨hx.2, hx.1.trans hid⟩
  have main := C110_no_nan ha hF 1 (ball .mirror)
    (ReachesBy.placed argsort (.step (.newPrim _) (.refl _) trivial (fun _ _ h => by cases h) rfl)) [0] (by simp [hsz]) 1
    (by simp [surfaceIds, hk]) (by
      intro a haa x id p hx hkx
      simp only [List.mem_singleton] at haa
      subst haa
      obtain ⟨rfl, rfl⟩ := hsurf x id hx
      rw [hk] at hkx
      cases hkx
      exact one_ne_zero) [fun _ => [axisCol 0 1 100 0]] 1 3 (fun f hf c hc => by
      obtain ⟨-, -, h1, h2⟩ := ok.emits f hf c hc
      simp only [List.mem_singleton] at hf
      subst hf
      simp only [List.mem_singleton] at hc
      subst hc
      exact ⟨h1, h2, one_pos⟩) (fun f hf c hc a _ x id g _ hg => by cases hg) k
  obtain ⟨u, hu, hfr⟩ := main.2 t h
  refine ⟨argsortF, k, u, hu, ?_, (main.1 u hu).2.2⟩
  obtain ⟨r, h1, -⟩ := (hrows 0).2 (by norm_num)
  rw [hfr]
  intro hnil
  rw [List.map_eq_nil_iff.1 hnil] at h1
  cases h1

/-- **C110, hits.** In such a scene no hit distance is nan for a ray with a direction that is not zero, whatever its length; ids and distances are those of the model without nan. -/
theorem C110_hits (hF : ∀ xs, argsortF (xs.map num) = argsort xs) (fuel : ℕ) (h : Heap) (hr : Placed argsort fuel h) (depth a : ℕ) (ha : a < h.size) (ray : Ray)
    (h3 : ray.d 3 = 0) (hd : ray.d ≠ 0) : nan ∉ (intersectObjF argsortF depth h a (RayF.of ray)).1 ∧
      (intersectObjF argsortF depth h a (RayF.of ray)).1 = (intersectObj argsort depth h a ray).1.map num ∧
      (intersectObjF argsortF depth h a (RayF.of ray)).2 = (intersectObj argsort depth h a ray).2 := by
  rw [intersectObjF_of hF hr h3 hd depth a ha]
  refine ⟨?_, rfl, rfl⟩
  simp

/-- non-vacuity of `C110_hits` -/
example : ∃ (h : Heap) (ray : Ray), Placed argsort 1 h ∧ 0 < h.size ∧ ray.d 3 = 0 ∧ ray.d ≠ 0 :=
  ⟨(ball .mirror).heap, ⟨point 0 0 0, vector 0 0 1⟩, ReachesBy.placed argsort (.step (.newPrim _) (.refl _) trivial (fun _ _ h => by cases h) rfl), by
    rw [(ball_obj .mirror).2.2.2.2]; norm_num, rfl, fun h => by simpa [vector] using congrFun h 2⟩

/-- **C110, the nan of extinct rays.** The hits of a ray with direction zero with a sphere are nan; the tracer takes this for no hit. -/
theorem C110_extinct (r : ℝ) (o : Vec4) : sphereIntersectF r (RayF.of ⟨o, 0⟩) = (nan, nan) ∧ ∀ oid, nearestHitF ([nan, nan], [oid, oid]) = (inf, oid) ∧ ¬ inf < inf := by
  refine ⟨(sphereIntersectF_zero (ray := ⟨o, 0⟩) (by simp)).1, fun oid => ⟨?_, ?_⟩⟩
  · have e := nearestHitF_same (f := ([nan, nan], [oid, oid])) (e := ([⊤, ⊤], [oid, oid])) (.cons (.inr ⟨rfl, rfl⟩) (.cons (.inr ⟨rfl, rfl⟩) .nil)) rfl
    rw [e]
    simp [nearestHit, positiveHit, argmin, inf]
  · exact lt_irrefl (⊤ : EReal)

/-- **C110, glasses without an index.** If the Sellmeier formula is negative at the wavelength of a ray (as in an absorption band), the index is nan, and the glass reflects the rays that
hit it from outside as a mirror does: direction and index are finite numbers and nothing in the table of results tells that the index of the glass is not defined. -/
theorem C110_undefined_index (b1 b2 b3 c1 c2 c3 : ℝ) (nf : Vec4 → Vec4) (c : Col) (hn : norm4 (nf c.ray.o) = 1) (hd : norm4 c.ray.d = 1)
    (hout : dot4 c.ray.d (nf c.ray.o) ≤ 0) (hw : c.wavelength ^ 2 ≠ c1 ∧ c.wavelength ^ 2 ≠ c2 ∧ c.wavelength ^ 2 ≠ c3)
    (hneg : 1 + b1 * c.wavelength ^ 2 / (c.wavelength ^ 2 - c1) + b2 * c.wavelength ^ 2 / (c.wavelength ^ 2 - c2) + b3 * c.wavelength ^ 2 / (c.wavelength ^ 2 - c3) < 0)
    (nF : Vec4F → Vec4F) (hnF : nF (ofV c.ray.o) = ofV (nf c.ray.o)) :
    (IndexModel.sellmeier b1 b2 b3 c1 c2 c3).indexAtF (re c.wavelength) = nan ∧
      (Material.glass (.sellmeier b1 b2 b3 c1 c2 c3)).traceF nF (ColF.of c) = Material.mirror.traceF nF (ColF.of c) ∧
      Material.mirror.traceF nF (ColF.of c) = ColF.of (Material.mirror.trace nf c) := by
  obtain ⟨h1, h2, h3⟩ := hw
  rw [pow_two] at h1 h2 h3 hneg
  have hi : (IndexModel.sellmeier b1 b2 b3 c1 c2 c3).indexAtF (re c.wavelength) = nan := by
    simp only [IndexModel.indexAtF, re_mul, re_sub]
    rw [re_div (sub_ne_zero.2 h1), re_div (sub_ne_zero.2 h2), re_div (sub_ne_zero.2 h3), re_add, re_add, re_add]
    have hlt : ((1 + b1 * (c.wavelength * c.wavelength) / (c.wavelength * c.wavelength - c1) + b2 * (c.wavelength * c.wavelength) / (c.wavelength * c.wavelength - c2) +
        b3 * (c.wavelength * c.wavelength) / (c.wavelength * c.wavelength - c3) : ℝ) : EReal) < 0 := by
      exact_mod_cast hneg
    simp only [re, sqrt, if_neg (EReal.coe_ne_top _), if_pos hlt]
  have hm : Material.mirror.traceF nF (ColF.of c) = ColF.of (Material.mirror.trace nf c) := by
    have e : (fun i => ofV c.ray.d i - re 2 * ofV (nf c.ray.o) i * re (dot4 c.ray.d (nf c.ray.o))) =
        ofV fun i => c.ray.d i - 2 * nf c.ray.o i * dot4 c.ray.d (nf c.ray.o) := by
      funext i
      simp only [ofV, re_mul, re_sub]
    simp only [Material.traceF, Material.trace, ColF.of, RayF.of, hnF, dotF_of, e]
  refine ⟨hi, ?_, hm⟩
  rw [hm]
  have hu : normalize c.ray.d = c.ray.d := by
    funext i
    simp [normalize, hd]
  have hneg' : (fun i => -ofV (nf c.ray.o) i) = ofV (-nf c.ray.o) := by
    funext i
    simp only [ofV, re_neg, Pi.neg_apply]
  have hnan : ∀ x : Flt, x / nan = nan := by intro x; cases x <;> rfl
  have mnan : ∀ x : Flt, nan * x = nan := by intro x; cases x <;> rfl
  have snan : re 1 - nan = nan := rfl
  have out : ofV c.ray.d = ofV c.ray.d := rfl
  have hlt : ¬ re 0 < re (dot4 c.ray.d (nf c.ray.o)) := by rw [re_lt]; exact not_lt.2 hout
  have key : refractF (ofV c.ray.d) (ofV (nf c.ray.o)) (re c.index) nan (re 1) =
      (ofV fun i => c.ray.d i - 2 * nf c.ray.o i * dot4 c.ray.d (nf c.ray.o), re c.index) := by
    simp only [refractF, normalizeF_of (show norm4 c.ray.d ≠ 0 by rw [hd]; exact one_ne_zero), hu, hneg', dotF_of, if_neg hlt, hnan, mnan, snan, if_neg (not_lt_nan (re 0)), re_mul]
    have e : (fun i => ofV c.ray.d i + re (2 * dot4 c.ray.d (-nf c.ray.o)) * ofV (nf c.ray.o) i) =
        ofV fun i => c.ray.d i - 2 * nf c.ray.o i * dot4 c.ray.d (nf c.ray.o) := by
      funext i
      simp only [ofV, re_mul, re_add, re_inj, dot4, Pi.neg_apply]
      ring
    have hr : norm4 (fun i => c.ray.d i - 2 * nf c.ray.o i * dot4 c.ray.d (nf c.ray.o)) = 1 := by
      rw [reflect_norm (Or.inl hn), hd]
    rw [e, normalizeF_of (by rw [hr]; exact one_ne_zero)]
    congr 2
    funext i
    simp [normalize, hr]
  simp only [Material.traceF, Material.trace, ColF.of, RayF.of, hnF, hi, key]

/-- non-vacuity of `C110_undefined_index`: BK7 at a wavelength of 0.141 -/
example : (0.141 : ℝ) ^ 2 ≠ 6.00069867e-3 ∧ (0.141 : ℝ) ^ 2 ≠ 2.00179144e-2 ∧ (0.141 : ℝ) ^ 2 ≠ 1.03560653e02 ∧
    1 + 1.03961212 * (0.141 : ℝ) ^ 2 / ((0.141 : ℝ) ^ 2 - 6.00069867e-3) + 0.231792344 * (0.141 : ℝ) ^ 2 / ((0.141 : ℝ) ^ 2 - 2.00179144e-2) +
      1.01046945 * (0.141 : ℝ) ^ 2 / ((0.141 : ℝ) ^ 2 - 1.03560653e02) < 0 := by
  norm_num

/-- The rays of BK7 in the visible are no such case: the hypotheses of `C110_no_nan` hold at every wavelength from 0.3 to 2.5. -/
theorem C110_bk7 (w : ℝ) (h1 : 0.3 ≤ w) (h2 : w ≤ 2.5) : 0 < glassBK7.indexAt w ∧ glassBK7.Regular w := by
  have hw1 : (0.09 : ℝ) ≤ w ^ 2 := by nlinarith
  have hw2 : w ^ 2 ≤ 6.25 := by nlinarith
  refine ⟨Real.sqrt_pos.2 ?_, ?_, ?_, ?_⟩
  · have a1 : 0 < w ^ 2 - 6.00069867e-3 := by norm_num; linarith
    have a2 : 0 < w ^ 2 - 2.00179144e-2 := by norm_num; linarith
    have a3 : 0 < 1.03560653e02 - w ^ 2 := by norm_num; linarith
    have t1 : 0 < 1.03961212 * w ^ 2 / (w ^ 2 - 6.00069867e-3) := by positivity
    have t2 : 0 < 0.231792344 * w ^ 2 / (w ^ 2 - 2.00179144e-2) := by positivity
    have t3 : -1 < 1.01046945 * w ^ 2 / (w ^ 2 - 1.03560653e02) := by
      have e : 1.01046945 * w ^ 2 / (w ^ 2 - 1.03560653e02) = -(1.01046945 * w ^ 2 / (1.03560653e02 - w ^ 2)) := by
        rw [← div_neg, neg_sub]
      rw [e, neg_lt_neg_iff, div_lt_one a3]
      norm_num
      linarith
    linarith
  · norm_num at hw1 ⊢
    linarith
  · intro h
    norm_num at h hw1
    linarith
  · intro h
    norm_num at h hw2
    linarith

end PyRayT
