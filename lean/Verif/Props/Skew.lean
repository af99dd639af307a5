import Verif.Proofs.Skew

/-!
# Property C90: what refraction and reflection cannot change

At a surface the optical momentum of a ray (index times direction) changes only along the normal. In a system of surfaces round about one axis
this leaves the moment of the ray about the axis unchanged through the whole trace, however many lenses, mirrors and total reflections there are.
-/

namespace PyRayT

open Classical Matrix Spec

variable {argsort : List EReal → List ℕ} {fuel : ℕ}

/-- The skewness of a row about the axis through `c` with direction `a`: the moment of its optical momentum about the axis,
`index * a · ((start - c) × tilt)`. -/
noncomputable def Spec.skew (c a : Vec4) (r : Row) : ℝ :=
  r.index * (a 0 * ((r.start 1 - c 1) * r.tilt 2 - (r.start 2 - c 2) * r.tilt 1) +
    a 1 * ((r.start 2 - c 2) * r.tilt 0 - (r.start 0 - c 0) * r.tilt 2) +
    a 2 * ((r.start 0 - c 0) * r.tilt 1 - (r.start 1 - c 1) * r.tilt 0))

section
variable {s : Scene} {objs : List ℕ} {depth : ℕ} {sources : List (ℕ → List Col)} {n : ℕ} {limit : ℤ}

/-- a row is determined by ray and generation -/
theorem row_unique {k : ℕ} {t t' : Tracer} (ok : TracerOk t) (ht : Tracer.Traces k t t') {r r' : Row} (hr : r ∈ t'.frame) (hr' : r' ∈ t'.frame)
    (hid : r'.id = r.id) (hg : r'.generation = r.generation) : r = r' := by
  have hp : t'.frame.Pairwise fun r r' => r'.id = r.id → r'.generation = r.generation → r = r' :=
    (C27_chains ok ht).1.imp fun h e1 e2 => by
      rcases h with h | ⟨-, h⟩
      · exact absurd e2 h.ne'
      · exact absurd e1 h.ne'
  exact hp.forall_of_forall_of_flip (fun _ _ _ _ => rfl) (hp.imp fun h e1 e2 => (h e1.symm e2.symm).symm) hr hr' hid hg

/-- What holds for the first row of a ray and passes from each row to the next holds for all rows. -/
theorem rows_induction {k : ℕ} {t t' : Tracer} (ok : TracerOk t) (ht : Tracer.Traces k t t') {P : Row → Prop}
    (hstep : ∀ r ∈ t'.frame, ∀ r' ∈ t'.frame, Follows r r' → P r → P r') {r r' : Row} (hr : r ∈ t'.frame) (hr' : r' ∈ t'.frame) (hid : r'.id = r.id)
    (hle : r.generation ≤ r'.generation) (h : P r) : P r' := by
  obtain ⟨-, hnat, hprev⟩ := C27_chains ok ht
  obtain ⟨-, g, -, hg⟩ := hnat r hr
  obtain ⟨-, g', -, hg'⟩ := hnat r' hr'
  rw [hg, hg'] at hle
  have hle : g ≤ g' := by exact_mod_cast hle
  induction g', hle using Nat.le_induction generalizing r' with
  | base => rwa [← row_unique ok ht hr hr' hid (hg'.trans hg.symm)]
  | succ j hj ih =>
    obtain ⟨q, hq, e1, e2⟩ := hprev r' hr' j (by rw [hg']; push_cast; rfl)
    exact hstep q hq r' hr' ⟨e2.symm, by rw [hg', e1]; push_cast; rfl⟩ (ih hq (e2.trans hid) (by exact_mod_cast hj) e1)

/-- **C90, impulse.** Between consecutive rows of a ray, index times direction changes only along the normal of the surface the first row ends on;
that surface does not absorb. -/
theorem C90_impulse (b : Bench argsort fuel s objs depth sources n) (ha : IsArgsort argsort)
    {k : ℕ} {t' : Tracer} (ht : Tracer.Traces k (Tracer.new sources (objs.map (s.component argsort depth)) n limit) t')
    {r r' : Row} (hr : r ∈ t'.frame) (hr' : r' ∈ t'.frame) (hf : Follows r r') :
    ∃ a ∈ objs, ∃ x id : ℕ, (id, x) ∈ surfaceIds depth s.heap a ∧ r.surface = (id : ℤ) ∧ s.material x ≠ .absorber ∧
      ∃ γ : ℝ, ∀ i : Fin 3, r'.index * r'.tilt i - r.index * r.tilt i = γ * surfaceNormal s.heap x r.finish i.castSucc := by
  obtain ⟨d, -, hn, -⟩ := row_arrives (b.ok ha limit) ht hr
  obtain ⟨a, haa, x, id, hx, hid, -⟩ := C25_surface argsort ha s objs depth _ d _ hn
  obtain ⟨-, -, hi⟩ := b.optics ha ht hr hr' hf haa hx hid
  refine ⟨a, haa, x, id, hx, hid, ?_, ?_⟩
  · intro h
    rw [h] at hi
    exact hi
  · have hu : ∀ i : Fin 3, r.tilt i = r.dir i.castSucc := fun i => by fin_cases i <;> rfl
    have hw : ∀ i : Fin 3, r'.tilt i = r'.dir i.castSucc := fun i => by fin_cases i <;> rfl
    set N := surfaceNormal s.heap x r.finish with hN
    have hback : (∀ i, r'.dir i = r.dir i - 2 * dot4 r.dir N * N i) → r'.index = r.index →
        ∃ γ : ℝ, ∀ i : Fin 3, r'.index * r'.tilt i - r.index * r.tilt i = γ * N i.castSucc := by
      intro h1 h2
      refine ⟨-(2 * r.index * dot4 r.dir N), fun i => ?_⟩
      rw [hw, hu, h1, h2]
      ring
    unfold Interacts at hi
    split at hi
    · exact hi.elim
    · exact hback hi.1 hi.2
    · rcases hi with ⟨-, -, h, -, -, -, h2⟩ | ⟨-, h1, h2⟩
      · refine ⟨r'.index * dot4 r'.dir N - r.index * dot4 r.dir N, fun i => ?_⟩
        have := h i.castSucc
        rw [← h2] at this
        rw [hw, hu]
        linear_combination -this
      · exact hback h1 h2

/-- from one row to the next: the new ray starts at the end of the old one but for the offset along itself -/
theorem follows_start (b : Bench argsort fuel s objs depth sources n) (ha : IsArgsort argsort)
    {k : ℕ} {t' : Tracer} (ht : Tracer.Traces k (Tracer.new sources (objs.map (s.component argsort depth)) n limit) t')
    {r r' : Row} (hr : r ∈ t'.frame) (hr' : r' ∈ t'.frame) (hf : Follows r r') :
    ∃ d μ : ℝ, (∀ i : Fin 3, r.finish i.castSucc = r.start i + d * r.tilt i) ∧ ∀ i : Fin 3, r'.start i = r.start i + d * r.tilt i + μ * r'.tilt i := by
  obtain ⟨-, d, -, hd⟩ := C35_unit_tilts (b.ok ha limit) ht r hr
  obtain ⟨hs, -⟩ := C28_connected (b.ok ha limit) ht r r' hr hr' hf.1 hf.2
  refine ⟨d, (Tracer.new sources (objs.map (s.component argsort depth)) n limit).offset, fun i => ?_, fun i => ?_⟩
  · have : r.finish i.castSucc = r.stop i := by fin_cases i <;> rfl
    rw [this]; linarith [hd i]
  · rw [hs i]; linarith [hd i]

/-- **C90.** In a system whose surfaces, as far as they do not absorb, are round about one common axis, the skewness of a ray about the axis is the
same in all its rows: through every refraction, reflection and total reflection. -/
theorem C90_skew (b : Bench argsort fuel s objs depth sources n) (ha : IsArgsort argsort)
    {k : ℕ} {t' : Tracer} (ht : Tracer.Traces k (Tracer.new sources (objs.map (s.component argsort depth)) n limit) t')
    {c a : Vec4} (hround : ∀ o ∈ objs, ∀ e ∈ surfaceIds depth s.heap o, s.material e.2 ≠ .absorber → RoundAbout s.heap e.2 c a)
    {r r' : Row} (hr : r ∈ t'.frame) (hr' : r' ∈ t'.frame) (hid : r'.id = r.id) : skew c a r' = skew c a r := by
  have key : ∀ q ∈ t'.frame, ∀ q' ∈ t'.frame, Follows q q' → skew c a q' = skew c a q := by
    intro q hq q' hq' hf
    obtain ⟨o, ho, x, id, hx, -, hm, γ, himp⟩ := C90_impulse b ha ht hq hq' hf
    obtain ⟨d, μ, hfin, hst⟩ := follows_start b ha ht hq hq' hf
    obtain ⟨α, β, hnorm⟩ := hround o ho _ hx hm q.finish rfl
    simp only at hnorm
    have hn : ∀ i : Fin 3, q'.index * q'.tilt i = q.index * q.tilt i +
        γ * (α * (q.start i + d * q.tilt i - c i.castSucc) + β * a i.castSucc) := by
      intro i
      have h1 := himp i
      rw [hnorm] at h1
      simp only [Pi.add_apply, Pi.smul_apply, Pi.sub_apply, smul_eq_mul] at h1
      rw [hfin i] at h1
      linarith
    have h0 := hn 0
    have h1 := hn 1
    have h2 := hn 2
    simp only [show (Fin.castSucc (0 : Fin 3)) = (0 : Fin 4) from rfl, show (Fin.castSucc (1 : Fin 3)) = (1 : Fin 4) from rfl,
      show (Fin.castSucc (2 : Fin 3)) = (2 : Fin 4) from rfl] at h0 h1 h2
    unfold skew
    rw [hst 0, hst 1, hst 2]
    linear_combination (a 1 * (q.start 2 + d * q.tilt 2 - c 2) - a 2 * (q.start 1 + d * q.tilt 1 - c 1)) * h0 +
      (a 2 * (q.start 0 + d * q.tilt 0 - c 0) - a 0 * (q.start 2 + d * q.tilt 2 - c 2)) * h1 +
      (a 0 * (q.start 1 + d * q.tilt 1 - c 1) - a 1 * (q.start 0 + d * q.tilt 0 - c 0)) * h2
  have main : ∀ {r r' : Row}, r ∈ t'.frame → r' ∈ t'.frame → r'.id = r.id → r.generation ≤ r'.generation → skew c a r' = skew c a r :=
    fun {r r'} hr hr' hid hle => rows_induction (b.ok ha limit) ht (P := fun q => skew c a q = skew c a r)
      (fun q hq q' hq' hf h => (key q hq q' hq' hf).trans h) hr hr' hid hle rfl
  rcases le_total r.generation r'.generation with h | h
  · exact main hr hr' hid h
  · exact (main hr' hr hid.symm h).symm

/-- **C90, meridional rays.** A ray that starts in a plane through the axis stays in that plane. -/
theorem C90_meridional (b : Bench argsort fuel s objs depth sources n) (ha : IsArgsort argsort)
    {k : ℕ} {t' : Tracer} (ht : Tracer.Traces k (Tracer.new sources (objs.map (s.component argsort depth)) n limit) t')
    {c a : Vec4} (hround : ∀ o ∈ objs, ∀ e ∈ surfaceIds depth s.heap o, s.material e.2 ≠ .absorber → RoundAbout s.heap e.2 c a)
    {m : Fin 3 → ℝ} (hm : m 0 * a 0 + m 1 * a 1 + m 2 * a 2 = 0)
    {r r' : Row} (hr : r ∈ t'.frame) (hr' : r' ∈ t'.frame) (hid : r'.id = r.id) (hle : r.generation ≤ r'.generation)
    (hs : m 0 * (r.start 0 - c 0) + m 1 * (r.start 1 - c 1) + m 2 * (r.start 2 - c 2) = 0)
    (ht0 : m 0 * r.tilt 0 + m 1 * r.tilt 1 + m 2 * r.tilt 2 = 0) :
    m 0 * (r'.start 0 - c 0) + m 1 * (r'.start 1 - c 1) + m 2 * (r'.start 2 - c 2) = 0 ∧
      m 0 * r'.tilt 0 + m 1 * r'.tilt 1 + m 2 * r'.tilt 2 = 0 ∧
      m 0 * (r'.stop 0 - c 0) + m 1 * (r'.stop 1 - c 1) + m 2 * (r'.stop 2 - c 2) = 0 := by
  have key := rows_induction (b.ok ha limit) ht
    (P := fun q => m 0 * (q.start 0 - c 0) + m 1 * (q.start 1 - c 1) + m 2 * (q.start 2 - c 2) = 0 ∧ m 0 * q.tilt 0 + m 1 * q.tilt 1 + m 2 * q.tilt 2 = 0)
    (by
      intro q hq q' hq' hf ⟨e1, e2⟩
      obtain ⟨o, ho, x, id, hx, -, hmat, γ, himp⟩ := C90_impulse b ha ht hq hq' hf
      obtain ⟨d, μ, hfin, hst⟩ := follows_start b ha ht hq hq' hf
      obtain ⟨α, β, hnorm⟩ := hround o ho _ hx hmat q.finish rfl
      simp only at hnorm
      have hpos := b.row_positive ha ht hq'
      have hn : ∀ i : Fin 3, q'.index * q'.tilt i = q.index * q.tilt i +
          γ * (α * (q.start i + d * q.tilt i - c i.castSucc) + β * a i.castSucc) := by
        intro i
        have h1 := himp i
        rw [hnorm] at h1
        simp only [Pi.add_apply, Pi.smul_apply, Pi.sub_apply, smul_eq_mul] at h1
        rw [hfin i] at h1
        linarith
      have h0 := hn 0
      have h1 := hn 1
      have h2 := hn 2
      simp only [show (Fin.castSucc (0 : Fin 3)) = (0 : Fin 4) from rfl, show (Fin.castSucc (1 : Fin 3)) = (1 : Fin 4) from rfl,
        show (Fin.castSucc (2 : Fin 3)) = (2 : Fin 4) from rfl] at h0 h1 h2
      have e3 : m 0 * q'.tilt 0 + m 1 * q'.tilt 1 + m 2 * q'.tilt 2 = 0 := by
        have : q'.index * (m 0 * q'.tilt 0 + m 1 * q'.tilt 1 + m 2 * q'.tilt 2) = 0 := by
          linear_combination m 0 * h0 + m 1 * h1 + m 2 * h2 + γ * α * e1 + (q.index + γ * α * d) * e2 + γ * β * hm
        rcases mul_eq_zero.1 this with h | h
        · exact absurd h hpos.ne'
        · exact h
      refine ⟨?_, e3⟩
      rw [hst 0, hst 1, hst 2]
      linear_combination e1 + d * e2 + μ * e3) hr hr' hid hle ⟨hs, ht0⟩
  obtain ⟨e1, e2⟩ := key
  refine ⟨e1, e2, ?_⟩
  obtain ⟨-, d, -, hd⟩ := C35_unit_tilts (b.ok ha limit) ht r' hr'
  linear_combination e1 + d * e2 + m 0 * hd 0 + m 1 * hd 1 + m 2 * hd 2
end

/-- **C90, which components.** The lenses with a round aperture, and the mirrors without offset, are round about the x-axis, as far as their surfaces
do not absorb. For the mirrors the aperture may have any shape. -/
theorem C90_components {s0 : Scene} (h0 : Ready argsort fuel s0) (hf : 3 ≤ fuel) {depth : ℕ} (hdep : 3 ≤ depth) :
    (∀ r1 r2 t d m, 0 < d → ∀ a s, thickLens argsort fuel r1 r2 t (.scalar d) m s0 = (.ok a, s) →
      ∀ e ∈ surfaceIds depth s.heap a, s.material e.2 ≠ .absorber → RoundAbout s.heap e.2 (point 0 0 0) (vector 1 0 0)) ∧
    (∀ r1 r2 t d m, 0 < d → ∀ a s, biconvexLens argsort fuel r1 r2 t (.scalar d) m s0 = (.ok a, s) →
      ∀ e ∈ surfaceIds depth s.heap a, s.material e.2 ≠ .absorber → RoundAbout s.heap e.2 (point 0 0 0) (vector 1 0 0)) ∧
    (∀ r t d m, 0 < d → ∀ a s, planoConvexLens argsort fuel r t (.scalar d) m s0 = (.ok a, s) →
      ∀ e ∈ surfaceIds depth s.heap a, s.material e.2 ≠ .absorber → RoundAbout s.heap e.2 (point 0 0 0) (vector 1 0 0)) ∧
    (∀ t d m, 0 < d → ∀ a s, planeMirror argsort fuel t (.scalar d) m (0, 0) s0 = (.ok a, s) →
      ∀ e ∈ surfaceIds depth s.heap a, s.material e.2 ≠ .absorber → RoundAbout s.heap e.2 (point 0 0 0) (vector 1 0 0)) ∧
    (∀ r t ap m off, r ≠ 0 → goodAperture ap → ∀ a s, sphericalMirror argsort fuel r t ap m off s0 = (.ok a, s) →
      ∀ e ∈ surfaceIds depth s.heap a, s.material e.2 ≠ .absorber → RoundAbout s.heap e.2 (point 0 0 0) (vector 1 0 0)) ∧
    (∀ f t ap m off, 0 < f → goodAperture ap → ∀ a s, parabolicMirror argsort fuel f t ap m off s0 = (.ok a, s) →
      ∀ e ∈ surfaceIds depth s.heap a, s.material e.2 ≠ .absorber → RoundAbout s.heap e.2 (point 0 0 0) (vector 1 0 0)) := by
  have hdepth : ∀ {M : Made}, M.depth ≤ 3 → (M.map turn).depth ≤ depth := fun {M} h => by rw [Made.map_depth]; omega
  have hex : ∀ c : ℝ, ∃ c', turn * moveMatrix 0 0 c = turn * moveMatrix 0 0 c' := fun c => ⟨c, rfl⟩
  refine ⟨fun r1 r2 t d m hd a s hrun => ?_, fun r1 r2 t d m hd a s hrun => ?_, fun r t d m hd a s hrun => ?_, fun t d m hd a s hrun => ?_,
    fun r t ap m off hr hap a s hrun => ?_, fun f t ap m off hf0 hap a s hrun => ?_⟩
  · obtain ⟨T, rfl, c⟩ := (thickLens_makes h0 hf r1 r2 t (ap := .scalar d) hd m).of_run hrun
    refine c.round (hdepth ?_) ?_
    · cases r1 <;> cases r2 <;> simp only [thickLensMade, cutSide, Made.join] <;> (try split_ifs) <;> simp [Made.flip, Made.depth]
    · rw [map_leaves]
      cases r1 <;> cases r2 <;> simp only [thickLensMade, cutSide, Made.join] <;> (try split_ifs) <;>
        simp [Made.flip, Made.leaves, hex, Prim.IsRound, aperturePrim]
  · obtain ⟨T, rfl, c⟩ := (biconvexLens_makes h0 hf r1 r2 t (ap := .scalar d) hd m).of_run hrun
    refine c.round (hdepth (by simp [biconvexMade, Made.depth])) ?_
    rw [map_leaves]
    simp [biconvexMade, Made.leaves, hex, Prim.IsRound, aperturePrim]
  · obtain ⟨T, rfl, c⟩ := (planoConvexLens_makes h0 (by omega) r t (ap := .scalar d) hd m).of_run hrun
    refine c.round (hdepth (by simp [planoConvexMade, Made.depth])) ?_
    rw [map_leaves]
    simp [planoConvexMade, Made.leaves, hex, Prim.IsRound, aperturePrim]
  · obtain ⟨T, rfl, c⟩ := (planeMirror_makes h0 (by omega) t (ap := .scalar d) hd m (0, 0)).of_run hrun
    refine c.round (hdepth (by simp [planeMirrorMade, Made.depth])) ?_
    rw [map_leaves]
    simp [planeMirrorMade, Made.leaves, hex, Prim.IsRound, aperturePrim]
  · obtain ⟨T, rfl, c⟩ := (sphericalMirror_makes h0 (by omega) r t hr hap m off).of_run hrun
    refine c.round (hdepth (by simp [sphericalMade, Made.depth])) ?_
    rw [map_leaves]
    simp [sphericalMade, Made.leaves, hex, Prim.IsRound, aperturePrim]
  · obtain ⟨T, rfl, c⟩ := (parabolicMirror_makes h0 (by omega) hf0 t hap m off).of_run hrun
    refine c.round (hdepth (by simp [parabolicMade, Made.depth])) ?_
    rw [map_leaves]
    simp [parabolicMade, Made.leaves, hex, Prim.IsRound, aperturePrim]

/-- C90: a glass ball in the room, and a ray that passes the z-axis at the distance 0.6. All surfaces are round about every axis through the centre, the ray is
refracted into the ball, and it is skew to the z-axis and in one plane with the x-axis. -/
example (ha : IsArgsort argsort) : ∃ (s : Scene) (objs : List ℕ) (sources : List (ℕ → List Col)) (k : ℕ) (t' : Tracer),
    Bench argsort 3 s objs 1 sources 1 ∧ Tracer.Traces k (Tracer.new sources (objs.map (s.component argsort 1)) 1 5) t' ∧
    (∀ a, ∀ o ∈ objs, ∀ e ∈ surfaceIds 1 s.heap o, s.material e.2 ≠ .absorber → RoundAbout s.heap e.2 (point 0 0 0) a) ∧
    ∃ r ∈ t'.frame, ∃ r' ∈ t'.frame, Follows r r' ∧ skew (point 0 0 0) (vector 0 0 1) r ≠ 0 ∧
      r.start 2 = 0 ∧ r.tilt 2 = 0 := by
  obtain ⟨s0, -, h0, hsz, hk0, hw0, hm0⟩ := room_made (argsort := argsort) (fuel := 3)
  obtain ⟨s, -, c⟩ := (Ctx.start h0).surface (.sphere 1) (some (.glass (.basic (3 / 2))))
  obtain ⟨hdesc, -, haddr, -⟩ := c.parts _ List.mem_cons_self
  set B := s0.heap.size with hB
  simp only [Desc] at hdesc
  obtain ⟨hkB, hwB, -, hmB⟩ := hdesc
  have hmB := hmB _ rfl
  obtain ⟨-, hltB⟩ := haddr B (by simp [CTree.addrs])
  set ray := Spec.axisRay 1 (-5) 0.6 0 with hray
  set col : Col := ⟨ray, 0, 100, 0.633, 1, 0⟩ with hcol
  have b : Bench argsort 3 s [B, 0] 1 [fun _ => [col]] 1 := by
    refine room_bench hsz hk0 hm0 c (by simp [Made.depth]) (by simp [Made.leaves, Sized]) (m := .glass (.basic (3 / 2))) (by simp [Made.leaves]) ?_ ?_ ?_
    · exact ⟨rfl, rfl, rfl, by simp [hcol, hray, Spec.axisRay, norm4, vector]⟩
    · exact one_pos
    · rintro g hg
      cases hg
      norm_num [IndexModel.indexAt]
  have hinv := reaches_inv argsort empty_inv b.history.reaches
  have hkp : (s.heap.obj 0).kind = .prim (.sphere 1000) := (c.old 0 hsz).1.trans hk0
  have hTp : (s.heap.obj 0).objT = 1 := by
    rw [(hinv.synced 0 (b.exist 0 (by simp))).2.1, (c.old 0 hsz).2.1, hw0, inv_one]
  have hTB : (s.heap.obj B).objT = 1 := by rw [(hinv.synced B hltB).2.1, hwB, inv_one]
  have hidB : surfaceIds 1 s.heap B = [((s.heap.obj B).oid, B)] := by simp only [surfaceIds, hkB]
  have hid0 : surfaceIds 1 s.heap 0 = [((s.heap.obj 0).oid, 0)] := by simp only [surfaceIds, hkp]
  have hiso : Isometry (1 : Mat4) := ⟨by
    funext i
    fin_cases i <;> simp [Matrix.one_apply], fun v _ => by rw [one_mulVec]⟩
  obtain ⟨k, t', htr, -, -, -⟩ := C26_terminates (Tracer.new [fun _ => [col]] ([B, 0].map (s.component argsort 1)) 1 5) (by simp [Tracer.new]) (by simp [Tracer.new])
    (by simp [Tracer.new, hcol])
  have hhit : ((4.2 : ℝ) : EReal) ∈ (intersectObj argsort 1 s.heap B ray).1 := by
    have hmap : ray.map 1 = ray := by simp [Ray.map]
    simp only [intersectObj, hkB, leafIntersect, hTB, Prim.intersect, hmap]
    have hi : sphereIntersect 1 ray = (((5.8 : ℝ) : EReal), ((4.2 : ℝ) : EReal)) := by
      have ex : ray.d 0 = 1 ∧ ray.d 1 = 0 ∧ ray.d 2 = 0 ∧ ray.o 0 = -5 ∧ ray.o 1 = 0.6 ∧ ray.o 2 = 0 := ⟨rfl, rfl, rfl, rfl, rfl, rfl⟩
      obtain ⟨e1, e2, e3, e4, e5, e6⟩ := ex
      unfold sphereIntersect
      simp only [e1, e2, e3, e4, e5, e6]
      rw [if_neg (by norm_num), polyRoots, show (2 * (1 * (-5) + 0 * 0.6 + 0 * 0) : ℝ) ^ 2 -
        4 * (1 * 1 + 0 * 0 + 0 * 0) * (-5 * -5 + 0.6 * 0.6 + 0 * 0 - 1 ^ 2) = 1.6 ^ 2 by norm_num, if_pos (by norm_num),
        max_eq_right (by norm_num), Real.sqrt_sq (by norm_num)]
      congr 2 <;> norm_num
    rw [hi]
    have hle : ((4.2 : ℝ) : EReal) ≤ ((5.8 : ℝ) : EReal) := EReal.coe_le_coe_iff.2 (by norm_num)
    simp [sort2, min_eq_right hle]
  refine ⟨s, [B, 0], _, k, t', b, htr, ?_, ?_⟩
  · intro a o ho e he hm
    simp only [List.mem_cons, List.not_mem_nil, or_false] at ho
    rcases ho with rfl | rfl
    · rw [hidB, List.mem_singleton] at he
      rw [he]
      have := round_sphere hkB (by rw [hTB, hwB, inv_one]) (hwB ▸ hiso) a
      rwa [hwB, one_mulVec] at this
    · rw [hid0, List.mem_singleton] at he
      rw [he] at hm
      exact absurd ((c.old 0 hsz).2.2.2.trans hm0) hm
  rcases C89_starts b ha htr (i := 0) (c := col) rfl with ⟨r, hr, g0, -, hray0, -, hi0⟩ | hmiss
  swap
  · exact absurd ⟨by exact_mod_cast (by norm_num : (0 : ℝ) < 4.2), EReal.coe_lt_top _⟩ (hmiss (s.component argsort 1 B) (by simp) _ hhit)
  have ho : ∀ i : Fin 3, r.start i = ray.o i.castSucc := fun i => by
    rw [show ray = rowRay r from hray0.symm]; fin_cases i <;> rfl
  have hd : ∀ i : Fin 3, r.tilt i = ray.d i.castSucc := fun i => by
    rw [show ray = rowRay r from hray0.symm]; fin_cases i <;> rfl
  have o0 : r.start 0 = -5 := ho 0
  have o1 : r.start 1 = 0.6 := ho 1
  have o2 : r.start 2 = 0 := ho 2
  have d0 : r.tilt 0 = 1 := hd 0
  have d1 : r.tilt 1 = 0 := hd 1
  have d2 : r.tilt 2 = 0 := hd 2
  obtain ⟨-, r', hr', hf⟩ := room_step b ha htr hkp hTp hr (by
      rw [hidB]; simp [hmB]) (by
      intro i
      have h : i = 0 ∨ i = 1 ∨ i = 2 := by fin_cases i <;> simp
      rcases h with rfl | rfl | rfl
      · rw [o0]; norm_num
      · rw [o1]; norm_num [abs_le]
      · rw [o2]; norm_num) ⟨4.2, by norm_num, by norm_num, hray0 ▸ hhit⟩ (by rw [g0]; norm_num)
  refine ⟨r, hr, r', hr', hf, ?_, o2, d2⟩
  have e : skew (point 0 0 0) (vector 0 0 1) r = -0.6 := by
    unfold skew
    rw [hi0, o0, o1, o2, d0, d1, d2]
    have k0 : point 0 0 0 0 = 0 ∧ point 0 0 0 1 = 0 ∧ vector 0 0 1 0 = 0 ∧ vector 0 0 1 1 = 0 ∧ vector 0 0 1 2 = 1 ∧ col.index = 1 := ⟨rfl, rfl, rfl, rfl, rfl, rfl⟩
    obtain ⟨k1, k2, k3, k4, k5, k6⟩ := k0
    rw [k1, k2, k3, k4, k5, k6]
    norm_num
  rw [e]
  norm_num

/-- `C90_components`: a glass lens with a round aperture is made, and has surfaces that do not absorb. -/
example : ∃ s0, Ready argsort 3 s0 ∧ ∃ a s, thickLens argsort 3 (some 10) (some (-10)) 1 (.scalar 2) (.glass (.basic (3 / 2))) s0 = (.ok a, s) ∧
    ∃ e ∈ surfaceIds 3 s.heap a, s.material e.2 ≠ .absorber := by
  have fits := fits_biconvex
  have h0 := ready_empty (argsort := argsort) (fuel := 3) fun _ => .absorber
  obtain ⟨s, T, hrun, c⟩ := thickLens_makes h0 le_rfl (some 10) (some (-10)) 1 fits.opening (.glass (.basic (3 / 2)))
  obtain ⟨-, -, fdepth⟩ := thickLens_solid_facts (R1 := 10) (R2 := -10) (t := 1) (ap := .scalar 2) (.glass (.basic (3 / 2)))
  obtain ⟨lo, hi, -, hfull, -⟩ := lens_reach fits
  have hleaves := thickLens_leaves (m := .glass (.basic (3 / 2))) hfull
  obtain ⟨hdesc, -⟩ := c.parts _ List.mem_cons_self
  have hlen := (hdesc.surfaces fdepth.le).length_eq
  rw [hleaves] at hlen
  obtain ⟨e, he⟩ := List.exists_mem_of_length_pos (l := surfaceIds 3 s.heap T.root) (by rw [hlen]; simp)
  refine ⟨_, h0, T.root, s, hrun, e, he, ?_⟩
  rw [c.material fdepth.le (m := .glass (.basic (3 / 2))) (by rw [hleaves]; simp [lensLeaf1, lensLeaf2]) e he]
  simp

end PyRayT
