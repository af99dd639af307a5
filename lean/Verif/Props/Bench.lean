import Verif.Proofs.Plate

/-!
# Property C86: perpendicular incidence, parallel windows and balls

Consequences for whole traces, in terms of the rows of the result only: what happens to a ray that meets a surface at right angles,
that crosses two parallel faces of one glass, or that is aimed at the centre of a ball.
-/

namespace PyRayT

open Classical Matrix Spec

variable (argsort : List EReal → List ℕ)

/-- An optical bench: objects of any history that leaves them affinely placed, made of surfaces with nonzero radii and focal lengths and all distinct,
with the built-in materials; sources emitting unit directions and positive indices at wavelengths for which the glasses
have positive indices. -/
structure Spec.Bench (fuel : ℕ) (s : Scene) (objs : List ℕ) (depth : ℕ) (sources : List (ℕ → List Col)) (n : ℕ) : Prop where
  history : Placed argsort fuel s.heap
  exist : ∀ a ∈ objs, a < s.heap.size
  distinct : (objs.flatMap fun a => (surfaceIds depth s.heap a).map Prod.snd).Nodup
  sized : ∀ a ∈ objs, ∀ x id p, (id, x) ∈ surfaceIds depth s.heap a → (s.heap.obj x).kind = .prim p → Sized p
  emits : ∀ f ∈ sources, ∀ c ∈ f n, c.generation = 0 ∧ c.ray.o 3 = 1 ∧ c.ray.d 3 = 0 ∧ norm4 c.ray.d = 1
  positive : ∀ f ∈ sources, ∀ c ∈ f n, 0 < c.index ∧
    ∀ a ∈ objs, ∀ x id g, (id, x) ∈ surfaceIds depth s.heap a → s.material x = .glass g → 0 < g.indexAt c.wavelength

/-- direction of a row as a homogeneous vector -/
noncomputable def Row.dir (r : Row) : Vec4 := vector (r.tilt 0) (r.tilt 1) (r.tilt 2)

/-- end of a row as a homogeneous point -/
noncomputable def Row.finish (r : Row) : Vec4 := point (r.stop 0) (r.stop 1) (r.stop 2)

/-- rows of consecutive generations of the same ray -/
def Spec.Follows (r r' : Row) : Prop := r'.id = r.id ∧ r'.generation = r.generation + 1

section
variable {argsort} {fuel : ℕ} {s : Scene} {objs : List ℕ} {depth : ℕ} {sources : List (ℕ → List Col)} {n : ℕ} {limit : ℤ}

theorem Spec.Bench.ok (b : Bench argsort fuel s objs depth sources n) (ha : IsArgsort argsort) (limit : ℤ) :
    TracerOk (Tracer.new sources (objs.map (s.component argsort depth)) n limit) :=
  scene_tracer_ok argsort ha fuel s b.history.reaches objs b.exist depth b.distinct sources n limit b.emits

theorem Spec.Bench.unit (b : Bench argsort fuel s objs depth sources n) (ha : IsArgsort argsort)
    {k : ℕ} {t' : Tracer} (ht : Tracer.Traces k (Tracer.new sources (objs.map (s.component argsort depth)) n limit) t')
    {r : Row} (hr : r ∈ t'.frame) : dot4 r.dir r.dir = 1 := by
  rw [← (C35_unit_tilts (b.ok ha limit) ht r hr).1]
  simp [dot4, Row.dir, vector]
  ring

/-- two surfaces with the same id are the same surface -/
theorem Spec.Bench.same (b : Bench argsort fuel s objs depth sources n) {a a' x x' id id' : ℕ} (haa : a ∈ objs) (haa' : a' ∈ objs)
    (hx : (id, x) ∈ surfaceIds depth s.heap a) (hx' : (id', x') ∈ surfaceIds depth s.heap a') (he : id = id') : x = x' := by
  have hi := reaches_inv argsort empty_inv b.history.reaches
  obtain ⟨hy, ey, -⟩ := surfaceIds_spec hi depth a (b.exist a haa) _ hx
  obtain ⟨hy', ey', -⟩ := surfaceIds_spec hi depth a' (b.exist a' haa') _ hx'
  by_contra hne
  apply (C56_unique_ids argsort fuel s.heap (b.history.reaches.any argsort)).1 x x' hy hy' hne
  rw [← ey, ← ey']
  exact he

/-- C74 at a given surface -/
theorem Spec.Bench.optics (b : Bench argsort fuel s objs depth sources n) (ha : IsArgsort argsort)
    {k : ℕ} {t' : Tracer} (ht : Tracer.Traces k (Tracer.new sources (objs.map (s.component argsort depth)) n limit) t')
    {r r' : Row} (hr : r ∈ t'.frame) (hr' : r' ∈ t'.frame) (hf : Follows r r') {a x id : ℕ} (haa : a ∈ objs)
    (hx : (id, x) ∈ surfaceIds depth s.heap a) (hs : r.surface = (id : ℤ)) :
    let n := surfaceNormal s.heap x r.finish
    dot4 n n = 1 ∧ 0 < r.index ∧ Interacts (s.material x) r.wavelength n r.dir r.index r'.dir r'.index := by
  obtain ⟨a', haa', x', id', hx', hs', h⟩ := C74_trace_optics argsort ha fuel s b.history objs b.exist depth b.distinct b.sized sources n limit
    b.emits b.positive ht r r' hr hr' hf.1 hf.2
  have e := b.same haa haa' hx hx' (by exact_mod_cast hs.symm.trans hs')
  subst e
  exact ⟨norm4_eq_one.1 h.1, h.2.1, h.2.2⟩

theorem Spec.Bench.glass_pos (b : Bench argsort fuel s objs depth sources n) (ha : IsArgsort argsort)
    {k : ℕ} {t' : Tracer} (ht : Tracer.Traces k (Tracer.new sources (objs.map (s.component argsort depth)) n limit) t')
    {r : Row} (hr : r ∈ t'.frame) {a x id : ℕ} (haa : a ∈ objs) (hx : (id, x) ∈ surfaceIds depth s.heap a) {g : IndexModel}
    (hg : s.material x = .glass g) : 0 < g.indexAt r.wavelength := by
  have ok := b.ok ha limit
  obtain ⟨i, g', -, c0, c, d, sf, he, hj, -, -, hseg⟩ := (trace_iff ok ht r).1 hr
  have w := hj.onTheWay ok he
  obtain ⟨c', hc', rfl⟩ := he
  obtain ⟨f, hf, hcf⟩ := List.mem_flatMap.1 (List.mem_of_getElem? hc')
  rw [hseg.wavelength, w.wavelength]
  exact (b.positive f hf c' hcf).2 a haa x id g hx hg

theorem Spec.Bench.wavelength (b : Bench argsort fuel s objs depth sources n) (ha : IsArgsort argsort)
    {k : ℕ} {t' : Tracer} (ht : Tracer.Traces k (Tracer.new sources (objs.map (s.component argsort depth)) n limit) t')
    {r r' : Row} (hr : r ∈ t'.frame) (hr' : r' ∈ t'.frame) (hf : Follows r r') : r'.wavelength = r.wavelength :=
  (C28_connected (b.ok ha limit) ht r r' hr hr' hf.1 hf.2).2.2.1

/-- **C86, perpendicular incidence.** If a row ends on a surface at right angles to it, the next row of the ray is turned back along the
same line by a mirror; by a glass it keeps its direction and gets the index of the far side. There is no total reflection. -/
theorem C86_perpendicular (b : Bench argsort fuel s objs depth sources n) (ha : IsArgsort argsort)
    {k : ℕ} {t' : Tracer} (ht : Tracer.Traces k (Tracer.new sources (objs.map (s.component argsort depth)) n limit) t')
    {r r' : Row} (hr : r ∈ t'.frame) (hr' : r' ∈ t'.frame) (hf : Follows r r') {a x id : ℕ} (haa : a ∈ objs)
    (hx : (id, x) ∈ surfaceIds depth s.heap a) (hs : r.surface = (id : ℤ))
    {κ : ℝ} (hp : r.dir = κ • surfaceNormal s.heap x r.finish) :
    (s.material x = .mirror → (∀ i, r'.tilt i = -r.tilt i) ∧ r'.index = r.index) ∧
    (∀ g, s.material x = .glass g → (∀ i, r'.tilt i = r.tilt i) ∧
      r'.index = if 0 < dot4 r.dir (surfaceNormal s.heap x r.finish) then 1 else g.indexAt r.wavelength) ∧
    s.material x ≠ .absorber := by
  obtain ⟨hn, -, hi⟩ := b.optics ha ht hr hr' hf haa hx hs
  have hu := b.unit ha ht hr
  have hw := b.unit ha ht hr'
  have hp' : ∀ i, r.dir i = κ * surfaceNormal s.heap x r.finish i := fun i => congrFun hp i
  refine ⟨fun hm => ?_, fun g hm => ?_, fun hm => ?_⟩
  · rw [hm] at hi
    obtain ⟨h1, h2⟩ := interacts_parallel_mirror hu hn hp' hi
    exact ⟨fun i => by fin_cases i <;> [exact h1 0; exact h1 1; exact h1 2], h2⟩
  · rw [hm] at hi
    obtain ⟨h1, h2⟩ := interacts_parallel_glass hu hn hw (b.glass_pos ha ht hr haa hx hm) hp' hi
    exact ⟨fun i => by fin_cases i <;> [exact h1 0; exact h1 1; exact h1 2], h2⟩
  · rw [hm] at hi
    exact hi

/-- **C86, windows.** If a ray arrives from air, enters a glass of index at least 1 through a surface and next meets a surface
of glass of the same index with the opposite normal, it leaves there into air, with exactly the direction it came with. -/
theorem C86_window (b : Bench argsort fuel s objs depth sources n) (ha : IsArgsort argsort)
    {k : ℕ} {t' : Tracer} (ht : Tracer.Traces k (Tracer.new sources (objs.map (s.component argsort depth)) n limit) t')
    {r r' r'' : Row} (hr : r ∈ t'.frame) (hr' : r' ∈ t'.frame) (hr'' : r'' ∈ t'.frame) (hf : Follows r r') (hf' : Follows r' r'')
    {a x id a' x' id' : ℕ} (haa : a ∈ objs) (hx : (id, x) ∈ surfaceIds depth s.heap a) (hs : r.surface = (id : ℤ))
    (haa' : a' ∈ objs) (hx' : (id', x') ∈ surfaceIds depth s.heap a') (hs' : r'.surface = (id' : ℤ))
    {g g' : IndexModel} (hg : s.material x = .glass g) (hg' : s.material x' = .glass g') (hgg : g'.indexAt r.wavelength = g.indexAt r.wavelength)
    (h1 : 1 ≤ g.indexAt r.wavelength) (hair : r.index = 1) (hin : dot4 r.dir (surfaceNormal s.heap x r.finish) < 0)
    (hpar : surfaceNormal s.heap x' r'.finish = -surfaceNormal s.heap x r.finish) :
    r'.index = g.indexAt r.wavelength ∧ r''.index = 1 ∧ ∀ i, r''.tilt i = r.tilt i := by
  obtain ⟨hn, -, hi⟩ := b.optics ha ht hr hr' hf haa hx hs
  obtain ⟨-, -, hi'⟩ := b.optics ha ht hr' hr'' hf' haa' hx' hs'
  rw [hg, hair] at hi
  rw [hg', hpar, b.wavelength ha ht hr hr' hf] at hi'
  obtain ⟨e1, e2, e3⟩ := interacts_window (b.unit ha ht hr) hn (b.unit ha ht hr') (b.unit ha ht hr'') h1 hgg hin hi hi'
  exact ⟨e1, e2, fun i => by fin_cases i <;> [exact e3 0; exact e3 1; exact e3 2]⟩

/-- The local point is on the face of the cuboid with corners `a` and `b` where coordinate `i` is largest (`hi`) or smallest, and away
from the tolerance bands of `isclose` around the other faces. -/
def Spec.OnFace (a b : Fin 3 → ℝ) (i : Fin 3) (hi : Bool) (q : Vec4) : Prop :=
  q i.castSucc = (if hi then max (a i) (b i) else min (a i) (b i)) ∧ ¬ isclose (min (a i) (b i)) (max (a i) (b i)) ∧
    ∀ j, j ≠ i → ¬ isclose (q j.castSucc) (min (a j) (b j)) ∧ ¬ isclose (q j.castSucc) (max (a j) (b j))

theorem cube_face_normal {a b : Fin 3 → ℝ} {i : Fin 3} {q : Vec4} {hi : Bool} (h : OnFace a b i hi q) :
    Prim.normal (.cube a b) q = fun j => if j = i.castSucc then (if hi then 1 else -1) else 0 := by
  obtain ⟨h1, h2, h3⟩ := h
  have ei : cubeNormalComp (cubeSpans a b i) (q i.castSucc) = if hi then 1 else -1 := by
    rw [h1]
    cases hi
    · exact cubeNormalComp_lo h2 (isclose_self _)
    · exact cubeNormalComp_hi (isclose_self _)
  have ej : ∀ j, j ≠ i → cubeNormalComp (cubeSpans a b j) (q j.castSucc) = 0 := fun j hj => cubeNormalComp_none (h3 j hj).2 (h3 j hj).1
  have e0 := ej 0
  have e1 := ej 1
  have e2 := ej 2
  have hh : ((if hi then 1 else -1 : ℝ)) ^ 2 = 1 := by cases hi <;> norm_num
  simp only [Prim.normal]
  fin_cases i
  · have e1 := e1 (by decide)
    have e2 := e2 (by decide)
    simp only [Fin.zero_eta, Fin.castSucc_zero, Fin.mk_one, Fin.reduceFinMk, Fin.castSucc_one, Fin.reduceCastSucc] at ei e1 e2 ⊢
    rw [ei, e1, e2]
    funext j
    fin_cases j <;> simp [normalize, norm4, hh]
  · have e0 := e0 (by decide)
    have e2 := e2 (by decide)
    simp only [Fin.zero_eta, Fin.castSucc_zero, Fin.mk_one, Fin.reduceFinMk, Fin.castSucc_one, Fin.reduceCastSucc] at ei e0 e2 ⊢
    rw [ei, e0, e2]
    funext j
    fin_cases j <;> simp [normalize, norm4, hh]
  · have e0 := e0 (by decide)
    have e1 := e1 (by decide)
    simp only [Fin.zero_eta, Fin.castSucc_zero, Fin.mk_one, Fin.reduceFinMk, Fin.castSucc_one, Fin.reduceCastSucc] at ei e0 e1 ⊢
    rw [ei, e0, e1]
    funext j
    fin_cases j <;> simp [normalize, norm4, hh]

theorem normalize_neg (v : Vec4) : normalize (-v) = -normalize v := by
  funext i; simp [normalize, norm4, neg_div]

theorem zeroW_neg (v : Vec4) : zeroW (-v) = -zeroW v := by
  funext i; fin_cases i <;> simp [zeroW]

/-- opposite faces of a cuboid in any placement have opposite normals -/
theorem cube_faces_opposite {o : Obj} {a b : Fin 3 → ℝ} {i : Fin 3} {p q : Vec4} {hi : Bool} (hp : OnFace a b i hi (o.objT *ᵥ p))
    (hq : OnFace a b i (!hi) (o.objT *ᵥ q)) : worldNormal o (.cube a b) q = -worldNormal o (.cube a b) p := by
  have e : Prim.normal (.cube a b) (o.objT *ᵥ q) = -Prim.normal (.cube a b) (o.objT *ᵥ p) := by
    rw [cube_face_normal hp, cube_face_normal hq]
    funext j
    simp only [Pi.neg_apply]
    split <;> cases hi <;> simp
  rw [worldNormal, e, mulVec_neg, zeroW_neg, normalize_neg, smul_neg]
  rfl

/-- **C86, cuboids.** A ray from air that enters a cuboid of glass (of index at least 1) through one face and meets the opposite face next goes on
behind the cuboid in the direction it had before it, whatever the angle and whatever the placement and scaling of the cuboid. -/
theorem C86_cuboid (b : Bench argsort fuel s objs depth sources n) (ha : IsArgsort argsort)
    {k : ℕ} {t' : Tracer} (ht : Tracer.Traces k (Tracer.new sources (objs.map (s.component argsort depth)) n limit) t')
    {r r' r'' : Row} (hr : r ∈ t'.frame) (hr' : r' ∈ t'.frame) (hr'' : r'' ∈ t'.frame) (hf : Follows r r') (hf' : Follows r' r'')
    {a x id : ℕ} (haa : a ∈ objs) (hx : (id, x) ∈ surfaceIds depth s.heap a) (hs : r.surface = (id : ℤ)) (hs' : r'.surface = (id : ℤ))
    {p q : Fin 3 → ℝ} (hk : (s.heap.obj x).kind = .prim (.cube p q)) {i : Fin 3} {hi : Bool}
    (h0 : OnFace p q i hi ((s.heap.obj x).world⁻¹ *ᵥ r.finish)) (h1 : OnFace p q i (!hi) ((s.heap.obj x).world⁻¹ *ᵥ r'.finish))
    {g : IndexModel} (hg : s.material x = .glass g) (hg1 : 1 ≤ g.indexAt r.wavelength) (hair : r.index = 1)
    (hin : dot4 r.dir (surfaceNormal s.heap x r.finish) < 0) :
    r'.index = g.indexAt r.wavelength ∧ r''.index = 1 ∧ ∀ i, r''.tilt i = r.tilt i := by
  have hinv := reaches_inv argsort empty_inv b.history.reaches
  obtain ⟨hxs, -, -⟩ := surfaceIds_spec hinv depth a (b.exist a haa) _ hx
  rw [← (hinv.synced x hxs).2.1] at h0 h1
  refine C86_window b ha ht hr hr' hr'' hf hf' haa hx hs haa hx hs' hg hg rfl hg1 hair hin ?_
  have e : ∀ z, surfaceNormal s.heap x z = worldNormal (s.heap.obj x) (.cube p q) z := fun z => by simp only [surfaceNormal, hk]
  rw [e, e]
  exact cube_faces_opposite h0 h1

theorem normalize_smul_eq (v : Vec4) : normalize v = (norm4 v)⁻¹ • v := by
  funext i; simp [normalize]; ring

/-- on a line through the centre of a ball the normal is along the line -/
theorem ball_line_normal {o : Obj} (hw : Isometry o.world) (ho : o.objT = o.world⁻¹) (ρ : ℝ) {p d : Vec4} (hd : d 3 = 0) {v : ℝ}
    (hp : p = o.world *ᵥ point 0 0 0 + v • d) : ∃ μ : ℝ, worldNormal o (.sphere ρ) p = μ • d := by
  have hd' : (o.world⁻¹ *ᵥ d) 3 = 0 := by rw [← hw.three (o.world⁻¹ *ᵥ d), hw.mulVec_inv, hd]
  have e : o.objT *ᵥ p = point 0 0 0 + v • (o.world⁻¹ *ᵥ d) := by rw [ho, hp, mulVec_add, hw.inv_mulVec, mulVec_smul]
  set l := o.world⁻¹ *ᵥ d with hl
  have e2 : (![(o.objT *ᵥ p) 0, (o.objT *ᵥ p) 1, (o.objT *ᵥ p) 2, 0] : Vec4) = v • l := by
    rw [e]; funext i; fin_cases i <;> simp [point, hd']
  have e3 : zeroW (normalize (v • l)) = normalize (v • l) := by
    funext i; fin_cases i <;> simp [zeroW, normalize, hd']
  have e4 : zeroW (o.objTᵀ *ᵥ normalize (v • l)) = ((norm4 (v • l))⁻¹ * v) • d := by
    rw [ho, hw.zeroW, e3, normalize_smul_eq, smul_smul, mulVec_smul, hl, hw.mulVec_inv]
  refine ⟨o.nscale * ((norm4 (((norm4 (v • l))⁻¹ * v) • d))⁻¹ * ((norm4 (v • l))⁻¹ * v)), ?_⟩
  simp only [worldNormal, Prim.normal]
  rw [e2, e4, normalize_smul_eq, smul_smul, smul_smul, mul_assoc]

/-- **C86, balls.** Let a row end on a sphere that has been moved and turned but not scaled, and let its line pass through the centre of
the sphere. A mirror sends the ray back along the same line, a glass lets it pass in the same direction. -/
theorem C86_ball (b : Bench argsort fuel s objs depth sources n) (ha : IsArgsort argsort)
    {k : ℕ} {t' : Tracer} (ht : Tracer.Traces k (Tracer.new sources (objs.map (s.component argsort depth)) n limit) t')
    {r r' : Row} (hr : r ∈ t'.frame) (hr' : r' ∈ t'.frame) (hf : Follows r r') {a x id : ℕ} (haa : a ∈ objs)
    (hx : (id, x) ∈ surfaceIds depth s.heap a) (hs : r.surface = (id : ℤ))
    {ρ : ℝ} (hk : (s.heap.obj x).kind = .prim (.sphere ρ)) (hw : Isometry (s.heap.obj x).world)
    {v : ℝ} (hc : r.finish = (s.heap.obj x).world *ᵥ point 0 0 0 + v • r.dir) :
    (s.material x = .mirror → (∀ i, r'.tilt i = -r.tilt i) ∧ r'.index = r.index) ∧
    (∀ g, s.material x = .glass g → ∀ i, r'.tilt i = r.tilt i) ∧
    ∃ v' : ℝ, point (r'.start 0) (r'.start 1) (r'.start 2) = (s.heap.obj x).world *ᵥ point 0 0 0 + v' • r'.dir := by
  have hinv := reaches_inv argsort empty_inv b.history.reaches
  obtain ⟨hxs, -, -⟩ := surfaceIds_spec hinv depth a (b.exist a haa) _ hx
  obtain ⟨μ, hμ⟩ := ball_line_normal hw (hinv.synced x hxs).2.1 ρ (p := r.finish) (d := r.dir) (by simp [Row.dir, vector]) hc
  have e : surfaceNormal s.heap x r.finish = μ • r.dir := by rw [← hμ]; simp only [surfaceNormal, hk]
  obtain ⟨hn, -, -⟩ := b.optics ha ht hr hr' hf haa hx hs
  rw [e] at hn
  have hu := b.unit ha ht hr
  have hμ2 : μ * μ = 1 := by
    have : dot4 (μ • r.dir) (μ • r.dir) = μ * μ * dot4 r.dir r.dir := by simp [dot4]; ring
    rw [← hn, this, hu, mul_one]
  have hp : r.dir = μ • surfaceNormal s.heap x r.finish := by rw [e, smul_smul, hμ2, one_smul]
  obtain ⟨p1, p2, p3⟩ := C86_perpendicular b ha ht hr hr' hf haa hx hs hp
  refine ⟨p1, fun g hg => (p2 g hg).1, ?_⟩
  obtain ⟨δ, hδ⟩ : ∃ δ : ℝ, ∀ i, r'.start i = r.stop i + δ * r'.tilt i := ⟨_, (C28_connected (b.ok ha limit) ht r r' hr hr' hf.1 hf.2).1⟩
  obtain ⟨σ, hσ⟩ : ∃ σ : ℝ, r.dir = σ • r'.dir := by
    cases hm : s.material x with
    | absorber => exact absurd hm p3
    | mirror => exact ⟨-1, by funext i; fin_cases i <;> simp [Row.dir, vector, (p1 hm).1]⟩
    | glass g => exact ⟨1, by funext i; fin_cases i <;> simp [Row.dir, vector, (p2 g hm).1]⟩
  refine ⟨v * σ + δ, ?_⟩
  have e5 : point (r'.start 0) (r'.start 1) (r'.start 2) = r.finish + δ • r'.dir := by
    funext i; fin_cases i <;> simp [Row.finish, Row.dir, point, vector, hδ]
  rw [e5, hc, hσ, smul_smul, add_smul, add_assoc]

end

/-! ### Examples: an oblique ray through a plate of glass, and a ray on the axis of a spherical mirror -/

theorem plate_bench : Bench argsort 1 plate [0, 1] 1 [fun _ => [plateCol (-4.75) (-4) 0.8 0.6 1 0]] 1 where
  history := (plate_reaches argsort).placed
  exist a h := by
    rw [plate_one.2.2.2]
    simp at h; omega
  distinct := by simp [plate_surfaces0, plate_surfaces1]
  sized a h x id p hx hk := by
    simp only [List.mem_cons, List.not_mem_nil, or_false] at h
    rcases h with rfl | rfl
    · rw [plate_surfaces0] at hx
      simp only [List.mem_singleton, Prod.mk.injEq] at hx
      obtain ⟨-, rfl⟩ := hx
      rw [plate_zero.1] at hk
      cases hk; trivial
    · rw [plate_surfaces1] at hx
      simp only [List.mem_singleton, Prod.mk.injEq] at hx
      obtain ⟨-, rfl⟩ := hx
      rw [plate_one.1] at hk
      cases hk; trivial
  emits f hf c hc := by
    simp only [List.mem_singleton] at hf
    subst hf
    simp only [List.mem_singleton] at hc
    subst hc
    refine ⟨by simp [plateCol], rfl, rfl, ?_⟩
    simp [plateCol, planeRay, norm4, vector]; norm_num
  positive f hf c hc := by
    simp only [List.mem_singleton] at hf
    subst hf
    simp only [List.mem_singleton] at hc
    subst hc
    refine ⟨by simp [plateCol], fun a _ x id g _ hg => ?_⟩
    simp only [plate] at hg
    split at hg
    · cases hg; simp [IndexModel.indexAt]
    · cases hg

/-- the three rows of the oblique ray: before, in and behind the plate -/
theorem plate_rows (ha : IsArgsort argsort) : ∃ (k : ℕ) (t' : Tracer) (r r' r'' : Row), Tracer.Traces k (plateTracer argsort) t' ∧
    r ∈ t'.frame ∧ r' ∈ t'.frame ∧ r'' ∈ t'.frame ∧ Follows r r' ∧ Follows r' r'' ∧ r.surface = 0 ∧ r'.surface = 0 ∧ r.index = 1 ∧
    r.dir = vector 0 0.8 0.6 ∧ r.finish = point 0 (-0.75) (-1) ∧ r'.finish = point 0 0.75 1 := by
  have ok : TracerOk (plateTracer argsort) := (plate_bench argsort).ok ha 3
  obtain ⟨k, t', h, -⟩ := C26_terminates (plateTracer argsort) (by simp [plateTracer, Tracer.new]) (by simp [plateTracer, Tracer.new])
    (fun s hs c hc => (ok.emits s hs c hc).1)
  obtain ⟨n0, j1⟩ := plate_journey1 argsort
  obtain ⟨n1, j2, n2⟩ := plate_journey2 argsort
  have he : Emitted (plateTracer argsort) 0 (plateCol (-4.75) (-4) 0.8 0.6 1 0) := ⟨_, rfl, by simp [plateCol]⟩
  have hx : ∀ y z dy dz i g, dy ^ 2 + dz ^ 2 = 1 → ¬ Extinct (plateCol y z dy dz i g) := fun y z dy dz i g hd =>
    not_extinct_of_unit (by simp [plateCol, planeRay, norm4, vector, hd])
  obtain ⟨r, hr⟩ := segment_exists (plateCol (-4.75) (-4) 0.8 0.6 1 0) 5 0
  obtain ⟨r', hr'⟩ := segment_exists (plateCol (-0.75 + 1e-6 * 0.6) (-1 + 1e-6 * 0.8) 0.6 0.8 (4 / 3) 1) (2.5 - 1e-6) 0
  obtain ⟨r'', hr''⟩ := segment_exists (plateCol (0.75 + 1e-6 * 0.8) (1 + 1e-6 * 0.6) 0.8 0.6 1 2) (5 - 1e-6) 1
  refine ⟨k, t', r, r', r'', h, (trace_iff ok h r).2 ⟨0, 0, fun _ => ?_, _, _, _, _, he, Journey.start, hx _ _ _ _ _ _ ?_, n0, hr⟩,
    (trace_iff ok h r').2 ⟨0, 1, fun _ => ?_, _, _, _, _, he, j1, hx _ _ _ _ _ _ ?_, n1, hr'⟩,
    (trace_iff ok h r'').2 ⟨0, 2, fun _ => ?_, _, _, _, _, he, j2, hx _ _ _ _ _ _ ?_, n2, hr''⟩, ⟨?_, ?_⟩, ⟨?_, ?_⟩, hr.surface, hr'.surface,
    hr.index, ?_, ?_, ?_⟩
  · simp [plateTracer, Tracer.new]
  · norm_num
  · simp [plateTracer, Tracer.new]
  · norm_num
  · simp [plateTracer, Tracer.new]
  · norm_num
  · rw [hr.id, hr'.id]; rfl
  · rw [hr.generation, hr'.generation]; simp [plateCol]
  · rw [hr''.id, hr'.id]; rfl
  · rw [hr''.generation, hr'.generation]; simp [plateCol]; norm_num
  · have e : √((0.8 : ℝ) ^ 2 + 0.6 ^ 2) = 1 := by rw [show (0.8 : ℝ) ^ 2 + 0.6 ^ 2 = 1 by norm_num, Real.sqrt_one]
    funext i
    fin_cases i <;> simp only [Row.dir, vector, hr.tilt] <;> simp [plateCol, planeRay, vector, e]
  · funext i
    fin_cases i <;> simp only [Row.finish, point, hr.stop] <;> simp [plateCol, planeRay, vector, point] <;> norm_num
  · funext i
    fin_cases i <;> simp only [Row.finish, point, hr'.stop] <;> simp [plateCol, planeRay, vector, point] <;> norm_num

/-- non-vacuity of `C86_window` and `C86_cuboid`: all hypotheses hold for the plate, hit at an angle -/
example (ha : IsArgsort argsort) : ∃ (k : ℕ) (t' : Tracer) (r r' r'' : Row), Tracer.Traces k (plateTracer argsort) t' ∧
    r ∈ t'.frame ∧ r' ∈ t'.frame ∧ r'' ∈ t'.frame ∧ r.dir = vector 0 0.8 0.6 ∧ ∀ i, r''.tilt i = r.tilt i := by
  obtain ⟨k, t', r, r', r'', h, h0, h1, h2, f0, f1, s0, s1, i0, d0, p0, p1⟩ := plate_rows argsort ha
  refine ⟨k, t', r, r', r'', h, h0, h1, h2, d0, ?_⟩
  have hw : (plate.heap.obj 0).world⁻¹ = 1 := by rw [plate_zero.2.2.1, inv_one]
  have hm : plate.material 0 = .glass (.basic (4 / 3)) := by simp [plate]
  have face : ∀ y : ℝ, |y| < 0.9 → ∀ b : Bool, OnFace ![-1, -1, -1] ![1, 1, 1] 2 b (point 0 y (if b then 1 else -1)) := by
    intro y hy b
    obtain ⟨h1, h2⟩ := abs_lt.1 hy
    have n1 : ¬ isclose y 1 := by
      unfold isclose; rw [abs_of_neg (by linarith)]; norm_num; linarith
    have n2 : ¬ isclose y (-1) := by
      unfold isclose; rw [abs_of_pos (by linarith)]; norm_num; linarith
    refine ⟨by cases b <;> simp [point], by simp [isclose]; norm_num, fun j hj => ?_⟩
    fin_cases j
    · exact ⟨by simp [point, isclose]; norm_num, by simp [point, isclose]; norm_num⟩
    · exact ⟨by simpa [point] using n2, by simpa [point] using n1⟩
    · exact absurd rfl hj
  refine (C86_cuboid (plate_bench argsort) ha h h0 h1 h2 f0 f1 (a := 0) (x := 0) (id := 0) (by simp) (by simp [plate_surfaces0])
    (by rw [s0]; rfl) (by rw [s1]; rfl) plate_zero.1 (i := 2) (hi := false) ?_ ?_ hm ?_ i0 ?_).2.2
  · rw [hw, one_mulVec, p0]
    exact face _ (by norm_num) false
  · rw [hw, one_mulVec, p1]
    exact face _ (by norm_num) true
  · simp [IndexModel.indexAt]; norm_num
  · rw [p0, d0, plate_normal (by norm_num) (Or.inr rfl)]
    simp [dot4, vector]; norm_num

theorem ball_bench : Bench argsort 1 (ball .mirror) [0] 1 [fun _ => [axisCol 0 1 100 0]] 1 where
  history := ReachesBy.placed argsort (.step (.newPrim _) (.refl _) trivial (fun _ _ h => by cases h) rfl)
  exist a h := by
    rw [(ball_obj .mirror).2.2.2.2]
    simp at h; omega
  distinct := by simp [surfaceIds, (ball_obj .mirror).1]
  sized a h x id p hx hk := by
    simp only [List.mem_singleton] at h
    subst h
    simp only [surfaceIds, (ball_obj .mirror).1, List.mem_singleton, Prod.mk.injEq] at hx
    obtain ⟨-, rfl⟩ := hx
    rw [(ball_obj .mirror).1] at hk
    cases hk
    exact one_ne_zero
  emits f hf c hc := by
    simp only [List.mem_singleton] at hf
    subst hf
    simp only [List.mem_singleton] at hc
    subst hc
    exact ⟨by simp [axisCol], rfl, rfl, axis_norm (by norm_num)⟩
  positive f hf c hc := by
    simp only [List.mem_singleton] at hf
    subst hf
    simp only [List.mem_singleton] at hc
    subst hc
    exact ⟨one_pos, fun a _ x id g _ hg => by cases hg⟩

/-- non-vacuity of `C86_ball` and `C86_perpendicular`: the ray on the axis of the spherical mirror -/
example (ha : IsArgsort argsort) : ∃ (k : ℕ) (t' : Tracer) (r r' : Row), Tracer.Traces k (ballTracer argsort .mirror 0 1 100 3) t' ∧
    r ∈ t'.frame ∧ r' ∈ t'.frame ∧ Follows r r' ∧ ∀ i, r'.tilt i = -r.tilt i := by
  obtain ⟨k, t', h, ok, hrows⟩ := resonator_rows argsort ha
  obtain ⟨r, h1, h2, h3⟩ := (hrows 0).2 (by norm_num)
  obtain ⟨r', h1', h2', h3'⟩ := (hrows 1).2 (by norm_num)
  have hf : Follows r r' := ⟨by rw [h3, h3'], by rw [h2, h2']; norm_num⟩
  refine ⟨k, t', r, r', h, h1, h1', hf, ?_⟩
  obtain ⟨i, g, -, hl⟩ := (trace_iff ok h r).1 h1
  have eg : g = 0 := by
    have := (hl.spec ok).1.symm.trans h2
    exact_mod_cast this
  obtain ⟨c0, c, d, sf, he, hj, hx, hn, hseg⟩ := hl
  subst eg
  cases hj
  obtain ⟨c', hc', rfl⟩ := he
  have hc0 : c' = axisCol 0 1 100 0 := by
    have := List.mem_of_getElem? hc'
    simpa [ballTracer, Tracer.new] using this
  subst hc0
  have hw : ((ball .mirror).heap.obj 0).world = 1 := by simp [ball, newPrim, Heap.alloc, Heap.empty]
  have hsf : sf = 0 := by
    obtain ⟨b, hb, x, id, hm, e, -⟩ := C25_surface argsort ha (ball .mirror) [0] 1 _ d sf hn
    simp only [List.mem_singleton] at hb
    subst hb
    simp only [surfaceIds, (ball_obj .mirror).1, List.mem_singleton, Prod.mk.injEq] at hm
    rw [e, hm.1, (ball_obj .mirror).2.2.1]; rfl
  refine ((C86_ball (ball_bench argsort) ha h h1 h1' hf (a := 0) (x := 0) (id := 0) (by simp)
    (by simp [surfaceIds, (ball_obj .mirror).1, (ball_obj .mirror).2.2.1]) (by rw [hseg.surface, hsf]; rfl) (ball_obj .mirror).1
    (by rw [hw]; exact ⟨by funext i; fin_cases i <;> rfl, fun v _ => by rw [one_mulVec]⟩) (v := d) ?_).1 rfl).1
  rw [hw, one_mulVec]
  funext i
  fin_cases i <;> simp only [Row.finish, Row.dir, point, vector, hseg.stop, hseg.tilt] <;> simp [axisCol, axisRay, point, vector]

end PyRayT
