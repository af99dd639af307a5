import Verif.Proofs.UnitNormals
import Verif.Proofs.Placed
import Verif.Props.TraceOptics
import Verif.Props.World

/-!
# Property C74: the normal at every hit is a unit vector

`C12` describes the normal at points of the surface away from edges and tolerance bands. Here nothing is assumed of the point but that
some ray reports a hit there: whatever the rounding of `np.isclose` does to the hit, the normal used by mirrors and glass is
a unit vector. The hypothesis "unit normal" of C63 can then be dropped.
-/

namespace PyRayT

open Classical Matrix Spec

variable (argsort : List EReal → List ℕ)

/-- Heaps of any history of valid commands after which every object is placed by an affine matrix. -/
structure Placed (fuel : ℕ) (h : Heap) : Prop where
  reaches : Reaches argsort fuel Heap.empty h
  rows : ∀ a < h.size, (h.obj a).world 3 = ![0, 0, 0, 1]

/-- This is the case if every matrix given to `transform` was affine. -/
theorem ReachesBy.placed {fuel : ℕ} {h : Heap} (hr : ReachesBy argsort Movement.IsAffine fuel Heap.empty h) : Placed argsort fuel h :=
  ⟨hr.reaches, fun _ ha => (reachesBy_affine hr ha).1⟩

theorem Placed.affine {fuel : ℕ} {h : Heap} (hr : Placed argsort fuel h) {a : ℕ} (ha : a < h.size) : Affine (h.obj a).world :=
  ⟨hr.rows a ha, ((reaches_inv argsort empty_inv hr.reaches).synced a ha).1⟩

theorem leaf_unit_normal {fuel : ℕ} {h : Heap} (hr : Placed argsort fuel h) {x : ℕ}
    (hx : x < h.size) {p : Prim} (hk : (h.obj x).kind = .prim p) (hp : Sized p) {ray : Ray} {t : ℝ}
    (ht : (t : EReal) ∈ (leafIntersect (h.obj x).objT (h.obj x).oid p ray).1) :
    norm4 (surfaceNormal h x (ray.at t)) = 1 ∧ surfaceNormal h x (ray.at t) 3 = 0 := by
  have hA := hr.affine argsort hx
  have hi := reaches_inv argsort empty_inv hr.reaches
  have hok := surfaceNormal_ok argsort hr.reaches hx (ray.at t)
  refine ⟨hok.2.resolve_right ?_, hok.1⟩
  have hobj : (h.obj x).objT = (h.obj x).world⁻¹ := (hi.synced x hx).2.1
  have hm : (t : EReal) = (p.intersect (ray.map (h.obj x).objT)).1 ∨ (t : EReal) = (p.intersect (ray.map (h.obj x).objT)).2 := by
    apply sort2_mem
    simpa [leafIntersect] using ht
  obtain ⟨h1, h3⟩ := prim_normal_hit hp hm
  rw [Ray.map_at] at h1 h3
  have hns := reaches_normals argsort empty_inv empty_normals hr.reaches x hx p hk
  have hpm : (h.obj x).nscale ≠ 0 := by
    rw [hns]; split <;> norm_num
  have hu : IsUnit (h.obj x).world.det := isUnit_iff_ne_zero.2 hA.2
  set n := p.normal ((h.obj x).objT *ᵥ ray.at t) with hn
  have hd : dot4 (zeroW ((h.obj x).objTᵀ *ᵥ n)) ((h.obj x).world *ᵥ n) = 1 := by
    rw [dot_zeroW_transpose _ _ _ (by rw [affine_three hA, h3]), hobj, mulVec_mulVec, nonsing_inv_mul _ hu, one_mulVec,
      ← norm4_eq_one]
    exact h1
  have hpos : 0 < norm4 (zeroW ((h.obj x).objTᵀ *ᵥ n)) := by
    apply norm4_pos_of
    by_contra hc
    push Not at hc
    unfold dot4 at hd
    rw [hc.1, hc.2.1, hc.2.2, show zeroW ((h.obj x).objTᵀ *ᵥ n) 3 = 0 from rfl] at hd
    simp at hd
  intro hz
  have e : surfaceNormal h x (ray.at t) = (h.obj x).nscale • normalize (zeroW ((h.obj x).objTᵀ *ᵥ n)) := by
    simp only [surfaceNormal, hk]; rfl
  rw [e, smul_eq_zero] at hz
  have := norm4_normalize hpos
  rw [hz.resolve_left hpm] at this
  simp [norm4] at this

/-- **C74.** After any history of movements that leaves the objects affinely placed (`ReachesBy.placed`: with affine matrices given to
`transform`), for every surface or composite, every ray and every finite hit distance reported for it: the surface named for the hit is one of the object's surfaces, and if its radius or
focal length is not 0, its world normal at the hit point is a unit vector with w = 0. There is no condition on the ray. -/
theorem C74_unit_normals (ha : IsArgsort argsort) (fuel : ℕ) (h : Heap) (hr : Placed argsort fuel h)
    (a : ℕ) (hlt : a < h.size) (depth : ℕ) (ray : Ray) (i : ℕ) (t : ℝ) (s : ℤ)
    (hv : (intersectObj argsort depth h a ray).1[i]? = some (t : EReal)) (hs : (intersectObj argsort depth h a ray).2[i]? = some s) :
    ∃ x id : ℕ, ∃ p, (id, x) ∈ surfaceIds depth h a ∧ s = id ∧ (h.obj x).kind = .prim p ∧
      (Sized p → norm4 (surfaceNormal h x (ray.at t)) = 1 ∧ surfaceNormal h x (ray.at t) 3 = 0) := by
  obtain ⟨x, p, -, hm, hk, e, hmem⟩ := intersectObj_label argsort ha h ray depth a i t s hv (EReal.coe_ne_top t) hs
  have hi := reaches_inv argsort empty_inv hr.reaches
  have hx := (surfaceIds_spec hi depth a hlt _ hm).1
  exact ⟨x, _, p, hm, e, hk, fun hp => leaf_unit_normal argsort hr hx hk hp hmem⟩

/-- A sphere of radius 0 hit in its centre has no normal there: C74 needs the radius not to be 0. (numpy divides 0 by 0.) -/
theorem C74_point_sphere : let h := newPrim Heap.empty (.sphere 0)
    let ray : Ray := ⟨point 0 0 (-1), vector 0 0 1⟩
    (intersectObj argsort 1 h 0 ray).1 = [1, 1] ∧ surfaceNormal h 0 (ray.at 1) = 0 := by
  intro h ray
  have ok : (h.obj 0).kind = .prim (.sphere 0) := by simp [h, newPrim, Heap.alloc, Heap.empty]
  have oT : (h.obj 0).objT = 1 := by simp [h, newPrim, Heap.alloc, Heap.empty]
  have hat : ray.at 1 = ![0, 0, 0, 1] := by
    funext i
    fin_cases i <;> simp [ray, Ray.at, point, vector]
  constructor
  · simp only [intersectObj, ok, leafIntersect, oT, Ray.map, one_mulVec, Prim.intersect, sphereIntersect, polyRoots]
    simp [ray, point, vector, sort2]
    norm_num
  · simp only [surfaceNormal, ok, worldNormal, oT, one_mulVec, hat, transpose_one, Prim.normal]
    funext i
    fin_cases i <;> simp [zeroW, normalize]

theorem Reaches.any {fuel : ℕ} {h h' : Heap} (hr : Reaches argsort fuel h h') : ReachesAny argsort fuel h h' := by
  induction hr with
  | refl => exact .refl _
  | step c _ hv he ih => exact .step c ih hv he

/-- a row of a trace and the surface it ends on -/
theorem row_normal (ha : IsArgsort argsort) {fuel : ℕ} {s : Scene} (hr : Placed argsort fuel s.heap)
    {objs : List ℕ} (hlt : ∀ a ∈ objs, a < s.heap.size) {depth : ℕ}
    (hsz : ∀ a ∈ objs, ∀ x id p, (id, x) ∈ surfaceIds depth s.heap a → (s.heap.obj x).kind = .prim p → Sized p)
    {ray : Ray} {d : ℝ} {k : ℤ} (hn : Nearest (objs.map (s.component argsort depth)) ray d k) {a x id : ℕ} (hax : a ∈ objs)
    (hid : (id, x) ∈ surfaceIds depth s.heap a) (hk : k = id) : norm4 (surfaceNormal s.heap x (ray.at d)) = 1 := by
  have hi := reaches_inv argsort empty_inv hr.reaches
  obtain ⟨b, hb, y, id', hm, e, hmem⟩ := C25_surface argsort ha s objs depth ray d k hn
  obtain ⟨hy, ey, p, hkp⟩ := surfaceIds_spec hi depth b (hlt b hb) _ hm
  obtain ⟨hx, ex, -⟩ := surfaceIds_spec hi depth a (hlt a hax) _ hid
  dsimp only at hy ey hkp hx ex
  have hxy : x = y := by
    by_contra hne
    apply (C56_unique_ids argsort fuel s.heap (hr.reaches.any argsort)).1 x y hx hy hne
    rw [← ex, ← ey]
    exact_mod_cast hk.symm.trans e
  subst hxy
  have hp := hsz b hb x id' p hm hkp
  simp only [intersectObj, hkp] at hmem
  exact (leaf_unit_normal argsort hr hx hkp hp hmem).1

/-- **C74, in a trace.** C63 without assumptions about normals and indices: let a tracer have as components objects of any history of
affine movements, made of surfaces with nonzero radii and focal lengths, with the built-in materials; let the sources emit unit
directions and positive indices, and let the glasses have positive indices at the emitted wavelengths. Then consecutive rows `r`, `r'` of a ray obey
the law of reflection or Snell's law at the surface at the end of `r`, with a unit normal. -/
theorem C74_trace_optics (ha : IsArgsort argsort) (fuel : ℕ) (s : Scene)
    (hr : Placed argsort fuel s.heap)
    (objs : List ℕ) (hlt : ∀ a ∈ objs, a < s.heap.size) (depth : ℕ)
    (hnd : (objs.flatMap fun a => (surfaceIds depth s.heap a).map Prod.snd).Nodup)
    (hsz : ∀ a ∈ objs, ∀ x id p, (id, x) ∈ surfaceIds depth s.heap a → (s.heap.obj x).kind = .prim p → Sized p)
    (sources : List (ℕ → List Col)) (n : ℕ) (limit : ℤ)
    (hem : ∀ f ∈ sources, ∀ c ∈ f n, c.generation = 0 ∧ c.ray.o 3 = 1 ∧ c.ray.d 3 = 0 ∧ norm4 c.ray.d = 1)
    (hpos : ∀ f ∈ sources, ∀ c ∈ f n, 0 < c.index ∧
      ∀ a ∈ objs, ∀ x id g, (id, x) ∈ surfaceIds depth s.heap a → s.material x = .glass g → 0 < g.indexAt c.wavelength)
    {k : ℕ} {t' : Tracer} (ht : Tracer.Traces k (Tracer.new sources (objs.map (s.component argsort depth)) n limit) t')
    (r r' : Row) (hrm : r ∈ t'.frame) (hrm' : r' ∈ t'.frame) (hid : r'.id = r.id) (hg : r'.generation = r.generation + 1) :
    ∃ a ∈ objs, ∃ x id : ℕ, (id, x) ∈ surfaceIds depth s.heap a ∧ r.surface = (id : ℤ) ∧
      let n := surfaceNormal s.heap x (point (r.stop 0) (r.stop 1) (r.stop 2))
      norm4 n = 1 ∧ 0 < r.index ∧
        Interacts (s.material x) r.wavelength n (vector (r.tilt 0) (r.tilt 1) (r.tilt 2)) r.index
          (vector (r'.tilt 0) (r'.tilt 1) (r'.tilt 2)) r'.index := by
  have ok := scene_tracer_ok argsort ha fuel s hr.reaches objs hlt depth hnd sources n limit hem
  obtain ⟨a, haa, x, id, hx, hs, hopt⟩ := C63_trace_optics argsort ha fuel s hr.reaches objs hlt depth hnd sources n limit hem ht r r' hrm hrm' hid hg
  have hw : ∃ f ∈ sources, ∃ c ∈ f n, r.wavelength = c.wavelength := by
    obtain ⟨i, g, -, c0, c, d, sf, he, hj, -, -, hseg⟩ := (trace_iff ok ht r).1 hrm
    have w := hj.onTheWay ok he
    obtain ⟨c', hc', rfl⟩ := he
    obtain ⟨f, hf, hcf⟩ := List.mem_flatMap.1 (List.mem_of_getElem? hc')
    exact ⟨f, hf, c', hcf, by rw [hseg.wavelength, w.wavelength]⟩
  obtain ⟨f, hf, c, hc, ew⟩ := hw
  have hgl : ∀ a ∈ objs, ∀ x id g, (id, x) ∈ surfaceIds depth s.heap a → s.material x = .glass g → 0 < g.indexAt r.wavelength := by
    rw [ew]; exact (hpos f hf c hc).2
  have hidx : 0 < r.index := by
    rcases C63_indices argsort ha fuel s hr.reaches objs hlt depth hnd sources n limit hem ht r hrm with
      ⟨f, hf, c, hc, -, e⟩ | e | ⟨b, hb, y, id', g, hy, hm, e⟩
    · rw [e]; exact (hpos f hf c hc).1
    · rw [e]; exact one_pos
    · rw [e]; exact hgl b hb y id' g hy hm
  have hn1 : norm4 (surfaceNormal s.heap x (point (r.stop 0) (r.stop 1) (r.stop 2))) = 1 := by
    obtain ⟨d, -, hnear, hstop⟩ := C28_segment ok ht r hrm
    have e : point (r.stop 0) (r.stop 1) (r.stop 2) = (rowRay r).at d := by
      funext i
      fin_cases i
      · exact hstop 0
      · exact hstop 1
      · exact hstop 2
      · simp [rowRay, Ray.at, point, vector]
    rw [e]
    exact row_normal argsort ha hr hlt hsz hnear haa hx hs
  exact ⟨a, haa, x, id, hx, hs, hn1, hidx, hopt hn1 hidx fun g hgm => hgl a haa x id g hx hgm⟩

/-- non-vacuity of `C74_trace_optics`: all hypotheses hold for the ray in the spherical mirror, which has consecutive rows -/
example (ha : IsArgsort argsort) : ∃ (k : ℕ) (t' : Tracer) (r r' : Row), Tracer.Traces k (ballTracer argsort .mirror 0 1 100 3) t' ∧
    r ∈ t'.frame ∧ r' ∈ t'.frame ∧ r'.id = r.id ∧ r'.generation = r.generation + 1 ∧
    norm4 (surfaceNormal (ball .mirror).heap 0 (point (r.stop 0) (r.stop 1) (r.stop 2))) = 1 := by
  obtain ⟨k, t', h, ok, hrows⟩ := resonator_rows argsort ha
  obtain ⟨r, h1, h2, h3⟩ := (hrows 0).2 (by norm_num)
  obtain ⟨r', h1', h2', h3'⟩ := (hrows 1).2 (by norm_num)
  have e1 : r'.id = r.id := by rw [h3, h3']
  have e2 : r'.generation = r.generation + 1 := by rw [h2, h2']; norm_num
  refine ⟨k, t', r, r', h, h1, h1', e1, e2, ?_⟩
  obtain ⟨hk, -, hid, -, hsz⟩ := ball_obj .mirror
  have hsurf : ∀ x id, (id, x) ∈ surfaceIds 1 (ball .mirror).heap 0 → x = 0 ∧ id = 0 := by
    intro x id hx
    simp only [surfaceIds, hk, List.mem_singleton, Prod.mk.injEq] at hx
    exact ⟨hx.2, hx.1.trans hid⟩
  obtain ⟨a, ha', x, id, hx, -, hn, -⟩ := C74_trace_optics argsort ha 1 (ball .mirror)
    (ReachesBy.placed argsort (.step (.newPrim _) (.refl _) trivial (fun _ _ h => by cases h) rfl)) [0] (by simp [hsz]) 1
    (by simp [surfaceIds, hk]) (by
      intro a haa x id p hx hkx
      simp only [List.mem_singleton] at haa
      subst haa
      obtain ⟨rfl, rfl⟩ := hsurf x id hx
      rw [hk] at hkx
      cases hkx
      exact one_ne_zero) [fun _ => [axisCol 0 1 100 0]] 1 3 (fun f hf c hc => ok.emits f hf c hc) (by
      intro f hf c hc
      simp only [List.mem_singleton] at hf
      subst hf
      simp only [List.mem_singleton] at hc
      subst hc
      refine ⟨one_pos, fun a _ x id g _ hg => ?_⟩
      cases hg) h r r' h1 h1' e1 e2
  simp only [List.mem_singleton] at ha'
  subst ha'
  obtain ⟨rfl, rfl⟩ := hsurf x id hx
  exact hn

end PyRayT
