import Verif.Proofs.Special2
import Verif.Props.Tracer2

/-!
# The tracer with nan and the tracer without run in step
-/

namespace PyRayT

open Classical Flt Matrix Spec

/-- a column of finite numbers -/
def ColF.of (c : Col) : ColF := ⟨RayF.of c.ray, re c.generation, re c.intensity, re c.wavelength, re c.index, re c.id⟩

/-- a row of finite numbers -/
def RowF.of (r : Row) : RowF :=
  { generation := re r.generation
    intensity := re r.intensity
    wavelength := re r.wavelength
    index := re r.index
    id := re r.id
    surface := r.surface
    start := fun i => re (r.start i)
    stop := fun i => re (r.stop i)
    tilt := fun i => re (r.tilt i) }

variable {argsort : List EReal → List ℕ} {argsortF : List Flt → List ℕ}

/-- the hypotheses on the scene -/
structure GoodScene (argsort : List EReal → List ℕ) (fuel : ℕ) (s : Scene) (objs : List ℕ) (depth : ℕ) : Prop where
  sorts : IsArgsort argsort
  placed : Placed argsort fuel s.heap
  lt : ∀ a ∈ objs, a < s.heap.size
  nodup : (objs.flatMap fun a => (surfaceIds depth s.heap a).map Prod.snd).Nodup
  sized : ∀ a ∈ objs, ∀ x id p, (id, x) ∈ surfaceIds depth s.heap a → (s.heap.obj x).kind = .prim p → Sized p

/-- the glasses have positive indices at the wavelength, computed without dividing by zero -/
def GoodWave (s : Scene) (objs : List ℕ) (depth : ℕ) (w : ℝ) : Prop :=
  ∀ a ∈ objs, ∀ x id g, (id, x) ∈ surfaceIds depth s.heap a → s.material x = .glass g → 0 < g.indexAt w ∧ g.Regular w

/-- invariant of the columns -/
structure GoodCol (s : Scene) (objs : List ℕ) (depth : ℕ) (c : Col) : Prop where
  dir : c.ray.d 3 = 0
  unit : norm4 c.ray.d = 1 ∨ c.ray.d = 0
  index : 0 < c.index
  wave : GoodWave s objs depth c.wavelength

theorem advanceF_of (c : Col) (t : ℝ) : (ColF.of c).advance (re t) = ColF.of (c.advance t) := by
  have e : (fun i => ofV c.ray.o i + ofV c.ray.d i * re t) = ofV (c.ray.at t) := by
    funext i
    simp only [ofV, re_mul, re_add, Ray.at, mul_comm t]
  simp only [ColF.advance, ColF.of, RayF.of, Col.advance, e]

theorem norm_one_ne {v : Vec4} (h : norm4 v = 1) : v ≠ 0 := by
  rintro rfl
  simp [norm4] at h

/-- **Materials.** At a point with a unit normal, for a unit direction and positive indices, the materials work without nan. -/
theorem traceF_of {nf : Vec4 → Vec4} {nF : Vec4F → Vec4F} {c : Col} (hn : norm4 (nf c.ray.o) = 1) (hnF : nF (ofV c.ray.o) = ofV (nf c.ray.o)) (hd : norm4 c.ray.d = 1)
    (hi : 0 < c.index) (m : Material) (hm : ∀ g, m = .glass g → 0 < g.indexAt c.wavelength ∧ g.Regular c.wavelength) :
    m.traceF nF (ColF.of c) = ColF.of (m.trace nf c) := by
  cases m with
  | absorber => rfl
  | mirror =>
    have e : (fun i => ofV c.ray.d i - re 2 * ofV (nf c.ray.o) i * re (dot4 c.ray.d (nf c.ray.o))) =
        ofV fun i => c.ray.d i - 2 * nf c.ray.o i * dot4 c.ray.d (nf c.ray.o) := by
      funext i
      simp only [ofV, re_mul, re_sub]
    simp only [Material.traceF, Material.trace, ColF.of, RayF.of, hnF, dotF_of, e]
  | glass g =>
    obtain ⟨hg, hr⟩ := hm g rfl
    have hu : norm4 (refract c.ray.d (nf c.ray.o) c.index (g.indexAt c.wavelength) 1).2.1 = 1 := (C58_materials nf (.glass g) c).2.2.2 g rfl hn (norm_one_ne hd) hi hg
    have e := refractF_of (v := c.ray.d) (n := nf c.ray.o) (n1 := c.index) (n2 := g.indexAt c.wavelength) (by rw [hd]; exact one_ne_zero) hg.ne' (norm_one_ne hu)
    simp only [Material.traceF, Material.trace, ColF.of, RayF.of, hnF, indexAtF_of hr hg, e]

theorem lutF_none {lut : List (ℤ × (ColF → ColF))} {hit : Flt × ℤ} (h : ∀ e ∈ lut, e.1 ≠ hit.2) (c : ColF) :
    lut.foldl (fun c e => if hit.2 = e.1 then e.2 (c.advance hit.1) else c) c = c := by
  induction lut generalizing c with
  | nil => rfl
  | cons e lut ih =>
    rw [List.foldl_cons, if_neg fun e' => h e (by simp) e'.symm]
    exact ih (fun e' he' => h e' (by simp [he'])) c

theorem lutF_once {lut : List (ℤ × (ColF → ColF))} (hn : (lut.map Prod.fst).Nodup) {d : Flt} {s : ℤ} {f : ColF → ColF} (hm : (s, f) ∈ lut) (c : ColF) :
    lut.foldl (fun c e => if s = e.1 then e.2 (c.advance d) else c) c = f (c.advance d) := by
  induction lut generalizing c with
  | nil => cases hm
  | cons e lut ih =>
    rw [List.map_cons, List.nodup_cons] at hn
    rw [List.foldl_cons]
    rcases List.mem_cons.1 hm with rfl | hm'
    · rw [if_pos rfl]
      exact lutF_none (hit := (d, s)) (fun e' he' h => hn.1 (List.mem_map.2 ⟨e', he', h⟩)) _
    · have hne : s ≠ e.1 := fun h => hn.1 (List.mem_map.2 ⟨(s, f), hm', h⟩)
      rw [if_neg hne]
      exact ih hn.2 hm' c

theorem lutF_ids (s : Scene) (objs : List ℕ) (depth : ℕ) : (((objs.map (s.componentF argsortF depth)).flatMap ComponentF.surfaces).map Prod.fst) =
    ((objs.map (s.component argsort depth)).flatMap Component.surfaces).map Prod.fst := by
  rw [List.flatMap_map, List.map_flatMap, List.flatMap_map, List.map_flatMap]
  congr 1
  funext a
  simp only [Scene.component, Scene.componentF, List.map_map]
  rfl

/-- one column of `_st_interact`, for a ray that is alive -/
theorem interactColF_of {fuel : ℕ} {s : Scene} {objs : List ℕ} {depth : ℕ} (hs : GoodScene argsort fuel s objs depth) {c : Col} (hc : GoodCol s objs depth c) {threshold : ℝ}
    (hl : ¬ deadCol threshold c (hitOf (objs.map (s.component argsort depth)) c.ray)) :
    interactColF ((objs.map (s.componentF argsortF depth)).flatMap ComponentF.surfaces)
        (num (hitOf (objs.map (s.component argsort depth)) c.ray).1, (hitOf (objs.map (s.component argsort depth)) c.ray).2) (ColF.of c) =
      ColF.of (interactCol ((objs.map (s.component argsort depth)).flatMap Component.surfaces) (hitOf (objs.map (s.component argsort depth)) c.ray) c) ∧
    GoodCol s objs depth (interactCol ((objs.map (s.component argsort depth)).flatMap Component.surfaces) (hitOf (objs.map (s.component argsort depth)) c.ray) c) ∧
    norm4 c.ray.d = 1 := by
  have ok : TracerOk (Tracer.new [] (objs.map (s.component argsort depth)) 0 0) := scene_ok argsort hs.sorts hs.placed.reaches hs.lt hs.nodup (by simp)
  have hi := reaches_inv argsort empty_inv hs.placed.reaches
  have hd : norm4 c.ray.d = 1 := by
    refine hc.unit.resolve_right fun hz => hl (.inl ?_)
    rw [hz]
    norm_num [norm4, isclose0]
  rcases hitOf_spec (cs := objs.map (s.component argsort depth)) (fun c hc => (ok.comps c hc).len) c.ray with ⟨-, he⟩ | ⟨d, k, hn, he⟩
  · exact absurd (.inr (by rw [he])) hl
  · obtain ⟨a, haa, x, id, hid, hk, -⟩ := C25_surface argsort hs.sorts s objs depth c.ray d k hn
    subst hk
    have hx := (surfaceIds_spec hi depth a (hs.lt a haa) _ hid).1
    have hn1 := row_normal argsort hs.sorts hs.placed hs.lt hs.sized hn haa hid rfl
    have hm : ((id : ℤ), fun c => (s.material x).trace (surfaceNormal s.heap x) c) ∈ (objs.map (s.component argsort depth)).flatMap Component.surfaces :=
      List.mem_flatMap.2 ⟨_, List.mem_map.2 ⟨a, haa, rfl⟩, List.mem_map.2 ⟨(id, x), hid, rfl⟩⟩
    have hmF : ((id : ℤ), fun c => (s.material x).traceF (surfaceNormalF s.heap x) c) ∈ (objs.map (s.componentF argsortF depth)).flatMap ComponentF.surfaces :=
      List.mem_flatMap.2 ⟨_, List.mem_map.2 ⟨a, haa, rfl⟩, List.mem_map.2 ⟨(id, x), hid, rfl⟩⟩
    have hne : ¬ ((id : ℤ) = -1) := by omega
    have ndF : (((objs.map (s.componentF argsortF depth)).flatMap ComponentF.surfaces).map Prod.fst).Nodup := by
      rw [lutF_ids (argsort := argsort)]
      exact ok.nodup
    have e1 : interactCol ((objs.map (s.component argsort depth)).flatMap Component.surfaces) ((d : EReal), (id : ℤ)) c =
        (s.material x).trace (surfaceNormal s.heap x) (c.advance d) := by
      rw [interactCol, if_neg hne]
      exact lutPass_once ok.nodup hm c
    have e2 : interactColF ((objs.map (s.componentF argsortF depth)).flatMap ComponentF.surfaces) (num (d : EReal), (id : ℤ)) (ColF.of c) =
        (s.material x).traceF (surfaceNormalF s.heap x) ((ColF.of c).advance (re d)) := by
      rw [interactColF, if_neg hne]
      exact lutF_once ndF hmF _
    rw [he]
    have e3 : (s.material x).traceF (surfaceNormalF s.heap x) ((ColF.of c).advance (re d)) = ColF.of ((s.material x).trace (surfaceNormal s.heap x) (c.advance d)) := by
      rw [advanceF_of]
      have hn2 : norm4 (surfaceNormal s.heap x (c.advance d).ray.o) = 1 := hn1
      exact traceF_of (nf := surfaceNormal s.heap x) (nF := surfaceNormalF s.heap x) (c := c.advance d) hn2 (surfaceNormalF_of hn2) hd hc.index (s.material x)
        fun g hg => hc.wave a haa x id g hid hg
    refine ⟨by rw [e1, ← e3, ← e2], ?_, hd⟩
    rw [e1]
    have mo := material_ok (surfaceNormal_ok argsort hs.placed.reaches hx) (s.material x)
    refine ⟨mo.dir _ hc.dir, mo.unit _ hc.dir hd, ?_, ?_⟩
    · cases hmx : s.material x with
      | absorber => exact hc.index
      | mirror => exact hc.index
      | glass g =>
        have hg := (hc.wave a haa x id g hid hmx).1
        simp only [Material.trace, refract, refractIndex]
        split_ifs
        all_goals first | exact one_pos | exact hg | exact hc.index
    · have := mo.wavelength (c.advance d)
      dsimp only at this
      rw [this]
      exact hc.wave

theorem mkRowF_of {c next : Col} (h3 : c.ray.d 3 = 0) (hd : norm4 c.ray.d = 1) (surface : ℤ) : mkRowF (ColF.of c) (ColF.of next) surface = RowF.of (mkRow c next surface) := by
  have hn : norm3 (trim c.ray.d) = 1 := by
    rw [← hd]
    simp only [norm3, trim, norm4, h3]
    congr 1
    simp
  have e : sqrt (ofV c.ray.d 0 * ofV c.ray.d 0 + ofV c.ray.d 1 * ofV c.ray.d 1 + ofV c.ray.d 2 * ofV c.ray.d 2) = re (norm3 (trim c.ray.d)) := by
    simp only [ofV, re_mul, re_add]
    rw [re_sqrt (by nlinarith [sq_nonneg (c.ray.d 0), sq_nonneg (c.ray.d 1), sq_nonneg (c.ray.d 2)])]
    simp only [norm3, trim, pow_two]
    rfl
  have e' : (fun i : Fin 3 => ofV c.ray.d i.castSucc / re (norm3 (trim c.ray.d))) = fun i => re (trim c.ray.d i / norm3 (trim c.ray.d)) := by
    funext i
    exact re_div (by rw [hn]; exact one_ne_zero)
  simp only [mkRowF, ColF.of, RayF.of, RowF.of, mkRow, e, e']
  rfl

theorem deadColF_of (threshold : ℝ) (c : Col) (d : EReal) (k : ℤ) : deadColF threshold (ColF.of c) (num d, k) ↔ deadCol threshold c (d, k) := by
  simp only [deadColF, deadCol, npLogicalOr, ColF.of, RayF.of, normF_of, isclose_re_zero]

/-- states of the two tracers with the same contents -/
structure TracerF.Sim (argsort : List EReal → List ℕ) (argsortF : List Flt → List ℕ) (s : Scene) (objs : List ℕ) (depth : ℕ) (u : TracerF) (t : Tracer) : Prop where
  sources : u.sources = t.sources.map fun f k => (f k).map ColF.of
  componentsF : u.components = objs.map (s.componentF argsortF depth)
  components : t.components = objs.map (s.component argsort depth)
  raysPerSource : u.raysPerSource = t.raysPerSource
  limit : u.limit = t.limit
  lutF : u.lut = u.components.flatMap ComponentF.surfaces
  lut : t.lut = t.components.flatMap Component.surfaces
  offset : u.offset = t.offset
  threshold : u.threshold = t.threshold
  phase : u.phase = t.phase
  frame : u.frame = t.frame.map RowF.of
  gen : u.gen = t.gen
  complete : u.complete = t.complete
  rays : u.rays = t.rays.map ColF.of
  hits : u.hits = t.hits.map fun h => (num h.1, h.2)
  emits : ∀ f ∈ t.sources, ∀ c ∈ f t.raysPerSource, GoodCol s objs depth c
  good : ∀ c ∈ t.rays, GoodCol s objs depth c
  ready : t.phase = .interact → t.hits = t.rays.map fun c => hitOf t.components c.ray

section
variable {fuel : ℕ} {s : Scene} {objs : List ℕ} {depth : ℕ}

theorem TracerF.Sim.init {u : TracerF} {t : Tracer} (h : u.Sim argsort argsortF s objs depth t) :
    Option.Rel (TracerF.Sim argsort argsortF s objs depth) u.stInitialize t.stInitialize := by
  by_cases h0 : t.sources = []
  · have e1 : t.stInitialize = none := if_pos h0
    have e2 : u.stInitialize = none := if_pos (by rw [h.sources, h0]; rfl)
    rw [e1, e2]
    exact .none
  · have e1 : t.stInitialize = some { t.reset with rays := sourceRays t.sources t.raysPerSource, phase := .propagate } := if_neg h0
    have hne : ¬ u.sources = [] := by
      rw [h.sources, List.map_eq_nil_iff]
      exact h0
    have e2 : u.stInitialize = some { u with
        complete := false
        frame := []
        gen := 0
        rays := (u.sources.flatMap fun f => f u.raysPerSource).zipIdx.map fun p => { p.1 with id := re p.2 }
        phase := .propagate } := if_neg hne
    rw [e1, e2]
    refine .some ⟨h.sources, h.componentsF, h.components, h.raysPerSource, h.limit, h.lutF, h.lut, h.offset, h.threshold, rfl, rfl, rfl, rfl, ?_, h.hits, h.emits, ?_, fun hh => by cases hh⟩
    · have hf : (u.sources.flatMap fun f => f u.raysPerSource) = (t.sources.flatMap fun f => f t.raysPerSource).map ColF.of := by
        rw [h.sources, h.raysPerSource, List.flatMap_map, List.map_flatMap]
      simp only [sourceRays]
      rw [hf]
      apply List.ext_getElem
      · simp
      · intro i h1 h2
        simp only [List.getElem_map, List.getElem_zipIdx, zero_add]
        rfl
    · intro c hc
      obtain ⟨p, hp, rfl⟩ := List.mem_map.1 hc
      have hp' := List.fst_mem_of_mem_zipIdx hp
      obtain ⟨f, hf, hcf⟩ := List.mem_flatMap.1 hp'
      obtain ⟨g1, g2, g3, g4⟩ := h.emits f hf _ hcf
      exact ⟨g1, g2, g3, g4⟩

theorem TracerF.Sim.propagate (hF : ∀ xs, argsortF (xs.map num) = argsort xs) (hs : GoodScene argsort fuel s objs depth) {u : TracerF} {t : Tracer}
    (h : u.Sim argsort argsortF s objs depth t) : u.stPropagate.Sim argsort argsortF s objs depth t.stPropagate := by
  refine ⟨h.sources, h.componentsF, h.components, h.raysPerSource, h.limit, h.lutF, h.lut, h.offset, h.threshold, rfl, h.frame, h.gen, h.complete, h.rays, ?_, h.emits, h.good,
    fun _ => rfl⟩
  simp only [TracerF.stPropagate, Tracer.stPropagate]
  rw [h.rays, h.componentsF, h.components, List.map_map, List.map_map]
  refine List.map_congr_left fun c hc => ?_
  exact hitOfF_of hF hs.placed hs.lt depth (h.good c hc).dir

set_option maxHeartbeats 1000000 in
theorem TracerF.Sim.interact (hs : GoodScene argsort fuel s objs depth) {u : TracerF} {t : Tracer}
    (h : u.Sim argsort argsortF s objs depth t) (hp : t.phase = .interact) : u.stInteract.Sim argsort argsortF s objs depth t.stInteract := by
  have hz : t.rays.zip t.hits = t.rays.map fun c => (c, hitOf t.components c.ray) := by
    rw [h.ready hp]
    apply List.ext_getElem
    · simp
    · intro i h1 h2
      simp
  have hzF : u.rays.zip u.hits = (t.rays.zip t.hits).map fun z => (ColF.of z.1, (num z.2.1, z.2.2)) := by
    rw [h.rays, h.hits, List.zip_map]
    rfl
  obtain ⟨living, hliving⟩ : ∃ l, l = (t.rays.zip t.hits).filter fun z => decide ¬ deadCol t.threshold z.1 z.2 := ⟨_, rfl⟩
  have hlF : (u.rays.zip u.hits).filter (fun z => decide ¬ deadColF u.threshold z.1 z.2) = living.map fun z => (ColF.of z.1, (num z.2.1, z.2.2)) := by
    rw [hzF, List.filter_map, hliving]
    congr 1
    refine List.filter_congr fun z _ => ?_
    simp only [Function.comp_apply, h.threshold, deadColF_of]
  have hlz : ∀ z ∈ living, GoodCol s objs depth z.1 ∧ z.2 = hitOf (objs.map (s.component argsort depth)) z.1.ray ∧ ¬ deadCol t.threshold z.1 z.2 := by
    intro z hz'
    rw [hliving, List.mem_filter] at hz'
    obtain ⟨h1, h2⟩ := hz'
    rw [hz] at h1
    obtain ⟨c, hc, rfl⟩ := List.mem_map.1 h1
    refine ⟨h.good c hc, by rw [h.components], by simpa using h2⟩
  have key : ∀ z ∈ living, interactColF u.lut (num z.2.1, z.2.2) (ColF.of z.1) = ColF.of (interactCol t.lut z.2 z.1) ∧ GoodCol s objs depth (interactCol t.lut z.2 z.1) ∧
      norm4 z.1.ray.d = 1 := by
    intro z hz'
    obtain ⟨h1, h2, h3⟩ := hlz z hz'
    rw [h2] at h3 ⊢
    rw [h.lutF, h.lut, h.componentsF, h.components]
    exact interactColF_of hs h1 h3
  by_cases hnil : living = []
  · have e1 : t.stInteract = { t with phase := .finish } := if_pos (by rw [← hliving]; exact hnil)
    have e2 : u.stInteract = { u with phase := .finish } := if_pos (by rw [hlF, hnil]; rfl)
    rw [e1, e2]
    exact ⟨h.sources, h.componentsF, h.components, h.raysPerSource, h.limit, h.lutF, h.lut, h.offset, h.threshold, rfl, h.frame, h.gen, h.complete, h.rays, h.hits, h.emits, h.good,
      fun hh => by cases hh⟩
  · have hne : ¬ (t.rays.zip t.hits).filter (fun z => decide ¬ deadCol t.threshold z.1 z.2) = [] := by rw [← hliving]; exact hnil
    have hneF : ¬ (u.rays.zip u.hits).filter (fun z => decide ¬ deadColF u.threshold z.1 z.2) = [] := by
      rw [hlF, List.map_eq_nil_iff]; exact hnil
    have hframe : u.frame ++ ((u.rays.zip u.hits).filter (fun z => decide ¬ deadColF u.threshold z.1 z.2)).map (fun z => mkRowF z.1 (interactColF u.lut z.2 z.1) z.2.2) =
        (t.frame ++ ((t.rays.zip t.hits).filter (fun z => decide ¬ deadCol t.threshold z.1 z.2)).map fun z => mkRow z.1 (interactCol t.lut z.2 z.1) z.2.2).map RowF.of := by
      rw [hlF, ← hliving, List.map_append, h.frame, List.map_map, List.map_map]
      refine congrArg (List.map RowF.of t.frame ++ ·) (List.map_congr_left fun z hz' => ?_)
      obtain ⟨k1, k2, k3⟩ := key z hz'
      simp only [Function.comp_apply]
      rw [k1]
      exact mkRowF_of (hlz z hz').1.dir k3 _
    have hrays : (((u.rays.zip u.hits).filter (fun z => decide ¬ deadColF u.threshold z.1 z.2)).map fun z => interactColF u.lut z.2 z.1).map
          (fun c => { c with generation := re ((u.gen + 1 : ℕ) : ℝ) }) =
        ((((t.rays.zip t.hits).filter (fun z => decide ¬ deadCol t.threshold z.1 z.2)).map fun z => interactCol t.lut z.2 z.1).map
          fun c => { c with generation := ((t.gen + 1 : ℕ) : ℝ) }).map ColF.of := by
      rw [hlF, ← hliving, h.gen]
      simp only [List.map_map]
      refine List.map_congr_left fun z hz' => ?_
      simp only [Function.comp_apply]
      rw [(key z hz').1]
      rfl
    have hgood : ∀ c ∈ (((t.rays.zip t.hits).filter (fun z => decide ¬ deadCol t.threshold z.1 z.2)).map fun z => interactCol t.lut z.2 z.1).map
          (fun c => ({ c with generation := ((t.gen + 1 : ℕ) : ℝ) } : Col)), GoodCol s objs depth c := by
      rw [← hliving]
      intro c hc
      obtain ⟨c', hc', rfl⟩ := List.mem_map.1 hc
      obtain ⟨z, hz', rfl⟩ := List.mem_map.1 hc'
      obtain ⟨g1, g2, g3, g4⟩ := (key z hz').2.1
      exact ⟨g1, g2, g3, g4⟩
    by_cases hlast : ((t.gen + 1 : ℕ) : ℤ) = t.limit
    · have e1 : t.stInteract = { t with
          frame := t.frame ++ ((t.rays.zip t.hits).filter fun z => decide ¬ deadCol t.threshold z.1 z.2).map fun z => mkRow z.1 (interactCol t.lut z.2 z.1) z.2.2
          gen := t.gen + 1
          rays := (((t.rays.zip t.hits).filter fun z => decide ¬ deadCol t.threshold z.1 z.2).map fun z => interactCol t.lut z.2 z.1).map fun c => { c with generation := ((t.gen + 1 : ℕ) : ℝ) }
          phase := .finish } := (if_neg hne).trans (if_pos hlast)
      have e2 : u.stInteract = { u with
          frame := u.frame ++ ((u.rays.zip u.hits).filter fun z => decide ¬ deadColF u.threshold z.1 z.2).map fun z => mkRowF z.1 (interactColF u.lut z.2 z.1) z.2.2
          gen := u.gen + 1
          rays := (((u.rays.zip u.hits).filter fun z => decide ¬ deadColF u.threshold z.1 z.2).map fun z => interactColF u.lut z.2 z.1).map fun c => { c with generation := re ((u.gen + 1 : ℕ) : ℝ) }
          phase := .finish } := (if_neg hneF).trans (if_pos (by rw [h.gen, h.limit]; exact hlast))
      rw [e1, e2]
      exact ⟨h.sources, h.componentsF, h.components, h.raysPerSource, h.limit, h.lutF, h.lut, h.offset, h.threshold, rfl, hframe, congrArg (· + 1) h.gen, h.complete, hrays, h.hits,
        h.emits, hgood, fun hh => by cases hh⟩
    · have e1 : t.stInteract = { t with
          frame := t.frame ++ ((t.rays.zip t.hits).filter fun z => decide ¬ deadCol t.threshold z.1 z.2).map fun z => mkRow z.1 (interactCol t.lut z.2 z.1) z.2.2
          gen := t.gen + 1
          rays := ((((t.rays.zip t.hits).filter fun z => decide ¬ deadCol t.threshold z.1 z.2).map fun z => interactCol t.lut z.2 z.1).map fun c => { c with generation := ((t.gen + 1 : ℕ) : ℝ) }).map fun c => { c with ray := ⟨c.ray.at t.offset, c.ray.d⟩ }
          phase := .propagate } := (if_neg hne).trans (if_neg hlast)
      have e2 : u.stInteract = { u with
          frame := u.frame ++ ((u.rays.zip u.hits).filter fun z => decide ¬ deadColF u.threshold z.1 z.2).map fun z => mkRowF z.1 (interactColF u.lut z.2 z.1) z.2.2
          gen := u.gen + 1
          rays := ((((u.rays.zip u.hits).filter fun z => decide ¬ deadColF u.threshold z.1 z.2).map fun z => interactColF u.lut z.2 z.1).map fun c => { c with generation := re ((u.gen + 1 : ℕ) : ℝ) }).map fun c => { c with ray := ⟨fun i => c.ray.o i + re u.offset * c.ray.d i, c.ray.d⟩ }
          phase := .propagate } := (if_neg hneF).trans (if_neg (by rw [h.gen, h.limit]; exact hlast))
      rw [e1, e2]
      refine ⟨h.sources, h.componentsF, h.components, h.raysPerSource, h.limit, h.lutF, h.lut, h.offset, h.threshold, rfl, hframe, congrArg (· + 1) h.gen, h.complete, ?_, h.hits,
        h.emits, ?_, fun hh => by cases hh⟩
      · show List.map _ _ = List.map ColF.of (List.map _ _)
        rw [hrays]
        generalize List.map (fun c : Col => ({ c with generation := ((t.gen + 1 : ℕ) : ℝ) } : Col)) _ = rs
        rw [List.map_map, List.map_map]
        refine List.map_congr_left fun c _ => ?_
        have e : (fun i => ofV c.ray.o i + re u.offset * ofV c.ray.d i) = ofV (c.ray.at t.offset) := by
          funext i
          simp only [ofV, re_mul, re_add, h.offset, Ray.at]
        simp only [Function.comp_apply, ColF.of, RayF.of, e]
      · intro c hc
        obtain ⟨c', hc', rfl⟩ := List.mem_map.1 hc
        obtain ⟨g1, g2, g3, g4⟩ := hgood c' hc'
        exact ⟨g1, g2, g3, g4⟩

theorem TracerF.Sim.finish {u : TracerF} {t : Tracer} (h : u.Sim argsort argsortF s objs depth t) : u.stFinish.Sim argsort argsortF s objs depth t.stFinish :=
  ⟨h.sources, h.componentsF, h.components, h.raysPerSource, h.limit, h.lutF, h.lut, h.offset, h.threshold, rfl, h.frame, h.gen, rfl, h.rays, h.hits, h.emits, h.good,
    fun hh => by cases hh⟩

theorem TracerF.Sim.step (hF : ∀ xs, argsortF (xs.map num) = argsort xs) (hs : GoodScene argsort fuel s objs depth) {u : TracerF} {t : Tracer}
    (h : u.Sim argsort argsortF s objs depth t) : Option.Rel (TracerF.Sim argsort argsortF s objs depth) u.step t.step := by
  unfold TracerF.step Tracer.step
  rw [h.phase]
  cases hp : t.phase with
  | «initialize» => exact h.init
  | propagate => exact .some (h.propagate hF hs)
  | interact => exact .some (h.interact hs hp)
  | finish => exact .some h.finish
  | idle => exact .none

theorem TracerF.Sim.runs (hF : ∀ xs, argsortF (xs.map num) = argsort xs) (hs : GoodScene argsort fuel s objs depth) {k : ℕ} {u u' : TracerF} (hr : TracerF.Runs k u u') :
    ∀ {t : Tracer}, u.Sim argsort argsortF s objs depth t → ∃ t', Tracer.Runs k t t' ∧ u'.Sim argsort argsortF s objs depth t' := by
  induction hr with
  | stop hp => exact fun h => ⟨_, .stop (by rw [← h.phase]; exact hp), h⟩
  | step hp hst _ ih =>
    intro t h
    have hst' := h.step hF hs
    rw [hst] at hst'
    cases ht : t.step with
    | none => rw [ht] at hst'; cases hst'
    | some t1 =>
      rw [ht] at hst'
      cases hst' with
      | some h1 =>
        obtain ⟨t2, hr2, h2⟩ := ih h1
        exact ⟨t2, .step (by rw [← h.phase]; exact hp) ht hr2, h2⟩

theorem TracerF.Sim.runs_back (hF : ∀ xs, argsortF (xs.map num) = argsort xs) (hs : GoodScene argsort fuel s objs depth) {k : ℕ} {t t' : Tracer} (hr : Tracer.Runs k t t') :
    ∀ {u : TracerF}, u.Sim argsort argsortF s objs depth t → ∃ u', TracerF.Runs k u u' ∧ u'.Sim argsort argsortF s objs depth t' := by
  induction hr with
  | stop hp => exact fun h => ⟨_, .stop (by rw [h.phase]; exact hp), h⟩
  | step hp hst _ ih =>
    intro u h
    have hst' := h.step hF hs
    rw [hst] at hst'
    cases ht : u.step with
    | none => rw [ht] at hst'; cases hst'
    | some t1 =>
      rw [ht] at hst'
      cases hst' with
      | some h1 =>
        obtain ⟨t2, hr2, h2⟩ := ih h1
        exact ⟨t2, .step (by rw [h.phase]; exact hp) ht hr2, h2⟩

end

end PyRayT
