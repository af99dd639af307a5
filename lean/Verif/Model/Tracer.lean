import Verif.Model.Operations
import Verif.Model.Utils
import Mathlib.Algebra.Order.Floor.Ring

/-!
# Model of `RaySet`, `_RayTraceDataframe` and `RayTracer` (`pyrayt/_pyrayt.py` lines 13-456)

A `RaySet` is a list of columns; all array code of the tracer works column by column. Components and materials are parameters
here; `Model/Scene.lean` instantiates them with objects of the heap and the built-in materials.
-/

namespace PyRayT

open Classical

/-- One column of a `RaySet` (lines 13-45): origin and direction (rows 0-7) and the five metadata fields (rows 8-12). -/
structure Col where
  ray : Ray
  generation : ℝ
  intensity : ℝ
  wavelength : ℝ
  index : ℝ
  id : ℝ

/-- One row of the result table (lines 153-186): metadata, surface id, start point, end point and tilt. -/
structure Row where
  generation : ℝ
  intensity : ℝ
  wavelength : ℝ
  index : ℝ
  id : ℝ
  surface : ℤ
  start : Fin 3 → ℝ
  stop : Fin 3 → ℝ
  tilt : Fin 3 → ℝ

/-- drop the homogeneous coordinate -/
def trim (v : Vec4) : Fin 3 → ℝ := fun i => v i.castSucc

/-- `np.linalg.norm(v, axis=0)` of three components -/
noncomputable def norm3 (v : Fin 3 → ℝ) : ℝ := √(v 0 ^ 2 + v 1 ^ 2 + v 2 ^ 2)

/-- lines 168-186 `_RayTraceDataframe.insert`, one column. Exact reals instead of the column types of pandas. -/
noncomputable def mkRow (c next : Col) (surface : ℤ) : Row :=
  { generation := c.generation
    intensity := c.intensity
    wavelength := c.wavelength
    index := c.index
    id := c.id
    surface
    start := trim c.ray.o
    stop := trim next.ray.o
    tilt := fun i => trim c.ray.d i / norm3 (trim c.ray.d) }

/-- What the tracer uses of a component: `intersect` for one ray (hits, surface ids: columns of the two matrices) and
`surface_ids` (id and `material.trace` of the surface with that id). Materials are assumed to treat the columns of a ray set
independently, as all materials of `pyrayt/materials.py` do. -/
structure Component where
  intersect : Ray → List EReal × List ℤ
  surfaces : List (ℤ × (Col → Col))

/-- line 380: `np.where(shape_hits > 0, shape_hits, np.inf)` -/
noncomputable def positiveHit (h : EReal) : EReal := if 0 < h then h else ⊤

/-- `np.argmin` of one column: the first index of the minimum. (numpy raises for a matrix without rows; no component
returns one.) -/
noncomputable def argmin (xs : List EReal) : ℕ := xs.idxOf (xs.foldr min ⊤)

/-- lines 378-383: nearest positive hit of one component and the surface it belongs to -/
noncomputable def nearestHit (h : List EReal × List ℤ) : EReal × ℤ :=
  let hits := h.1.map positiveHit
  (hits.getD (argmin hits) ⊤, h.2.getD (argmin hits) (-1))

/-- lines 372-386: one column of `hit_distances` and `hit_surfaces` -/
noncomputable def hitOf (cs : List Component) (ray : Ray) : EReal × ℤ :=
  cs.foldl (fun acc c => let n := nearestHit (c.intersect ray); if n.1 < acc.1 then n else acc) (⊤, -1)

/-- lines 404-407: the ray is moved to the hit -/
def Col.advance (c : Col) (t : ℝ) : Col := { c with ray := ⟨c.ray.at t, c.ray.d⟩ }

/-- line 399: the direction of a ray without a hit is set to zero -/
def Col.kill (c : Col) : Col := { c with ray := ⟨c.ray.o, 0⟩ }

/-- lines 401-410: the loop over the surfaces -/
noncomputable def lutPass (lut : List (ℤ × (Col → Col))) (hit : EReal × ℤ) (c : Col) : Col :=
  lut.foldl (fun c e => if hit.2 = e.1 then e.2 (c.advance hit.1.toReal) else c) c

/-- lines 396-410: one column of `next_ray_set` -/
noncomputable def interactCol (lut : List (ℤ × (Col → Col))) (hit : EReal × ℤ) (c : Col) : Col :=
  lutPass lut hit (if hit.2 = -1 then c.kill else c)

/-- `np.logical_or(a, b, out)`: the third positional argument is the array the result is written to; its contents are
overwritten without being read. -/
def npLogicalOr (a b _out : Prop) : Prop := a ∨ b

/-- lines 415-419: dead rays -/
def deadCol (threshold : ℝ) (c : Col) (hit : EReal × ℤ) : Prop :=
  npLogicalOr (isclose0 (norm4 c.ray.d)) (hit.2 = -1) (c.intensity < threshold)

/-- lines 202-209 (the states without transitions to or from them are left out) -/
inductive Phase where
  | initialize
  | propagate
  | interact
  | finish
  | idle
  deriving DecidableEq

/-- The attributes of a `RayTracer` (lines 190-260). A source is its `generate_rays` (sources that are random or depend on
hidden state are not of this form). -/
structure Tracer where
  sources : List (ℕ → List Col)
  components : List Component
  raysPerSource : ℕ
  limit : ℤ
  lut : List (ℤ × (Col → Col))
  /-- `ray_offset_value` -/
  offset : ℝ
  /-- `ray_intensity_threshold` -/
  threshold : ℝ
  phase : Phase
  frame : List Row
  gen : ℕ
  complete : Bool
  rays : List Col
  hits : List (EReal × ℤ)

/-- lines 211-260 `RayTracer.__init__` (class attributes with their default values) -/
noncomputable def Tracer.new (sources : List (ℕ → List Col)) (components : List Component) (raysPerSource : ℕ) (limit : ℤ) :
    Tracer :=
  { sources, components, raysPerSource, limit
    lut := components.flatMap Component.surfaces
    offset := 1e-6
    threshold := 0.1
    phase := .idle
    frame := []
    gen := 0
    complete := false
    rays := []
    hits := [] }

/-- lines 262-271 `reset` -/
def Tracer.reset (t : Tracer) : Tracer := { t with complete := false, frame := [], phase := .idle, gen := 0 }

/-- lines 273-279 `set_rays_per_source` -/
def Tracer.setRaysPerSource (t : Tracer) (n : ℕ) : Tracer := { t with raysPerSource := n }

/-- lines 289-295 `set_generation_limit` -/
def Tracer.setGenerationLimit (t : Tracer) (l : ℤ) : Tracer := { t with limit := l }

/-- lines 305-317 `load_components` -/
def Tracer.loadComponents (t : Tracer) (cs : List Component) : Tracer := { t with components := cs }

/-- lines 360-365: the rays of all sources, renumbered -/
def sourceRays (sources : List (ℕ → List Col)) (n : ℕ) : List Col :=
  (sources.flatMap fun s => s n).zipIdx.map fun p => { p.1 with id := (p.2 : ℝ) }

/-- lines 356-368 `_st_initialize`; `np.hstack([])` raises a ValueError (after the reset) -/
noncomputable def Tracer.stInitialize (t : Tracer) : Option Tracer :=
  let t := t.reset
  if t.sources = [] then none
  else some { t with rays := sourceRays t.sources t.raysPerSource, phase := .propagate }

/-- lines 370-392 `_st_propagate` -/
noncomputable def Tracer.stPropagate (t : Tracer) : Tracer :=
  { t with hits := t.rays.map fun c => hitOf t.components c.ray, phase := .interact }

/-- lines 394-452 `_st_interact` -/
noncomputable def Tracer.stInteract (t : Tracer) : Tracer :=
  let zs := t.rays.zip t.hits
  let living := zs.filter fun z => ¬ deadCol t.threshold z.1 z.2
  if living = [] then { t with phase := .finish }
  else
    let next := living.map fun z => interactCol t.lut z.2 z.1
    let frame := t.frame ++ living.map fun z => mkRow z.1 (interactCol t.lut z.2 z.1) z.2.2
    let gen := t.gen + 1
    let next := next.map fun c => { c with generation := (gen : ℝ) }
    if (gen : ℤ) = t.limit then { t with frame, gen, rays := next, phase := .finish }
    else
      { t with
        frame, gen
        rays := next.map fun c => { c with ray := ⟨c.ray.at t.offset, c.ray.d⟩ }
        phase := .propagate }

/-- lines 454-456 `_st_finish` -/
def Tracer.stFinish (t : Tracer) : Tracer := { t with complete := true, phase := .idle }

/-- lines 333-336: one iteration of the state machine; `none` is an exception -/
noncomputable def Tracer.step (t : Tracer) : Option Tracer :=
  match t.phase with
  | .initialize => t.stInitialize
  | .propagate => some t.stPropagate
  | .interact => some t.stInteract
  | .finish => some t.stFinish
  | .idle => none

/-- lines 333-336: the loop, with the number of iterations -/
inductive Tracer.Runs : ℕ → Tracer → Tracer → Prop where
  | stop {t : Tracer} : t.phase = .idle → Runs 0 t t
  | step {n : ℕ} {t t' t'' : Tracer} : t.phase ≠ .idle → t.step = some t' → Runs n t' t'' → Runs (n + 1) t t''

/-- lines 329-339 `trace()`: ends in state `t'` after `n` iterations; the result is `t'.frame` (which is also what
`get_results()`, lines 341-347, returns afterwards). -/
def Tracer.Traces (n : ℕ) (t t' : Tracer) : Prop := Tracer.Runs n { t with phase := .initialize } t'

/-- lines 349-354 `calculate_source_ids`: `(id / rays_per_source).astype(int)`, for each row (truncation; ids are
not negative) -/
noncomputable def Tracer.sourceIds (t : Tracer) : List ℤ :=
  t.frame.map fun r => ⌊r.id / (t.raysPerSource : ℝ)⌋

end PyRayT
