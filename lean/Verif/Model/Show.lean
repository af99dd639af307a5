import Verif.Model.Tracer
import Verif.Model.Sources
import Verif.Model.Utils

/-!
# Model of `RayTracer.show` (`pyrayt/_pyrayt.py` lines 458-536) and of the cached `Glass.abbe` (`pyrayt/materials.py` lines 77-86)

Of `show`, the arrows handed to `axis.quiver` are modelled; the picture of the components underneath is `draw`
(`Model/Render.lean`).
-/

namespace PyRayT

open Classical

/-- the argument `view` -/
inductive ShowView where
  | xy
  | xz
  | other

/-- the argument `color_function`; anything but the two names gives a uniform colour -/
inductive ColorBy where
  | uniform
  | wavelength
  | source

/-- `"C0"`, or an entry of an array of colours (`none`: memory that was never written, from `np.empty`) -/
inductive ArrowColor where
  | c0
  | rgb (c : Option (Fin 3 → ℝ))

/-- one arrow of the quiver plot: foot, extent, colour -/
structure Arrow where
  x : ℝ
  y : ℝ
  u : ℝ
  v : ℝ
  color : ArrowColor

/-- What `show` does with the rays. -/
inductive ShowResult where
  /-- `UnboundLocalError`: the axis names are not set for another view -/
  | error
  /-- no simulation results: `quiver` is not called -/
  | nothing
  | quiver (arrows : List Arrow)

/-- lines 479-494: the colour of one row; the loop over the sources overwrites the colour of the rows with an id in the range of
the source. -/
noncomputable def Tracer.sourceColor (t : Tracer) (id : ℝ) : Option (Fin 3 → ℝ) :=
  (List.range t.sources.length).foldl
    (fun (color : Option (Fin 3 → ℝ)) (n : ℕ) => if (n : ℝ) * t.raysPerSource ≤ id ∧ id < ((n : ℝ) + 1) * t.raysPerSource then
      wavelengthToRgb 0.8 (linspace 0.45 0.65 t.sources.length n) else color) none

/-- lines 475-494: the colour of the arrow of a row -/
noncomputable def Tracer.arrowColor (t : Tracer) (c : ColorBy) (r : Row) : ArrowColor :=
  match c with
  | .uniform => .c0
  | .wavelength => .rgb (wavelengthToRgb 0.8 r.wavelength)
  | .source => .rgb (t.sourceColor r.id)

/-- lines 506-533: the axes of the projection and the arrows -/
noncomputable def Tracer.showRays (t : Tracer) (view : ShowView) (c : ColorBy) : ShowResult :=
  match view with
  | .other => .error
  | .xy => if t.complete then .quiver (t.frame.map fun r =>
      ⟨r.start 0, r.start 1, r.stop 0 - r.start 0, r.stop 1 - r.start 1, t.arrowColor c r⟩) else .nothing
  | .xz => if t.complete then .quiver (t.frame.map fun r =>
      ⟨r.start 0, r.start 2, r.stop 0 - r.start 0, r.stop 2 - r.start 2, t.arrowColor c r⟩) else .nothing

/-- `pyrayt/utils.py` lines 5-102 `wavelength_to_rgb` for an array (`some`) or a single number: `wavelength.shape[0]` (line 17) does not
exist for a single number, an `IndexError`. -/
noncomputable def wavelengthToRgbCall (gamma : ℝ) : List ℝ ⊕ ℝ → Option (List (Option (Fin 3 → ℝ)))
  | .inl ws => some (ws.map (wavelengthToRgb gamma))
  | .inr _ => none

/-- `materials.py` lines 82-86: the uncached method. With a `BasicRefractor` it divides by a Python float zero and raises
`ZeroDivisionError`. -/
noncomputable def IndexModel.abbeCall : IndexModel → Option ℝ
  | .basic _ => none
  | m => some m.abbe

/-- The glasses (by identity) with their current coefficients, and the `lru_cache(100)` of line 77, which is shared by all of them,
most recently used first. -/
structure GlassWorld where
  model : ℕ → IndexModel
  cache : List (ℕ × ℝ)

/-- line 77-86: a call of `abbe()`; an exception is not cached -/
noncomputable def GlassWorld.abbe (s : GlassWorld) (g : ℕ) : GlassWorld × Option ℝ :=
  match s.cache.find? fun e => e.1 = g with
  | some e => ({ s with cache := e :: s.cache.filter fun e => e.1 ≠ g }, some e.2)
  | none =>
    match (s.model g).abbeCall with
    | none => (s, none)
    | some v => ({ s with cache := ((g, v) :: s.cache).take 100 }, some v)

/-- What can happen to glasses: `abbe()` is called, or the coefficients (public attributes, lines 127-132) are assigned. -/
inductive GlassOp where
  | abbe (g : ℕ)
  | edit (g : ℕ) (m : IndexModel)

/-- executing one of them -/
noncomputable def GlassWorld.step (s : GlassWorld) : GlassOp → GlassWorld
  | .abbe g => (s.abbe g).1
  | .edit g m => { s with model := Function.update s.model g m }

/-- executing several -/
noncomputable def GlassWorld.run (s : GlassWorld) (ops : List GlassOp) : GlassWorld := ops.foldl GlassWorld.step s

end PyRayT
