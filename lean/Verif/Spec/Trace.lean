import Verif.Model.Tracer

/-!
# What tracing a ray means

The journey of one ray through the components, stated without arrays, masks, phases or argmin.
-/

namespace PyRayT.Spec

/-- no component reports a hit in front of the ray -/
def Miss (cs : List Component) (ray : Ray) : Prop :=
  ∀ c ∈ cs, ∀ h ∈ (c.intersect ray).1, ¬ (0 < h ∧ h < ⊤)

/-- `d` is the smallest distance in front of the ray that any component reports; `s` is the surface the first component
reporting it gives for it (for the first of its hits at that distance) -/
def Nearest (cs : List Component) (ray : Ray) (d : ℝ) (s : ℤ) : Prop :=
  0 < d ∧ (∀ c ∈ cs, ∀ h ∈ (c.intersect ray).1, 0 < h → (d : EReal) ≤ h) ∧
  ∃ (k : ℕ) (c : Component) (i : ℕ), cs[k]? = some c ∧ (∀ j < k, ∀ c' : Component, cs[j]? = some c' → (d : EReal) ∉ (c'.intersect ray).1) ∧
    (c.intersect ray).1[i]? = some (d : EReal) ∧ (∀ j < i, (c.intersect ray).1[j]? ≠ some (d : EReal)) ∧
    (c.intersect ray).2[i]? = some s

/-- the direction of the ray has been set to zero (or is numerically zero) -/
def Extinct (c : Col) : Prop := norm4 c.ray.d ≤ 1e-8

/-- the ray `c` moved by the parameter `d` along its direction -/
def moved (c : Col) (d : ℝ) : Col := { c with ray := ⟨fun i => c.ray.o i + d * c.ray.d i, c.ray.d⟩ }

/-- `Journey t g c0 c`: the ray that started as `c0` is `c` when it sets out for the `g`-th time: each time it goes to the
nearest surface, is handed to the material of this surface once, and is moved off the surface by the offset. -/
inductive Journey (t : Tracer) (c0 : Col) : ℕ → Col → Prop where
  | start : Journey t c0 0 c0
  | next {g : ℕ} {c : Col} {d : ℝ} {s : ℤ} {f : Col → Col} : Journey t c0 g c → ¬ Extinct c →
      Nearest t.components c.ray d s → (s, f) ∈ t.lut →
      Journey t c0 (g + 1) (moved { f (moved c d) with generation := (g : ℝ) + 1 } t.offset)

/-- the row of a ray going to a surface `s` at `d` -/
structure Segment (c : Col) (d : ℝ) (s : ℤ) (r : Row) : Prop where
  generation : r.generation = c.generation
  intensity : r.intensity = c.intensity
  wavelength : r.wavelength = c.wavelength
  index : r.index = c.index
  id : r.id = c.id
  surface : r.surface = s
  start : ∀ i : Fin 3, r.start i = c.ray.o i.castSucc
  stop : ∀ i : Fin 3, r.stop i = c.ray.o i.castSucc + d * c.ray.d i.castSucc
  tilt : ∀ i : Fin 3, r.tilt i = c.ray.d i.castSucc / √(c.ray.d 0 ^ 2 + c.ray.d 1 ^ 2 + c.ray.d 2 ^ 2)

/-- A material that changes only the direction (and the index): it keeps directions directions (w = 0) and unit vectors unit
vectors, or sets them to zero. -/
structure MaterialOk (f : Col → Col) : Prop where
  origin : ∀ c, (f c).ray.o = c.ray.o
  intensity : ∀ c, (f c).intensity = c.intensity
  wavelength : ∀ c, (f c).wavelength = c.wavelength
  generation : ∀ c, (f c).generation = c.generation
  id : ∀ c, (f c).id = c.id
  dir : ∀ c, c.ray.d 3 = 0 → (f c).ray.d 3 = 0
  unit : ∀ c, c.ray.d 3 = 0 → norm4 c.ray.d = 1 → norm4 (f c).ray.d = 1 ∨ (f c).ray.d = 0

/-- A component whose `intersect` gives an id for every hit, which is the id of one of its surfaces if the hit is not inf,
and whose ids are not negative. -/
structure ComponentOk (c : Component) : Prop where
  len : ∀ ray, (c.intersect ray).2.length = (c.intersect ray).1.length
  labels : ∀ (ray : Ray) (i : ℕ) (v : EReal) (s : ℤ), (c.intersect ray).1[i]? = some v → v ≠ ⊤ → (c.intersect ray).2[i]? = some s →
    ∃ f, (s, f) ∈ c.surfaces
  ids : ∀ e ∈ c.surfaces, 0 ≤ e.1

/-- A tracer set up as by its constructor, from components no two surfaces of which have the same id, with materials that
change only direction and index, and sources emitting rays of generation 0 with points as origins (w = 1) and unit vectors
(w = 0) as directions. -/
structure TracerOk (t : Tracer) : Prop where
  comps : ∀ c ∈ t.components, ComponentOk c
  lut : t.lut = t.components.flatMap Component.surfaces
  nodup : (t.lut.map Prod.fst).Nodup
  materials : ∀ e ∈ t.lut, MaterialOk e.2
  emits : ∀ s ∈ t.sources, ∀ c ∈ s t.raysPerSource, c.generation = 0 ∧ c.ray.o 3 = 1 ∧ c.ray.d 3 = 0 ∧ norm4 c.ray.d = 1

/-- `c` is the `i`-th of the rays emitted by the sources, one source after the other, numbered `i` -/
def Emitted (t : Tracer) (i : ℕ) (c : Col) : Prop :=
  ∃ c', (t.sources.flatMap fun s => s t.raysPerSource)[i]? = some c' ∧ c = { c' with id := (i : ℝ) }

/-- the row that the `i`-th emitted ray leaves when it sets out for the `g`-th time -/
def Leaves (t : Tracer) (i g : ℕ) (r : Row) : Prop :=
  ∃ c0 c d s, Emitted t i c0 ∧ Journey t c0 g c ∧ ¬ Extinct c ∧ Nearest t.components c.ray d s ∧ Segment c d s r

end PyRayT.Spec
