import Verif.Model.RaySet
import Verif.Model.World

/-!
# Model of the ray sources (`pyrayt/components.py` lines 56-70 and 471-662)
-/

namespace PyRayT

open Matrix

/-- `np.linspace(a, b, n)`, entry `j`: `a + j * (b - a) / (n - 1)`; a single entry is `a`. -/
noncomputable def linspace (a b : ℝ) (n j : ℕ) : ℝ := if n = 1 then a else a + (j : ℝ) * ((b - a) / ((n : ℝ) - 1))

/-- The deterministic sources with their parameters: lines 507-510, 529-540, 560-572, 590-600. The constructor of `ConeOfRays` and
`WedgeOfRays` takes degrees and stores radians: the parameter here is in degrees. -/
inductive SourceKind where
  | line (spacing : ℝ)
  | circle (diameter : ℝ)
  | cone (angle : ℝ)
  | wedge (angle : ℝ)

/-- `_local_ray_generation(n)`: lines 512-526 (line), 542-557 (circle), 574-585 (cone), 602-615 (wedge). -/
noncomputable def SourceKind.localRays (k : SourceKind) (wavelength : ℝ) (n : ℕ) : RayTable n :=
  match k with
  | .line s =>
    let t := RayTable.new n
    let t := if 1 < n then t.write (.ray 0 1 fun j => linspace (-s / 2) (s / 2) n j) else t
    let t := t.write (.ray 1 0 fun _ => 1)
    t.write (.wavelength fun _ => wavelength)
  | .circle d =>
    let t := RayTable.new n
    let θ : Fin n → ℝ := fun j => linspace 0 (2 * Real.pi) n j
    let t := t.write (.ray 0 1 fun j => d / 2 * Real.sin (θ j))
    let t := t.write (.ray 0 2 fun j => d / 2 * Real.cos (θ j))
    let t := t.write (.ray 1 0 fun _ => 1)
    t.write (.wavelength fun _ => wavelength)
  | .cone deg =>
    let a := deg * Real.pi / 180
    let t := RayTable.new n
    let φ : Fin n → ℝ := fun j => 2 * Real.pi * (j.val : ℝ) / (n : ℝ)
    let t := if 1 < n then
        (t.write (.ray 1 1 fun j => Real.sin a * Real.sin (φ j))).write (.ray 1 2 fun j => Real.sin a * Real.cos (φ j))
      else t
    let t := t.write (.ray 1 0 fun _ => Real.cos a)
    t.write (.wavelength fun _ => wavelength)
  | .wedge deg =>
    let a := deg * Real.pi / 180
    let t := RayTable.new n
    let β : Fin n → ℝ := fun j => linspace (-a / 2) (a / 2) n j
    let t := t.write (.ray 1 0 fun j => Real.cos (β j))
    let t := t.write (.ray 1 1 fun j => Real.sin (β j))
    t.write (.wavelength fun _ => wavelength)

/-- lines 481-495 `Source.generate_rays`, after the local rays: multiplication by the world matrix (`np.matmul` of a 4 x 4 matrix and
a 2 x 4 x n array works on both 4 x n layers) and division of the directions by their norms. (For a zero direction the code computes
NaN, the model 0.) -/
noncomputable def placeRays {n : ℕ} (world : Mat4) (t : RayTable n) : RayTable n :=
  let t := t.write (.rays fun k r j => (world *ᵥ fun s => t.rays k s j) r)
  t.write (.rays fun k r j => if k = 1 then t.rays 1 r j / norm4 (fun s => t.rays 1 s j) else t.rays k r j)

/-- `generate_rays(n)` of a deterministic source whose world matrix is `world` -/
noncomputable def SourceKind.generate (k : SourceKind) (wavelength : ℝ) (world : Mat4) (n : ℕ) : RayTable n :=
  placeRays world (k.localRays wavelength n)

/-- the set as the tracer model takes it -/
def RayTable.cols {n : ℕ} (t : RayTable n) : List Col := List.ofFn t.col

/-- The draws of one generation of lamp rays, each in [0, 1): lines 65 (two rows), 643, 644. -/
structure Samples (n : ℕ) where
  u : Fin n → ℝ
  v : Fin n → ℝ
  y : Fin n → ℝ
  z : Fin n → ℝ

/-- line 68 of `_sphere_sample` (lines 56-70), for one sample -/
noncomputable def sampleTheta (maxAngle u : ℝ) : ℝ := Real.arccos (1 - u * (1 - Real.cos maxAngle))

/-- line 69 -/
noncomputable def samplePhi (v : ℝ) : ℝ := v * (2 * Real.pi)

/-- Parameters of a `Lamp` (lines 618-635); `maxAngle` is in degrees. -/
structure LampParams where
  width : ℝ
  length : ℝ
  maxAngle : ℝ
  wavelength : ℝ

/-- lines 637-654 `Lamp._local_ray_generation` -/
noncomputable def LampParams.localRays (p : LampParams) {n : ℕ} (s : Samples n) : RayTable n :=
  let m := p.maxAngle * Real.pi / 180
  let t := (RayTable.new n).write (.wavelength fun _ => p.wavelength)
  let θ : Fin n → ℝ := fun j => sampleTheta m (s.u j)
  let φ : Fin n → ℝ := fun j => samplePhi (s.v j)
  let t := t.write (.ray 0 1 fun j => p.width * (s.y j - 0.5))
  let t := t.write (.ray 0 2 fun j => p.length * (s.z j - 0.5))
  let t := t.write (.ray 1 0 fun j => Real.cos (θ j))
  let t := t.write (.ray 1 1 fun j => Real.sin (θ j) * Real.cos (φ j))
  let t := t.write (.ray 1 2 fun j => Real.sin (θ j) * Real.sin (φ j))
  t.write (.intensity fun j => 100.0 * Real.cos (θ j))

/-- `Lamp.generate_rays(n)` -/
noncomputable def LampParams.generate (p : LampParams) (world : Mat4) {n : ℕ} (s : Samples n) : RayTable n :=
  placeRays world (p.localRays s)

/-! ### `StaticLamp`: lines 657-662

`lru_cache(10)` decorates the method in the class body: one cache for all lamps. The key is made of the lamp (identity) and the
argument; a keyword argument makes a different key. The value is the `RaySet` object itself, which every caller with this key
gets. -/

/-- `lamp.generate_rays(n)` or `lamp.generate_rays(n_rays=n)` -/
structure LampKey where
  lamp : ℕ
  n : ℕ
  keyword : Bool
  deriving DecidableEq

/-- The interpreter state the method depends on: parameters and world matrix of each lamp, the number of generations
so far (which numbers the random draws), all `RaySet` objects made and the cache, most recently used first. -/
structure LampWorld where
  params : ℕ → LampParams
  world : ℕ → Mat4
  draws : ℕ
  sets : ℕ → List Col
  cache : List (LampKey × ℕ)

/-- The random number generator: the samples of the `i`-th generation. -/
abbrev Rng := (i : ℕ) → (n : ℕ) → Samples n

/-- the uncached method, line 662 -/
noncomputable def LampWorld.fresh (rng : Rng) (s : LampWorld) (k : LampKey) : List Col :=
  ((s.params k.lamp).generate (s.world k.lamp) (rng s.draws k.n)).cols

/-- lines 660-662: the cached method. A hit becomes the most recent entry; a miss stores the new object and drops the least recent
entry if there are more than 10. Returns the state and the reference of the returned set. -/
noncomputable def LampWorld.call (rng : Rng) (s : LampWorld) (k : LampKey) : LampWorld × ℕ :=
  match s.cache.find? fun e => e.1 = k with
  | some e => ({ s with cache := e :: s.cache.filter fun e => e.1 ≠ k }, e.2)
  | none =>
    ({ s with draws := s.draws + 1
              sets := Function.update s.sets s.draws (s.fresh rng k)
              cache := ((k, s.draws) :: s.cache).take 10 }, s.draws)

/-- What can happen between two calls. -/
inductive LampOp where
  /-- a call of `generate_rays` on any lamp -/
  | call (k : LampKey)
  /-- a lamp is moved (by itself or with a group): its world matrix becomes `w` -/
  | move (lamp : ℕ) (w : Mat4)
  /-- the caller overwrites a returned set -/
  | edit (ref : ℕ) (f : List Col → List Col)

/-- executing one of them -/
noncomputable def LampWorld.step (rng : Rng) (s : LampWorld) : LampOp → LampWorld
  | .call k => (s.call rng k).1
  | .move l w => { s with world := Function.update s.world l w }
  | .edit r f => { s with sets := Function.update s.sets r (f (s.sets r)) }

end PyRayT
