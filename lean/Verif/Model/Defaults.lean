import Verif.Model.Components
import Verif.Model.Sources
import Verif.Model.Tracer
import Verif.Model.Utils

/-!
# Calls with omitted arguments

`none` is an omitted argument. The functions of the other model files take all arguments; here are the defaults that Python fills in.
-/

namespace PyRayT

open Classical

/-- The keyword arguments of a call of a lens or mirror function. `others` are the names of further keywords: line 25 (244) merges
them into the arguments, and the functions, which take `**kwargs`, do not look at them. (Keywords with the value `None`, and keywords that
repeat a positional parameter, are not modelled.) -/
structure Kwargs where
  aperture : Option Aperture := none
  material : Option Material := none
  offAxis : Option (ℝ × ℝ) := none
  others : List String := []

/-- `components.py` lines 22-25: the decorator `_lens` fills in aperture and material -/
noncomputable def Kwargs.lens (k : Kwargs) : Aperture × Material := (k.aperture.getD .default, k.material.getD defaultGlass)

/-- `components.py` lines 241-244: the decorator `_mirror` fills in aperture, material and off_axis -/
noncomputable def Kwargs.mirror (k : Kwargs) : Aperture × Material × (ℝ × ℝ) :=
  (k.aperture.getD .default, k.material.getD .mirror, k.offAxis.getD (0, 0))

section
variable (argsort : List EReal → List ℕ) (fuel : ℕ)

/-- `thick_lens(r1, r2, thickness, **kwargs)`, lines 73-127 with 13-28 -/
noncomputable def thickLensCall (r1 r2 : Option ℝ) (t : ℝ) (k : Kwargs) : Build ℕ := thickLens argsort fuel r1 r2 t k.lens.1 k.lens.2

/-- `biconvex_lens(r1, r2, thickness, **kwargs)`, lines 166-198 with 13-28 -/
noncomputable def biconvexLensCall (r1 r2 t : ℝ) (k : Kwargs) : Build ℕ := biconvexLens argsort fuel r1 r2 t k.lens.1 k.lens.2

/-- `plano_convex_lens(r, thickness, **kwargs)`, lines 201-229 with 13-28 -/
noncomputable def planoConvexLensCall (r t : ℝ) (k : Kwargs) : Build ℕ := planoConvexLens argsort fuel r t k.lens.1 k.lens.2

/-- `plane_mirror(thickness, **kwargs)`, lines 250-266 with 232-247 -/
noncomputable def planeMirrorCall (t : ℝ) (k : Kwargs) : Build ℕ := planeMirror argsort fuel t k.mirror.1 k.mirror.2.1 k.mirror.2.2

/-- `spherical_mirror(radius, thickness, **kwargs)`, lines 269-321 with 232-247 -/
noncomputable def sphericalMirrorCall (r t : ℝ) (k : Kwargs) : Build ℕ := sphericalMirror argsort fuel r t k.mirror.1 k.mirror.2.1 k.mirror.2.2

/-- `parabolic_mirror(focus, thickness, **kwargs)`, lines 350-398 with 232-247 -/
noncomputable def parabolicMirrorCall (f t : ℝ) (k : Kwargs) : Build ℕ := parabolicMirror argsort fuel f t k.mirror.1 k.mirror.2.1 k.mirror.2.2

/-- `equilateral_prism(side_length, width, material=glass["BK7"])`, lines 401-405 -/
noncomputable def equilateralPrismCall (side width : ℝ) (m : Option Material) : Build ℕ :=
  equilateralPrism argsort fuel side width (m.getD (.glass glassBK7))
end

/-- `world_objects.py` lines 485-497 `Cylinder(radius=1, min_height=-1, max_height=1)`. The class of the same name in lines 432-444, which has
no default radius and `max_height=-1`, is replaced by this one when the module is loaded. -/
noncomputable def cylinderCall (radius lo hi : Option ℝ) : Prim := .cylinder (radius.getD 1) (lo.getD (-1)) (hi.getD 1)

/-- `world_objects.py` lines 464-472 `Cuboid(l_corner=(-1, -1, -1), r_corner=(1, 1, 1))` -/
noncomputable def cuboidCall (l r : Option (Fin 3 → ℝ)) : Prim := .cube (l.getD ![-1, -1, -1]) (r.getD ![1, 1, 1])

/-- `world_objects.py` lines 474-477 `Cuboid.from_sides(x=1, y=1, z=1)` -/
noncomputable def cuboidSidesCall (x y z : Option ℝ) : Prim :=
  .cube ![-0.5 * x.getD 1, -0.5 * y.getD 1, -0.5 * z.getD 1] ![0.5 * x.getD 1, 0.5 * y.getD 1, 0.5 * z.getD 1]

/-- `world_objects.py` lines 479-482 `Cuboid.from_length(length)` -/
noncomputable def cuboidLengthCall (x : ℝ) : Prim := .cube ![x * -0.5, x * -0.5, x * -0.5] ![x * 0.5, x * 0.5, x * 0.5]

/-- `world_objects.py` lines 446-452 `Paraboloid(focus=1, height=1)` -/
noncomputable def paraboloidCall (f h : Option ℝ) : Prim := .paraboloid (f.getD 1) (h.getD 1)

/-- `world_objects.py` lines 455-461 `XYPlane(width=2, length=2)` -/
noncomputable def planeCall (w l : Option ℝ) : Prim := .plane (w.getD 2) (l.getD 2)

/-- `components.py` line 512 `LineOfRays(spacing=1, wavelength=0.633)`: the rays of the source with this world matrix -/
noncomputable def lineCall (spacing wavelength : Option ℝ) (w : Mat4) (n : ℕ) : RayTable n :=
  (SourceKind.line (spacing.getD 1)).generate (wavelength.getD 0.633) w n

/-- `components.py` line 534 `CircleOfRays(diameter=1, wavelength=0.633)` -/
noncomputable def circleCall (diameter wavelength : Option ℝ) (w : Mat4) (n : ℕ) : RayTable n :=
  (SourceKind.circle (diameter.getD 1)).generate (wavelength.getD 0.633) w n

/-- `components.py` line 562 `ConeOfRays(cone_angle, wavelength=0.633)` -/
noncomputable def coneCall (angle : ℝ) (wavelength : Option ℝ) (w : Mat4) (n : ℕ) : RayTable n :=
  (SourceKind.cone angle).generate (wavelength.getD 0.633) w n

/-- `components.py` line 589 `WedgeOfRays(angle, wavelength=0.633)` -/
noncomputable def wedgeCall (angle : ℝ) (wavelength : Option ℝ) (w : Mat4) (n : ℕ) : RayTable n :=
  (SourceKind.wedge angle).generate (wavelength.getD 0.633) w n

/-- `components.py` lines 617-619 `Lamp(width, length, max_angle=90, *args, **kwargs)`; the wavelength, 0.633 if omitted, is the first of the
further arguments (line 472) -/
noncomputable def lampCall (width length : ℝ) (maxAngle wavelength : Option ℝ) (w : Mat4) {n : ℕ} (s : Samples n) : RayTable n :=
  (LampParams.mk width length (maxAngle.getD 90) (wavelength.getD 0.633)).generate w s

/-- `_pyrayt.py` lines 211-213 `RayTracer(sources, components, rays_per_source=10, generation_limit=10)` -/
noncomputable def Tracer.call (sources : List (ℕ → List Col)) (components : List Component) (rays : Option ℕ) (limit : Option ℤ) : Tracer :=
  Tracer.new sources components (rays.getD 10) (limit.getD 10)

end PyRayT
