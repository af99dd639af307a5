# PyRayT: machine-checked model (Lean 4)

Subject: `/repo` (rfrazier716/PyRayT), packages `tinygfx.g3d` and `pyrayt`.
Properties: `properties.jsonl`.  Status per property: `MANIFEST.json`.
Lean project: `lean/`, library `Verif`.

## Trusted base

* The Lean 4.33.0 kernel, and Mathlib as installed.
* Axioms: `#print axioms` of every theorem named in `MANIFEST.json` gives exactly `propext`, `Classical.choice`, `Quot.sound`
  (the three standard ones; real numbers already need all of them), and no other theorem of the library depends on more.  No own
  axioms, no `sorry`, no `native_decide`, no `bv_decide`.
* The claim that the definitions in `lean/Verif/Model/*` describe the Python code.  Every
  definition cites the file and lines it models and states its simplifications.

### Modelling decisions that the reader must accept

| Python | Lean | consequence |
|---|---|---|
| float64 numbers | `Real` (exact) | rounding, overflow and denormals are **not** modelled, except in `Rounding.lean`, `RoundingPlane.lean`, `RoundingCube.lean` and `RoundingPath.lean`, where `reflect`, `refract`, normalisation, `Sphere.intersect`, `Plane.intersect`, `Cube.intersect`, the change to object coordinates, the normals of planes and the steps of the tracer are modelled once more with every operation rounded (C107, C108, C112, C113, C119); overflow nowhere |
| `np.inf`, `-np.inf` hit distances | `EReal` (`⊤`, `⊥`) | exact |
| NaN | not in most models: division by zero gives 0, the distances of a zero-direction ray to a sphere (0/0) are mapped to `⊤` by an explicit branch | justified by C110: `Special.lean` models the functions from the rays to the table once more with nan and the infinities (finite numbers exact, no signed zeros) and gives the same table, under the conditions stated there |
| `np.isclose(a, b)` | `abs (a-b) ≤ 1e-8 + 1e-5*abs b` | exact |
| 4xN arrays of rays | `List` of per-column records | column-wise numpy operations are `List.map`; broadcasting errors are modelled only where stated. That the array code does work column by column is a theorem (C109): `Bundles.lean` models the functions from a ray set to the results once more on whole arrays, with the numpy functions defined entry by entry |
| 4x4 matrices, `np.linalg.inv` | `Matrix (Fin 4) (Fin 4) ℝ`, `⁻¹`; `inv` raises iff `det = 0` | floating singularity detection not modelled |
| `np.argsort` | a function parameter with the contract "returns a permutation that sorts" (all tie-breakings), or the index-stable sort where ties matter (numpy 1.20.2 uses insertion sort for up to 16 entries) | exact up to that version-specific note |
| Python exceptions | returned values, together with the state at the moment of the raise | exact for the modelled statements |
| object identity, `_id`, watch lists, attach | heap of objects indexed by id (`Model/World`) | garbage collection, subclassing by users not modelled |
| pandas dataframe | list of rows | dtypes/index labels not modelled |
| random numbers | arguments (any values in the documented range) | distribution not modelled |
| matplotlib drawing, pickling, `__repr__` | not modelled | |

### Modelled / not modelled code

Modelled so far (function by function, in `Verif/Model`; each definition cites its lines):

* `tinygfx/g3d/operations.py`: all functions (`Operations.lean`).
* `tinygfx/g3d/primitives.py`: `intersect`, `normal`, bounding points of all primitives, `Cube` as box (`Primitives.lean`, `Num.lean`,
  `Normals.lean`); the array classes `Point`/`Vector`/`Ray`/bundles as references into a memory (`Arrays.lean`), as data elsewhere;
  `Disk`, `Rectangle`, `overlap` (`Shapes2D.lean`).
* `tinygfx/g3d/csg.py`: `array_csg`, `CSGSurface` (`Csg.lean`, `World.lean`).
* `tinygfx/g3d/world_objects.py`: movement, watchers, groups, surfaces, bounding boxes, normals (`World.lean`, `Normals.lean`), `invert_normals`/`reset_normals` sequences (`Flip.lean`), list operations of groups (`Groups.lean`),
  getters with the arrays they return (`Getters.lean`), `get_quaternion` with the algorithm of scipy 1.6.3 (`Quaternion.lean`; scipy is trusted to be as modelled).
* `pyrayt/_pyrayt.py`: `RaySet` as list of columns (`Tracer.lean`) and as a 13 x n table with views and setters (`RaySet.lean`),
  `_RayTraceDataframe`, `RayTracer`, `pin` (`Tracer.lean`, `World.lean`).
* `pyrayt/components.py`: all sources (`Sources.lean`): deterministic sources as functions of parameters and world matrix, `Lamp` as a
  function of the random draws, `StaticLamp` as a state machine with the shared `lru_cache` (keys, eviction, aliasing).
* `pyrayt/components.py`: lenses, mirrors, prism, baffle, aperture (`Components.lean`), as programs that run on a scene (heap of objects and
  their materials), with the `_lens`/`_mirror` placement.
* `pyrayt/materials.py`: all materials and index models (`Optics`-related definitions in `Operations.lean`/`Utils.lean`, `Scene.lean`).
* `tinygfx/g3d/world_objects.py` `OrthographicCamera`, `tinygfx/g3d/materials/gooch.py`, `color.py` (constructors, named colours),
  `tinygfx/g3d/renderers.py`: camera rays, shading, both renderers as state machines, and the camera, light and extent of `draw`
  (`Render.lean`).
* `pyrayt/utils.py`: wavelength colours, lensmaker (`Utils.lean`).
* `RayTracer.show` up to the arguments of `quiver`, `Glass.abbe` with its `lru_cache(100)` (`Show.lean`).

Not modelled: matplotlib drawing (`imshow` in `draw`, the drawing of components in `show`), `EdgeRender.get_results` (raises, `_frame` is never set), `__repr__`, re-exports, examples, docs, `get_system` (it raises `AttributeError`
because `_system` is never set). Tracing surfaces that still have their default rendering material raises `AttributeError`: `Model/Bare.lean`.

## Layout

* `Verif/Model/*`  the code, function by function.
* `Verif/Spec/*`   small independent specifications (parity, solids, Snell, lists of rows, ...).
* `Verif/Proofs/*` helper lemmas.
* `Verif/Props/*`  the theorems listed in the manifest, each with a non-vacuity `example`.
* `Verif/Tests/*`  calls and expected values from the project's own tests (of primitives, operations, `array_csg`, materials, sources, lens thickness, colours, camera and shading), repeated on the model as `example`s. These check the model against the code; they prove no property and the manifest lists none of them.

## Method for false properties

Where the code does not satisfy the property, the full statement stays in `properties.jsonl`; we prove
(a) a theorem `..._false`/`..._counterexample` giving a concrete witness in the model, and
(b) a theorem with suffix `_partial` for the largest natural domain where it does hold.
The manifest status is then `partial` and the note says what is missing.

## Per-property plan

| id | model | proof |
|---|---|---|
| C01 | `arrayCsg` over any linear order, any argsort | prefix-sum invariant: running count = [parity l]+[parity r]; induction on merged list |
| C02 | same | mask + sort gives permutation/sublist |
| C03 | same, stable argsort | local mask analysis per merged position |
| C04 | CSG trees over placed primitives with stored boxes | structural induction; leaf parity lemmas C07-C11; box lemma C06 |
| C05 | labelled variant of the same sort/mask | induction on tree |
| C06 | box combination via `arrayCsg` on spans + `Cube.intersect` | interval arithmetic; counterexample for separated union |
| C07 | `Sphere.intersect` | quadratic formula |
| C08 | `Cube.intersect` | slab method, per-axis interval lemma |
| C09 | `Cylinder.intersect` | quadratic interval ∩ slab; counterexample in tolerance band |
| C10 | `Paraboloid.intersect` | same with linear case |
| C11 | `Plane.intersect` | direct |
| C12 | `normal` + inverse-transpose | linear algebra; gradient of implicit function |
| C13 | heap of world objects, operations | invariant over operation sequences |
| C14 | transform matrices | trigonometric identities |
| C15 | heap with exceptions | case analysis; counterexample scale 0 |
| C16 | groups in heap | induction on nesting |
| C17 | `pin` | state restoration lemma; counterexample for (member, group) |
| C18 | bounding boxes of leaves | convexity: affine image of box in AABB of image corners |
| C19 | CSG handlers | invariant for one-level trees, left-nested trees; counterexamples |
| C20 | constructor + invert_normals | induction; counterexample nested difference |
| C21-C24 | `reflect`, `refract` | real algebra on inner products |
| C25 | `_st_propagate` | fold invariant |
| C26-C35 | tracer state machine | refinement to a per-ray recursive semantics, then corollaries |
| C36-C39 | sources | direct; LRU cache model for StaticLamp |
| C40-C42 | utils, materials | real analysis |
| C43, C44 | operations | quadratic formula |
| C45-C52 | components | membership in the CSG tree solid computed explicitly |
| C53-C55 | camera, renderers, gooch | direct |
| C56 | heap | invariant |
| C57 | tracer LUT loop | NoDup lemma; counterexample for duplicates |
| C58, C59 | materials, RaySet | direct |
| C60 | propagate | permutation invariance of min |
| C61 | TracerSurface.intersect | affine invariance; false in the tolerance band (witness) |
| C62 | `_sphere_sample` | monotonicity of arccos |
| C63 | tracer over scenes with built-in materials | C28 + C22/C23 |
| C64 | `intersectObj` on stored trees | structural induction with C03 (crossings kept) and C04 (parity); intermediate value for crossings; false for separated unions (witness) |
| C65 | `planeMirror` | from C52 |
| C66 | `Gooch.shadeMany` with numpy broadcasting of 3-axis arrays | shapes do not fit; witness |
| C67 | `edgeImage` | iterated dilation = Chebyshev ball |
| C68 | `shadedImage` over heap objects | look-up table without duplicates |
| C69 | camera of `draw` over heap objects | all hits on one side of the camera plane by C72; witness blocks |
| C70 | `drawCamera`, `drawExtent` | C53 with the explicit rotation |
| C71 | `Renderer.Runs` | the four states in order |
| C72 | stored boxes | C64 and: not outside => in the box, by induction on the tree; false in the tolerance band (witness) |
| C73 | `drawLight` | direct |
| C74 | primitive hits and normals, labels of hits | every reported distance of a primitive is a root, cap or slab distance at which its normal is not 0; C63 |
| C75 | surfaces and normals under an isometry, hit lists up to labels of misses | the carried ray has the same object-space ray for every leaf; a composite is passed by both boxes, or the line is outside and no hit is reported on either side; induction over rounds |
| C76, C77 | `flipAll` over heap objects | normal factor of a leaf after each call; induction over calls |
| C78 | `ArrState`, values in `Spec/Arrays` | refinement relation: distinct objects own distinct cells |
| C79-C81 | `Shapes2D` | direct; C81 from the slab lemma of the cuboid |
| C82 | `GlassWorld` with the cache | invariant: an entry holds the number of the coefficients at the first call |
| C83 | `Tracer.showRays` | ray numbers of a trace are `source * n + k` |
| C84 | `wavelengthToRgbCall` | direct |
| C85 | `GetState`, programs that hold returned arrays | held matrices are never attributes |
| C86 | `Spec.Bench` packs the hypotheses of C74; laws of `Interacts` at parallel normals | a plate in front of a screen and the resonator as examples |
| C87 | `parabolicMirror` + `trace()` | the nearest hit is reported by the object that owns the surface; C48; reflection is an involution |
| C88 | `thickLens` + `trace()` + `lensmakersEquation` | the exact path of the ray through both spheres as a function of the squared height; limit at 0; near the axis every tolerance and branch of the code is decided (`Lens.Good`) |
| C89 | `trace_iff` (C28-C30) | a row without successor is in the last case of the state machine; C21-C23 say what leaves |
| C90 | momentum changes along normals (C74), induction over the rows of a ray | normals of round surfaces lie in planes through the axis, so the moment about it is kept |
| C91 | C47 (surface and normal), C22 (reflection), rows (C28) | the crossing computed from the reflected direction |
| C92 | `Built` (C49), labels (C47 style), cube normals, C74 | two Snell laws as one vector identity; concavity of √(x² - c) |
| C93 | `Tracer.rowsAt`, `AtRound.runs` | rows of a round do not depend on the limit |
| C94 | `Nearest` over a sublist, `Journey` | induction over the journey of each ray, surface ids are distinct |
| C95 | `Tracer.Ends` (`Model/Bare.lean`), `AtRound` | induction over rounds; ±inf of every primitive for direction zero; witness |
| C96 | `Spec.Route` (`Model/Groups.lean`, `ReachesL`) | invariant over histories; routes counted by recursion over the call |
| C97 | `Spec.Same` | induction over lists and over the comparison; witness |
| C98 | `Spec.Reported`, `Spec.TwoWay`, `Spec.Crossing` | the reversed line through the whole intersection recursion (hit lists mirrored, CSG walk run from the other end); reversal of refraction and reflection; induction over the rows |
| C99 | `Spec.Pierces`, `Solid.Interior`/`Outside` | near a point on one surface the solid is locally that leaf or its complement (induction over the tree, leaves are open sets); hits of the second ray from the change of side; smooth points from C12 |
| C100 | `Spec.opticalPath`, `Spec.OnBoundary` | unit normals are orthogonal to curves on the boundary (`surface_tangent`, from the gradients of the shapes); index times direction changes along the normal only; telescoping sum |
| C101 | Mathlib quaternions: `q v q*` | entries and cofactors of rotation matrices; the table of products has rank one, the branch taken has the largest diagonal entry; false after scaling |
| C102 | `Spec.Folds`, `Spec.Rectangular`, `Spec.Reflects` | a reflection at a face reverses one local component of the direction; induction on the number of reflections; three perpendicular normals form a basis; Gram determinant of two normals and the direction |
| C103 | `Spec.Given`, `Spec.ApertureOf`, `Spec.Delimits` (`Model/Defaults.lean`) | the defaults filled in, then C45-C49, C52, C36, C38, C26, C34 and the hits of the primitives |
| C104 | `Spec.moment`, `Spec.EndsOnSphere`, `Spec.sinTo` | normals of spheres are along the radius, so interactions change the direction along it; chords make equal angles with the radii at their ends; Snell's law twice and the addition theorems |
| C105 | `Spec.OnSide`, `Spec.OnEnd`, `Spec.sinTo` | Snell's law at the entrance bounds the angle to z; Bessel's inequality for the two perpendicular unit vectors z and the normal gives total reflection at every wall; reflection there keeps the component along z; induction over the walls |
| C106 | `Spec.SameIndices`, `Spec.sinTo` | the trace functions of the materials commute with changing number, intensity and wavelength while the index is the same; induction over the interactions in both directions; Snell's law for the parting |
| C107 | `Rounds`, `Spec.IsDouble`, `Spec.NearestDouble`, `Spec.NearUnit`, `Spec.Along` | forward error analysis, operation by operation, with bounds for sums in any order by induction over the summation tree; the square of the length of the refracted vector depends on the radicand and not on its root, hence no loss at the critical angle; induction over the reflections |
| C108 | `Rounds`, `Spec.offSphere`, `Spec.Within`, `Spec.reach` | residuals instead of forward errors: the computed root belongs to a quadratic equation with nearby coefficients, hence no loss for touching rays; scaling to unit size (roundings scale with the unit of length); the offset changes the squared distance by `2 η p·w + η²`, which is compared with the residual |
| C109 | `Spec.SameRay`, `Spec.SameColumn` | the columns of each array function are the one-ray function of the columns (`Proofs/Bundles*.lean`); masks by the list of picked columns and its inverse (`place`); the state machines run in step (`TracerA.Sim`), `C109_alone` follows with C29 |
| C110 | `Spec.IsReal`, `Spec.SoundRow` | arithmetic of finite numbers is that of the reals where no denominator is zero; primitives, composites, normals and materials agree with the model without nan (`Proofs/Special*.lean`); the state machines run in step (`TracerF.Sim`) with unit directions and positive indices as invariant |
| C111 | `Spec.Through`, `Spec.turned` | refraction at the two faces in the components along and across them: the component along the second face of the outgoing direction is linear in √(n² - const), so it grows with n (`Proofs/Dispersion.lean`); order behind the prism from the order of the points on the face and of the directions |
| C112 | `Rounds`, `Spec.facing`, `Spec.seen`, `Spec.Placed`, `Spec.Scene`, `Spec.offSphere` | residuals of the rounded quotients against the edges of the rectangle; errors of rounded matrix products from the bound for sums in any order and the lengths of the rows; everything is compared in the coordinates of the surface, with the exact matrix; spheres by C108 for the computed local ray |
| C113 | `Spec.imagePoint`, `Spec.imageDir`, `Spec.imageRay`, `Spec.InScene`, `Spec.Tracks`, `Spec.pathError` | the error of the start is measured against the whole line of the ideal ray, so that no angle of a mirror enlarges it; images are isometries; induction over the path with error bounds as loop invariants |
| C114 | `Spec.Aplanatic`, `Spec.SineCondition` | with the radius to the place and the vector to the outer point as basis, the direction to the inner point has the tangential part that the law of refraction asks for and lies on the right side, and unit vectors with these two are equal |
| C115 | `Spec.EndsOnParaboloid`, `Spec.fromAxis` | the paraboloid as the places as far from the focus as from a plane; its normal is the difference of the vector from the focus and its length times the axis, of squared length 4fR; both reflections by algebra; the two places are on one line through the focus, and the two equations of the mirrors give the factor |
| C116 | `Spec.spheroid`, `Spec.EndsOnSpheroid` | the transform turns the square of the length into the quadratic form of the spheroid; polarised, the form gives the normal as its gradient; the distances from the foci are linear in the place along the axis; reflection and Snell's law in vector form by algebra |
| C117 | order of two points on the axis, `AxialPath`, `CrossesAxis` | C88 for both colours with the difference of the limits as tolerance; power and back focal distance as rational functions of the index, compared by cross multiplication; C111 for the catalogue |
| C118 | `Station` (vertex, curvature, mirror or medium behind), the product of 2 × 2 matrices `gauss`, `Meets`, `Passes` | near the vertex the sag is of second order and the angle of incidence is nearly a right angle (`Cap.transfer`, `Cap.cosine`), so that transfer, refraction and reflection are linear maps of determinant 1 with coefficients near those of Gaussian optics; induction over the list of surfaces with the continuity of the matrix product; C74 for each surface; images and focal points from the continuity of the quotient of two entries; for `thick_lens` the path of C88 |
| C119 | `Rounds`, `Spec.facing`, `Spec.seen`, `Spec.Placed`, `Spec.Scene`, the intervals between the corners | the residuals of the rounded quotients bound where a hit lies against the two faces of an axis; maxima and minima are exact, so a hit is between the bounds of all axes and at one of them; one component of the direction exceeds 0.57, which bounds the distance |
| C120 | `Station`, `gauss`, `lastVertex`, `lastSense`, `lastMedium`, `Passes` as in C118 | from the matrix of C118: the height in a plane behind the system is linear in height and slope, and its coefficients depend continuously on the entries, the place of the last refraction and the axial component; determinant 1 gives the magnification and the ratio of the angles |
| C121 | `Element`, `unfolded`, `mirrorImage`, `lastFrame`, `MeetsIn`, `FoldsAt`, `PassesIn`, `TracedThrough` | the laws of reflection and refraction do not change under isometries, so the geometry of one surface of C118 applies in the coordinates of the axis; a flat mirror maps its own points to themselves and the new direction to the old one, so the path seen in the mirror is straight and the induction over the list of elements goes on with the mirrored coordinates; magnification and telescopes as in C120; Lagrange's invariant from the determinant 1 of the Gaussian matrix and a bound for products of near vectors |
| C122 | `Slides` | at each surface the new direction times its index differs from the old one times its index by a multiple of the normal (or of the normal times the index for reflections), and the normal is perpendicular to the common direction, which in the coordinates of the surface is a statement about one component; induction over the surfaces; for stacks the components along all directions in the layers are kept and the length is 1, so the component across the layers is kept up to its sign; for the prism the normals of the slanted faces are those of C92 |

How C45-C52 are proved: `Proofs/Build.lean` runs each component program symbolically and yields a `Ctx`: the new addresses form a tree `CTree`
described by `Made` (shape, place, normal factor, material of every leaf), all other objects are untouched, and the scene stays `Ready` (a tidy
history). `Spec.Built` states what can be observed of the result: the set of points inside and outside, the parity of hits along every ray,
and that hits are on the boundary.
