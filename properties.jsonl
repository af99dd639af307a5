{"id": "C01", "title": "array_csg computes the boolean combination of two hit lists", "statement": "For every parameter value t, an odd number of the hits returned by array_csg lie before t exactly when the requested boolean operation (or / and / and-not) holds of 'an odd number of hits of array1 lie before t' and 'an odd number of hits of array2 lie before t'.", "quantifier": "All pairs of sorted hit arrays of any even lengths, containing finite values, +inf padding, -inf and repeated values, all three operations, every t, and every tie-breaking order argsort may choose.", "why_tests_cant": "The number of interleavings and ties of two hit arrays of unbounded length is infinite; the repo tests one pair of arrays per operation.", "anchors": ["tinygfx/g3d/csg.py:array_csg"]}
{"id": "C02", "title": "array_csg returns a sorted, same-length selection of its inputs", "statement": "The array returned by array_csg (sort_output=True) has length len(array1)+len(array2), is sorted, and consists of a sub-multiset of the merged inputs with every rejected entry replaced by +inf.", "quantifier": "All pairs of hit arrays, all operations, any argsort tie-breaking.", "why_tests_cant": "Must hold for every length and tie pattern; a test fixes both.", "anchors": ["tinygfx/g3d/csg.py:array_csg"]}
{"id": "C03", "title": "array_csg keeps exactly the surface crossings that bound the result", "statement": "When no value occurs in both arrays, the hits that survive are exactly: UNION - hits of one array lying outside the other; INTERSECT - hits of one array lying inside the other; DIFFERENCE - hits of array1 outside array2 and hits of array2 inside array1 (including zero-thickness double hits such as a plane's).", "quantifier": "All sorted even-length arrays without a common value, repeated values inside one array allowed, index-stable argsort (what numpy 1.20 does up to 16 entries).", "why_tests_cant": "Double hits and long alternations are an infinite family; an off-by-one in the parity mask only shows on particular interleavings.", "anchors": ["tinygfx/g3d/csg.py:array_csg", "pyrayt/components.py:aperture"]}
{"id": "C04", "title": "Composite solids are intersected like the boolean combination of their parts", "statement": "For a CSG object built from spheres, cuboids, cylinders, paraboloids by union/intersect/difference, a parameter t whose point o+t*d is strictly inside the boolean combination of the transformed solids has an odd number of reported hits before it, and one strictly outside has an even number.", "quantifier": "All CSG trees of any depth, all invertible placements of the leaves, all rays that are not degenerate with respect to the numerical tolerances, all t.", "why_tests_cant": "Trees have unbounded depth and rays are a continuum; the claim also needs the bounding-box shortcut to be harmless for every tree.", "anchors": ["tinygfx/g3d/csg.py:CSGSurface.intersect", "tinygfx/g3d/world_objects.py:TracerSurface.intersect"]}
{"id": "C05", "title": "Every reported composite hit is attributed to a surface that is really hit there", "statement": "Whenever a CSG object's intersect() reports a finite distance with surface id s, s is the id of one of the object's surfaces (as listed by surface_ids) and that surface's own intersect() reports the same distance for that ray.", "quantifier": "All CSG trees, all rays, any tie-breaking of argsort.", "why_tests_cant": "Hit distances and surface ids are permuted by separate argsorts; only a proof covers every permutation.", "anchors": ["tinygfx/g3d/csg.py:CSGSurface.intersect", "tinygfx/g3d/csg.py:CSGSurface.surface_ids"]}
{"id": "C06", "title": "The bounding-box shortcut never discards a solid the ray passes through", "statement": "If the ray passes through a point strictly inside the composite solid, the composite's bounding box test lets the ray through.", "quantifier": "All CSG objects, all rays; in particular every relative placement of the two children of a union.", "why_tests_cant": "The failing placements (children separated along an axis) are not in the test-suite; correctness quantifies over all placements.", "anchors": ["tinygfx/g3d/csg.py:CSGSurface._update_bounding_box", "tinygfx/g3d/csg.py:CSGSurface.intersect", "tinygfx/g3d/primitives.py:Cube.intersect"]}
{"id": "C07", "title": "Sphere intersection is sound and complete", "statement": "A finite value is returned by Sphere.intersect iff the point at that parameter is on the sphere; a line that misses the sphere gets +inf twice; points strictly between the two returned values are strictly inside and points outside the interval are strictly outside.", "quantifier": "All radii, all rays with nonzero direction.", "why_tests_cant": "Continuum of rays; tests use a handful of axis-aligned rays.", "anchors": ["tinygfx/g3d/primitives.py:Sphere.intersect"]}
{"id": "C08", "title": "Cube intersection returns the entry and exit parameters of the box", "statement": "For a cuboid given by two opposite corners in any order, Cube.intersect returns (t0,t1) with t0<t1 such that the points of the line in the closed box are exactly those with t0<=t<=t1, and (+inf,+inf) when no open segment of the line is in the box.", "quantifier": "All corner pairs, all rays whose direction components are 0 or larger in magnitude than the 1e-8 tolerance.", "why_tests_cant": "Continuum of rays including rays parallel to faces, starting inside, pointing backwards.", "anchors": ["tinygfx/g3d/primitives.py:Cube.__init__", "tinygfx/g3d/primitives.py:Cube.intersect"]}
{"id": "C09", "title": "Cylinder intersection returns the entry and exit parameters of the capped cylinder", "statement": "Cylinder.intersect returns (t0,t1) such that the points of the line in the closed capped cylinder are exactly those with t0<=t<=t1, and (+inf,+inf) when there are none.", "quantifier": "All radii and heights, all rays.", "why_tests_cant": "Near-axial rays fall in a tolerance branch (a<=1e-8) that no test exercises; correctness is over all directions.", "anchors": ["tinygfx/g3d/primitives.py:Cylinder.intersect", "tinygfx/g3d/operations.py:binomial_root"]}
{"id": "C10", "title": "Paraboloid intersection returns the entry and exit parameters of the capped paraboloid", "statement": "Paraboloid.intersect returns (t0,t1) such that the points of the line in {x^2+y^2<=4fz, z<=height} are exactly those with t0<=t<=t1, and (+inf,+inf) when there are none.", "quantifier": "All positive focus/height, all rays.", "why_tests_cant": "Same tolerance branch for near-axial rays; continuum of rays.", "anchors": ["tinygfx/g3d/primitives.py:Paraboloid.intersect"]}
{"id": "C11", "title": "Plane intersection hits exactly the finite rectangle", "statement": "Plane.intersect returns the same value twice; it is finite iff the ray is not parallel to the plane and the point where it crosses z=0 lies in the closed width x length rectangle, and then it is that crossing parameter.", "quantifier": "All widths and lengths, all rays whose direction components are 0 or above tolerance.", "why_tests_cant": "Continuum of rays, including rays skew or parallel to the rectangle's sides.", "anchors": ["tinygfx/g3d/primitives.py:Plane.intersect"]}
{"id": "C12", "title": "Surface normals are unit, perpendicular to the surface and outward, in any placement", "statement": "get_world_normals returns a unit vector (w=0) that is orthogonal to every tangent direction of the transformed surface and has positive product with outward directions (negative after invert_normals).", "quantifier": "All primitives, all invertible affine placements (including non-uniform scale), all points of the smooth part of the surface.", "why_tests_cant": "Non-uniform scaling makes the naive transform wrong only for some placements; requires all matrices.", "anchors": ["tinygfx/g3d/world_objects.py:TracerSurface.get_world_normals", "tinygfx/g3d/primitives.py:Sphere.normal", "tinygfx/g3d/primitives.py:Paraboloid.normal", "tinygfx/g3d/primitives.py:Plane.normal", "tinygfx/g3d/primitives.py:Cube.normal", "tinygfx/g3d/primitives.py:Cylinder.normal"]}
{"id": "C13", "title": "World and object coordinates stay mutually inverse through every history of movements", "statement": "After any sequence of successful move/scale/rotate/transform calls, get_world_transform() is the product of the applied matrices (latest on the left), to_object_coordinates and to_world_coordinates are inverse of each other, and get_position()/get_orientation() are the image of the origin / the normalised image of the z axis.", "quantifier": "All operation sequences of any length on any object, including operations performed through parents.", "why_tests_cant": "Cached inverse, position and direction could go stale after some history; histories are unbounded.", "anchors": ["tinygfx/g3d/world_objects.py:WorldObject._append_world_transform", "tinygfx/g3d/world_objects.py:WorldObject._world_matrix_update_handler"]}
{"id": "C14", "title": "Movements compose as documented", "statement": "move(a) then move(b) equals move(a+b) and moves commute; rotations about one axis add their angles (degrees or radians, mod 360), and rotate by -angle undoes; rotation and translation preserve distances; rotate_x/y/z leave their axis fixed and are right-handed; scaling by s then 1/s is the identity.", "quantifier": "All displacements, angles and scale factors.", "why_tests_cant": "Identities over the reals; tests use 45/90 degree samples.", "anchors": ["tinygfx/g3d/world_objects.py:WorldObject.move", "tinygfx/g3d/world_objects.py:WorldObject.rotate_x", "tinygfx/g3d/world_objects.py:WorldObject.rotate_y", "tinygfx/g3d/world_objects.py:WorldObject.rotate_z", "tinygfx/g3d/world_objects.py:WorldObject.scale"]}
{"id": "C15", "title": "A rejected movement leaves the object unchanged", "statement": "If a scale/rotate/transform call raises, every observable of the object (transform, position, orientation, bounding box) is what it was before the call.", "quantifier": "All objects, histories and arguments (negative scale, zero scale, singular matrix, bad unit string).", "why_tests_cant": "Exception paths after partial mutation are only reached by particular arguments in particular states.", "anchors": ["tinygfx/g3d/world_objects.py:WorldObject.scale", "tinygfx/g3d/world_objects.py:WorldObject._append_world_transform", "tinygfx/g3d/world_objects.py:WorldObject._sin_cos"]}
{"id": "C16", "title": "Moving a group moves its members rigidly with it", "statement": "A movement applied to an ObjectGroup is applied to every member exactly once, so the relative placement of any two members is unchanged.", "quantifier": "All groups (nested), all movement sequences.", "why_tests_cant": "Unbounded groups and histories; a member reachable twice would be moved twice.", "anchors": ["tinygfx/g3d/world_objects.py:ObjectGroup._append_world_transform"]}
{"id": "C17", "title": "pin restores the placement of every pinned object", "statement": "After 'with pin(objs): body', each pinned object's world transform equals the one on entry, whatever movements the body performed and even if the body raises.", "quantifier": "All tuples of objects, all bodies.", "why_tests_cant": "Bodies are arbitrary histories; the order of restoration matters when one pinned object is part of another.", "anchors": ["pyrayt/_pyrayt.py:pin.__enter__", "pyrayt/_pyrayt.py:pin.__exit__"]}
{"id": "C18", "title": "A surface's bounding box always encloses the surface", "statement": "After any history of movements the axis-aligned bounding_box of a surface contains every point of the transformed solid.", "quantifier": "All primitives, all parameters, all movement histories.", "why_tests_cant": "Universally quantified over points and transforms.", "anchors": ["tinygfx/g3d/world_objects.py:TracerSurface._boundary_box_update_fn", "tinygfx/g3d/world_objects.py:bounding_box", "tinygfx/g3d/primitives.py:_corners_to_cube_points"]}
{"id": "C19", "title": "A composite's bounding box follows every movement of the composite or its parts", "statement": "After any history of movements of a CSG object or of objects inside it, its bounding_box equals the one a freshly built composite of the same children would have.", "quantifier": "All trees, all histories.", "why_tests_cant": "Depends on the order in which change handlers fire in deeper trees; tests only use one-level trees.", "anchors": ["tinygfx/g3d/csg.py:CSGSurface._append_world_transform", "tinygfx/g3d/csg.py:CSGSurface._update_bounding_box", "tinygfx/g3d/world_objects.py:Intersectable.attach_to"]}
{"id": "C20", "title": "Normals of a difference point out of the remaining material", "statement": "In a CSG object, a leaf surface's normals are inverted exactly when it is subtracted an odd number of times on the path from the root.", "quantifier": "All CSG trees.", "why_tests_cant": "Needs nested differences of arbitrary depth.", "anchors": ["tinygfx/g3d/csg.py:CSGSurface.__init__", "tinygfx/g3d/csg.py:CSGSurface.invert_normals", "tinygfx/g3d/world_objects.py:Intersectable.invert_normals"]}
{"id": "C21", "title": "Reflection obeys the law of reflection", "statement": "reflect(v,n) for a unit normal preserves length, keeps the component tangential to the surface, reverses the normal component, and applying it twice gives v back; the result is the same for n and -n, and the single-normal, per-column and 1-D forms agree.", "quantifier": "All vectors and unit normals, any number of rays.", "why_tests_cant": "Continuum of inputs.", "anchors": ["tinygfx/g3d/operations.py:reflect", "tinygfx/g3d/operations.py:element_wise_dot"]}
{"id": "C22", "title": "Refraction obeys Snell's law", "statement": "When refract does not report total internal reflection, the returned direction is a unit vector in the plane of incidence, on the opposite side of the interface from the incoming ray, with n1*sin(theta1)=n2*sin(theta2), where n2 is the material index when entering (v.n<=0) and the global index when leaving.", "quantifier": "All incoming directions (any nonzero length), unit normals of either orientation, positive indices.", "why_tests_cant": "Continuum of inputs.", "anchors": ["tinygfx/g3d/operations.py:refract"]}
{"id": "C23", "title": "Total internal reflection occurs exactly beyond the critical angle", "statement": "refract returns the mirror reflection with the index unchanged iff n1*sin(theta1) >= n2*sin(90deg); otherwise it refracts and the returned index is n2.", "quantifier": "All directions, unit normals, positive indices.", "why_tests_cant": "The threshold is an exact real inequality.", "anchors": ["tinygfx/g3d/operations.py:refract"]}
{"id": "C24", "title": "Refraction is reversible", "statement": "Sending the refracted ray backwards through the same interface returns the original direction reversed and the original index.", "quantifier": "All non-TIR, non-grazing (v.n != 0) refractions entering from or leaving to the world index.", "why_tests_cant": "Continuum of inputs.", "anchors": ["tinygfx/g3d/operations.py:refract", "pyrayt/materials.py:Glass.trace"]}
{"id": "C25", "title": "Each ray is propagated to its nearest surface in front of it", "statement": "In every generation a ray's hit is the smallest strictly positive distance reported by any component, attributed to a surface reporting that distance (the earliest component on ties), and a ray with no positive finite distance is marked as not hitting.", "quantifier": "All ray sets, all component lists of any length and any numbers of hits per component.", "why_tests_cant": "Min/argmin over arbitrary lists with infinities and negative values.", "anchors": ["pyrayt/_pyrayt.py:RayTracer._st_propagate"]}
{"id": "C26", "title": "trace() terminates and respects the generation limit", "statement": "trace() returns after at most generation_limit propagate/interact rounds and every generation number in the result is in 0..generation_limit-1.", "quantifier": "All sources, components, materials, and generation limits >= 1 (and what happens at 0 or below).", "why_tests_cant": "Termination over all scenes, e.g. facing mirrors.", "anchors": ["pyrayt/_pyrayt.py:RayTracer.trace", "pyrayt/_pyrayt.py:RayTracer._st_interact", "pyrayt/_pyrayt.py:RayTracer.set_generation_limit"]}
{"id": "C27", "title": "Results contain one contiguous chain of segments per ray", "statement": "In the result table each ray id occurs at most once per generation; if it occurs in generation g+1 it occurs in generation g; rows are ordered by generation and, within one generation, by id.", "quantifier": "All traces.", "why_tests_cant": "Property of every reachable dataframe.", "anchors": ["pyrayt/_pyrayt.py:RayTracer._st_interact", "pyrayt/_pyrayt.py:_RayTraceDataframe.insert"]}
{"id": "C28", "title": "Consecutive segments of a ray are connected", "statement": "Each row's end point is its start point plus the hit distance along its direction, and the next generation's row of the same ray starts at that end point displaced by ray_offset_value along the new direction.", "quantifier": "All traces with the built-in materials.", "why_tests_cant": "Property of every row pair of every trace.", "anchors": ["pyrayt/_pyrayt.py:RayTracer._st_interact", "pyrayt/_pyrayt.py:_RayTraceDataframe.insert"]}
{"id": "C29", "title": "Rays do not influence each other", "statement": "The rows of a ray in a trace of many rays are exactly the rows obtained by tracing that ray alone.", "quantifier": "All ray sets, all scenes whose materials treat rays column-wise.", "why_tests_cant": "Vectorised masks mix all rays; independence must hold for every combination.", "anchors": ["pyrayt/_pyrayt.py:RayTracer._st_propagate", "pyrayt/_pyrayt.py:RayTracer._st_interact"]}
{"id": "C30", "title": "Absorbed and escaped rays end", "statement": "A ray that hits an absorber has a row ending on it and no later row; a ray that hits nothing gets no row in that generation or later.", "quantifier": "All traces.", "why_tests_cant": "Every reachable history of the simulation.", "anchors": ["pyrayt/_pyrayt.py:RayTracer._st_interact", "pyrayt/materials.py:_AbsorbingMaterial.trace"]}
{"id": "C31", "title": "Rays below the intensity threshold are removed", "statement": "After each intersection, any ray whose intensity is below ray_intensity_threshold is removed from the simulation (class documentation).", "quantifier": "All intensities, thresholds and scenes.", "why_tests_cant": "Requires materials/sources that produce weak rays; must hold for all of them.", "anchors": ["pyrayt/_pyrayt.py:RayTracer.ray_intensity_threshold", "pyrayt/_pyrayt.py:RayTracer._st_interact"]}
{"id": "C32", "title": "load_components replaces the simulated system", "statement": "After load_components(cs), trace() gives the result a new RayTracer over cs would give.", "quantifier": "All pairs of old and new component lists.", "why_tests_cant": "Quantifies over all system replacements.", "anchors": ["pyrayt/_pyrayt.py:RayTracer.load_components", "pyrayt/_pyrayt.py:RayTracer.__init__"]}
{"id": "C33", "title": "trace() is repeatable", "statement": "Running trace() again on the same tracer with unchanged components and deterministic sources gives the same result as the first run, and get_results() returns the last result.", "quantifier": "All tracers and any number of repetitions, interleaved with reset().", "why_tests_cant": "History independence.", "anchors": ["pyrayt/_pyrayt.py:RayTracer.trace", "pyrayt/_pyrayt.py:RayTracer.reset", "pyrayt/_pyrayt.py:RayTracer._st_initialize"]}
{"id": "C34", "title": "Source ids identify the generating source", "statement": "After a trace, calculate_source_ids assigns to each row the index of the source that generated the row's ray, and ray ids are unique 0..N-1 in source order.", "quantifier": "All numbers of sources and rays per source.", "why_tests_cant": "Arithmetic over all n.", "anchors": ["pyrayt/_pyrayt.py:RayTracer.calculate_source_ids", "pyrayt/_pyrayt.py:RayTracer._st_initialize"]}
{"id": "C35", "title": "Tilts in the results are unit vectors along the segment", "statement": "(x_tilt,y_tilt,z_tilt) of every row has length one and the row's end minus start is a non-negative multiple of it.", "quantifier": "All traces.", "why_tests_cant": "Every row of every trace.", "anchors": ["pyrayt/_pyrayt.py:_RayTraceDataframe.insert"]}
{"id": "C36", "title": "Sources emit the documented bundles", "statement": "generate_rays(n) yields n rays with unit directions, w=1 origins, the source's wavelength: LineOfRays evenly spaced parallel rays symmetric about the axis, ConeOfRays rays making exactly the cone angle, WedgeOfRays in-plane angles spanning [-angle/2, angle/2], CircleOfRays on the circle; moved and rotated rigidly with the source.", "quantifier": "All n, parameters and placements.", "why_tests_cant": "All n and angles.", "anchors": ["pyrayt/components.py:Source.generate_rays", "pyrayt/components.py:LineOfRays", "pyrayt/components.py:ConeOfRays", "pyrayt/components.py:WedgeOfRays", "pyrayt/components.py:CircleOfRays"]}
{"id": "C37", "title": "CircleOfRays distributes rays uniformly on the circle", "statement": "The n rays of CircleOfRays start at n distinct, equally spaced points of the circle.", "quantifier": "All n >= 1.", "why_tests_cant": "All n.", "anchors": ["pyrayt/components.py:CircleOfRays._local_ray_generation"]}
{"id": "C38", "title": "Lamp rays stay within the lamp's aperture and maximum angle", "statement": "Every ray of a Lamp starts in the width x length rectangle, is a unit vector within max_angle of the axis and has intensity 100*cos(theta).", "quantifier": "All random samples in [0,1), all sizes and max angles in [0,180].", "why_tests_cant": "Random draws form a continuum.", "anchors": ["pyrayt/components.py:Lamp._local_ray_generation", "pyrayt/components.py:_sphere_sample"]}
{"id": "C39", "title": "StaticLamp always regenerates the same rays", "statement": "Successive calls of StaticLamp.generate_rays(n) return the same rays, which are the rays of the lamp at its current placement.", "quantifier": "All histories of calls and movements over any number of lamps.", "why_tests_cant": "Cache eviction and staleness depend on unbounded histories.", "anchors": ["pyrayt/components.py:StaticLamp.generate_rays"]}
{"id": "C40", "title": "wavelength_to_rgb always yields a valid colour", "statement": "Every channel is in [0,1], no entry is left uninitialised, wavelengths outside [0.38,0.75] get the colour of the nearest limit, and the colour is continuous in the wavelength.", "quantifier": "All real wavelengths, gamma > 0.", "why_tests_cant": "Six half-open zones must tile the real line.", "anchors": ["pyrayt/utils.py:wavelength_to_rgb"]}
{"id": "C41", "title": "The lensmaker's equation is symmetric and has the thin-lens limit", "statement": "lensmakers_equation(r1,r2,n,t) is unchanged when the lens is turned around (r1,r2 -> -r2,-r1), flips its sign when both radii and the thickness change sign, agrees with the composition of the two paraxial surface refractions, and for t=0 satisfies 1/f=(n-1)(1/r1-1/r2).", "quantifier": "All nonzero radii, indices and thicknesses.", "why_tests_cant": "Algebraic identity over the reals.", "anchors": ["pyrayt/utils.py:lensmakers_equation"]}
{"id": "C42", "title": "Sellmeier glasses have the Sellmeier index", "statement": "index_at(w)^2 - 1 is the Sellmeier sum wherever this is at least -1; for nonnegative b's and c's and w^2 above all c's the index is at least 1 and, if some term has positive b and c, strictly decreases with wavelength, so that the Abbe number is positive; this also holds for the built-in glasses over 0.38 - 0.78. The default material of lenses and glass['ideal'] have index 1.5 at every wavelength: a ray from air has index 1.5 inside, and inside it is totally reflected exactly if the sine of the angle of incidence is at least 2/3.", "quantifier": "All coefficients and wavelengths.", "why_tests_cant": "Continuum.", "anchors": ["pyrayt/materials.py:SellmeierRefractor.index_at", "pyrayt/materials.py:Glass.abbe", "pyrayt/materials.py:BasicRefractor.index_at", "pyrayt/components.py:biconvex_lens"]}
{"id": "C43", "title": "smallest_positive_root returns the smallest positive root", "statement": "smallest_positive_root(a,b,c) returns the least root >= 0 of a*x^2+b*x+c, +inf when there is none.", "quantifier": "All real a with |a|>1e-8, all b, c.", "why_tests_cant": "Sign cases over the reals.", "anchors": ["tinygfx/g3d/operations.py:smallest_positive_root"]}
{"id": "C44", "title": "binomial_root returns all real roots", "statement": "binomial_root(a,b,c) returns exactly the real roots of a*x^2+b*x+c (both entries equal for a linear equation), +inf where there is none.", "quantifier": "All real a, b, c.", "why_tests_cant": "Branches on tolerances and signs.", "anchors": ["tinygfx/g3d/operations.py:binomial_root"]}
{"id": "C45", "title": "thick_lens has the requested surfaces and centre thickness", "statement": "thick_lens(r1,r2,t) is the set of points inside the aperture between the two spherical (or planar) surfaces whose vertices are at x=-t/2 and x=+t/2, with curvature signs following the usual convention.", "quantifier": "All radii of either sign or infinite compatible with the aperture, all thicknesses and apertures.", "why_tests_cant": "Four sign combinations, planar cases and a continuum of sizes.", "anchors": ["pyrayt/components.py:thick_lens", "pyrayt/components.py:_lens_full_thickness", "pyrayt/components.py:_lens"]}
{"id": "C46", "title": "biconvex_lens and plano_convex_lens have the requested surfaces and thickness", "statement": "biconvex_lens(r1,r2,t) is bounded by a sphere of radius r1 with vertex x=-t/2 and a sphere of radius r2 with vertex x=+t/2; plano_convex_lens(r,t) by the plane x=-t/2 and a sphere of radius r with vertex x=+t/2.", "quantifier": "All radii and thicknesses.", "why_tests_cant": "Tests only use r1=r2.", "anchors": ["pyrayt/components.py:biconvex_lens", "pyrayt/components.py:plano_convex_lens"]}
{"id": "C47", "title": "spherical_mirror has the documented surface", "statement": "The mirror solid of spherical_mirror(r,t) is the part of the aperture between x=-t and the surface x=r-sqrt(r^2-y^2-z^2) (and the mirrored one for r<0).", "quantifier": "All radii, thicknesses, apertures, off-axis offsets that fit.", "why_tests_cant": "Continuum of parameters.", "anchors": ["pyrayt/components.py:spherical_mirror"]}
{"id": "C48", "title": "parabolic_mirror focuses collimated light at the origin", "statement": "A ray travelling parallel to the x axis that hits the reflective surface of parabolic_mirror(focus,...) is reflected along the line through the origin.", "quantifier": "All focal lengths, all hit points.", "why_tests_cant": "Continuum of rays.", "anchors": ["pyrayt/components.py:parabolic_mirror", "tinygfx/g3d/primitives.py:Paraboloid.normal", "pyrayt/materials.py:_ReflectingMaterial.trace"]}
{"id": "C49", "title": "equilateral_prism is an equilateral triangular prism", "statement": "The solid of equilateral_prism(side,width) is the product of an equilateral triangle of the given side in the XZ plane with an interval of length width in Y.", "quantifier": "All sides and widths.", "why_tests_cant": "Geometry for all sizes.", "anchors": ["pyrayt/components.py:equilateral_prism"]}
{"id": "C50", "title": "Apertures have the shape their specification says", "statement": "A scalar aperture gives a cylinder of that diameter, a pair of positive numbers a box with those sides, a pair of negative numbers an elliptical cylinder with those diameters; other pairs raise TypeError.", "quantifier": "All aperture arguments.", "why_tests_cant": "Continuum of arguments and all sign combinations.", "anchors": ["pyrayt/components.py:_create_aperture"]}
{"id": "C51", "title": "baffle blocks exactly the documented rectangle", "statement": "baffle((y,z)) is a rectangle in the YZ plane with extent y along Y and z along Z; aperture(size,hole) blocks exactly the points of the size rectangle outside the hole.", "quantifier": "All sizes.", "why_tests_cant": "Continuum; square baffles in tests hide axis swaps.", "anchors": ["pyrayt/components.py:baffle", "pyrayt/components.py:aperture"]}
{"id": "C52", "title": "plane_mirror is visible for every thickness", "statement": "plane_mirror(t) reflects rays travelling along the x axis through its aperture for every thickness t >= 0, including the documented t=0 planar mirror.", "quantifier": "All thicknesses and apertures.", "why_tests_cant": "The boundary case t=0 meets a strict comparison only for rectangular apertures.", "anchors": ["pyrayt/components.py:plane_mirror", "tinygfx/g3d/primitives.py:Cube.intersect"]}
{"id": "C53", "title": "Orthographic camera rays form the pixel grid", "statement": "generate_rays() yields h*v parallel unit rays; ray i*h+j starts at the centre-symmetric grid position of row i, column j spanning get_span().", "quantifier": "All resolutions, spans and placements.", "why_tests_cant": "All sizes.", "anchors": ["tinygfx/g3d/world_objects.py:OrthographicCamera.generate_rays", "tinygfx/g3d/world_objects.py:OrthographicCamera._local_ray_generation"]}
{"id": "C54", "title": "The renderers show the nearest surface in front of the camera", "statement": "For each pixel the renderer records the surface with the smallest positive hit distance, or background if there is none.", "quantifier": "All scenes and cameras.", "why_tests_cant": "Objects behind the camera plane are an untested family.", "anchors": ["tinygfx/g3d/renderers.py:EdgeRender._st_propagate", "tinygfx/g3d/renderers.py:ShadedRenderer._st_propagate"]}
{"id": "C55", "title": "Gooch shading is a convex blend of the warm and cool shades", "statement": "Each pixel of GoochMaterial.shade is a convex combination of the warm and cool shades, hence each channel is in [0,1] for colours in [0,1]; it is the warm shade when the normal points at the light and the cool shade when it points away. With every predefined material the pixels are opaque, and a surface turned more towards the light is more red and less blue.", "quantifier": "All positions, unit normals, light positions, colours and alpha, beta in [0,1].", "why_tests_cant": "Continuum of inputs.", "anchors": ["tinygfx/g3d/materials/gooch.py:GoochMaterial.shade"]}
{"id": "C56", "title": "Object ids are unique", "statement": "No two objects created in a session have the same get_id(), ids are never -1 (the 'no hit' marker), and movements never change ids.", "quantifier": "All construction histories.", "why_tests_cant": "Unbounded histories.", "anchors": ["tinygfx/g3d/world_objects.py:CountedObject"]}
{"id": "C57", "title": "A surface with several hit rays or several components is processed exactly once per ray", "statement": "In each generation a ray that hits a surface is advanced and handed to that surface's material exactly once.", "quantifier": "All component lists, including lists in which the same surface occurs twice.", "why_tests_cant": "Loop over the surface table with masks; duplicates are an untested family.", "anchors": ["pyrayt/_pyrayt.py:RayTracer._st_interact", "pyrayt/_pyrayt.py:RayTracer.__init__"]}
{"id": "C58", "title": "Built-in materials change only direction and index", "statement": "Absorber, mirror and glass leave position, wavelength, intensity, id and generation of a ray unchanged; mirror also leaves the index unchanged and keeps the direction's length; glass returns unit directions.", "quantifier": "All surfaces, all rays.", "why_tests_cant": "All rays.", "anchors": ["pyrayt/materials.py:_AbsorbingMaterial.trace", "pyrayt/materials.py:_ReflectingMaterial.trace", "pyrayt/materials.py:Glass.trace"]}
{"id": "C59", "title": "RaySet fields are independent views of one table", "statement": "Writing a field (rays, generation, intensity, wavelength, index, id) of a RaySet changes exactly that field, reading it back gives the written values, and a new RaySet(n) has the documented defaults with ids 0..n-1.", "quantifier": "All n and all values, any sequence of writes.", "why_tests_cant": "All write sequences.", "anchors": ["pyrayt/_pyrayt.py:RaySet"]}
{"id": "C60", "title": "The order of components does not matter", "statement": "Permuting the component list leaves the recorded hit distances unchanged, and the whole result unchanged when no two components tie.", "quantifier": "All permutations of all component lists.", "why_tests_cant": "Factorially many orders.", "anchors": ["pyrayt/_pyrayt.py:RayTracer._st_propagate"]}
{"id": "C61", "title": "Hit parameters are placement-independent Euclidean distances for unit rays", "statement": "For a unit-direction world ray the value reported by TracerSurface.intersect is the distance from the ray's origin to a point of the transformed surface, whatever the placement (rotation, translation, non-uniform scale); the two returned values are sorted.", "quantifier": "All invertible placements, all primitives, all rays.", "why_tests_cant": "Continuum of placements.", "anchors": ["tinygfx/g3d/world_objects.py:TracerSurface.intersect"]}
{"id": "C62", "title": "Lamps sample directions uniformly by solid angle", "statement": "For uniform random draws the direction of a Lamp ray is uniform by solid angle in the cap of directions within max_angle: the polar angle is at most t exactly for the draws up to the ratio of the cap areas, and the azimuth is proportional to its draw.", "quantifier": "All max angles in (0,180], all polar angles and draws.", "why_tests_cant": "A statistical test cannot distinguish nearby distributions; the sampling map is on a continuum.", "anchors": ["pyrayt/components.py:_sphere_sample", "pyrayt/components.py:Lamp"]}
{"id": "C63", "title": "Consecutive rows of a trace obey the optics of the surface between them", "statement": "In the result of trace(), two consecutive rows of a ray meet at a surface of a component whose own material relates them: mirror image and equal index for the mirror; Snell's law with the ray's index, the glass index at the ray's wavelength (entering) or 1 (leaving), or total reflection, for glass, with the index column updated accordingly; after an absorber there is no further row.", "quantifier": "All scenes built by any history, materials, sources, generation limits and rays.", "why_tests_cant": "Ranges over all scenes and rays.", "anchors": ["pyrayt/_pyrayt.py:RayTracer.trace", "pyrayt/materials.py:_ReflectingMaterial.trace", "pyrayt/materials.py:Glass.trace", "tinygfx/g3d/operations.py:refract"]}
{"id": "C64", "title": "Composites are hit exactly on their boundary", "statement": "Every finite hit distance reported by a boolean composite is a point on the boundary of the combined solid, and between a point of the ray inside the solid and a point outside it a hit is always reported.", "quantifier": "All composites of any depth built through the API and all rays.", "why_tests_cant": "Needs all nestings, placements and rays.", "anchors": ["tinygfx/g3d/csg.py:CSGSurface.intersect", "tinygfx/g3d/csg.py:array_csg"]}
{"id": "C65", "title": "plane_mirror stands where it is documented to", "statement": "The two surfaces of plane_mirror(t) are parallel to the YZ plane, the first at x=-t and the second at x=0.", "quantifier": "All thicknesses, apertures and offsets.", "why_tests_cant": "Continuum of thicknesses; tests with t=0 cannot see a shift.", "anchors": ["pyrayt/components.py:plane_mirror"]}
{"id": "C66", "title": "Shading with several lights averages the lights", "statement": "GoochMaterial.shade with a 4 x m array of light positions gives, for every pixel, the mean of the pixels it gives for each of the m lights alone.", "quantifier": "All numbers of lights, positions, normals and materials.", "why_tests_cant": "The only tests use one light given as a vector; arrays of lights with a number of columns equal to an axis length broadcast silently.", "anchors": ["tinygfx/g3d/materials/gooch.py:GoochMaterial.shade"]}
{"id": "C67", "title": "The edge renderer outlines where the shown surface changes", "statement": "The image of EdgeRender.render() has the camera's resolution; a pixel is opaque black iff within the line width (1 pixel, or the larger image side / 300 if larger) there is a pixel whose surface differs from its left or upper neighbour (background beyond the image), otherwise transparent.", "quantifier": "All cameras, scenes and image sizes.", "why_tests_cant": "All image sizes, thicknesses and surface patterns.", "anchors": ["tinygfx/g3d/renderers.py:EdgeRender._st_interact"]}
{"id": "C68", "title": "The shaded renderer paints each pixel with the shade of its surface", "statement": "The image of ShadedRenderer.render() has the camera's resolution; a pixel is fully transparent black if no surface is recorded for its ray, otherwise it is the shade of the recorded surface at the recorded hit point, and opaque for opaque colours.", "quantifier": "All scenes built by any history, materials, lights and cameras.", "why_tests_cant": "Ranges over all scenes and cameras.", "anchors": ["tinygfx/g3d/renderers.py:ShadedRenderer._st_interact", "tinygfx/g3d/world_objects.py:TracerSurface.shade"]}
{"id": "C69", "title": "draw shows the objects as seen from outside", "statement": "In the xy view draw() shows for each pixel the surface with the largest z on the pixel's line (seen from above), in the xz view the one with the smallest y (seen from the front), or background if the line meets no object.", "quantifier": "All scenes, placements and resolutions.", "why_tests_cant": "Objects below z=0 are an untested family; correctness depends on where the camera ends up relative to the objects.", "anchors": ["tinygfx/g3d/renderers.py:draw", "tinygfx/g3d/renderers.py:_draw_xy", "tinygfx/g3d/renderers.py:_draw_xz"]}
{"id": "C70", "title": "The pixel grid of draw spans the extent given to imshow", "statement": "For both views the rays of the first and last column and row of pixels lie on the left, right, top and bottom of the extent handed to imshow, the others equidistantly between them, column by column from left to right and row by row from top to bottom; the extent is the bounding range of the objects enlarged by a quarter on every side; the resolution is the number of columns if the image is wider than high, otherwise the columns are reduced in proportion, and the rows follow from the aspect ratio, each rounded down.", "quantifier": "All bounds and resolutions.", "why_tests_cant": "Mirrored or swapped axes are invisible on symmetric test scenes.", "anchors": ["tinygfx/g3d/renderers.py:draw", "tinygfx/g3d/renderers.py:_draw_xy", "tinygfx/g3d/renderers.py:_draw_xz"]}
{"id": "C71", "title": "render() ends and depends only on camera and shapes", "statement": "render() runs every state once, ends in the idle state with a result, leaves camera and shapes as they are, and the result depends only on camera and shapes, not on earlier renderings; it succeeds whenever the image has rows.", "quantifier": "All renderers in any state.", "why_tests_cant": "All histories of renderings.", "anchors": ["tinygfx/g3d/renderers.py:EdgeRender.render", "tinygfx/g3d/renderers.py:ShadedRenderer.render"]}
{"id": "C72", "title": "Every hit lies in the bounding box", "statement": "Every finite hit distance reported by an object is a point of the ray inside the object's bounding box, which is finite.", "quantifier": "All primitives and composites built through the API, all placements and rays.", "why_tests_cant": "Needs all nestings, placements and rays.", "anchors": ["tinygfx/g3d/world_objects.py:TracerSurface.intersect", "tinygfx/g3d/csg.py:CSGSurface.intersect", "tinygfx/g3d/csg.py:CSGSurface._update_bounding_box"]}
{"id": "C73", "title": "draw lights the objects from the viewer's side", "statement": "The light used by draw() for shading lies on the viewer's side of all objects: above them in the xy view, in front of them in the xz view.", "quantifier": "All scenes and placements.", "why_tests_cant": "Scenes in tests are centred on the origin.", "anchors": ["tinygfx/g3d/renderers.py:_draw_xy", "tinygfx/g3d/renderers.py:_draw_xz"]}
{"id": "C74", "title": "World normals at reported hits are unit vectors", "statement": "At every finite hit reported by intersect() for a surface or composite, get_world_normals() of the surface named for the hit is a unit vector with w = 0; so in every trace consecutive segments obey the law of reflection or Snell's law without further assumptions about normals.", "quantifier": "All primitives with nonzero radius or focal length, all composites, histories of movements with affine transforms, rays.", "why_tests_cant": "Needs all primitives, nestings, scalings and hits, including edges of cubes, rims of cylinders and vertices of paraboloids.", "anchors": ["tinygfx/g3d/world_objects.py:TracerSurface.get_world_normals", "tinygfx/g3d/primitives.py:SurfacePrimitive.normal", "pyrayt/_pyrayt.py:RayTracer.trace"]}
{"id": "C75", "title": "Moving the whole optical bench moves the results", "statement": "If all components and sources are moved by the same translation or rotation (or any isometry of space), RayTracer.trace() yields the same table with start and end points and tilts moved along: the same rays hit the same surfaces in the same order, with the same generation, intensity, wavelength, index and id, after the same number of rounds.", "quantifier": "All scenes, components, sources, isometries, ray counts, generation limits; any sequence of movement calls with this net effect.", "why_tests_cant": "Concerns all scenes and all placements of each; bounding boxes, which decide which rays are culled, are not moved along but recomputed.", "anchors": ["pyrayt/_pyrayt.py:RayTracer.trace", "tinygfx/g3d/world_objects.py:WorldObject.move", "tinygfx/g3d/csg.py:CSGSurface.intersect"]}
{"id": "C76", "title": "The last normals call wins", "statement": "After any history and then any sequence of invert_normals() and reset_normals() calls on surfaces and composites, the normals of a surface are the geometric outward ones if the last call on an object containing it was a reset, their opposites if it was an inversion, and unchanged without such a call. Positions, shapes and all other attributes are unaffected.", "quantifier": "All histories, trees, call sequences, surfaces and points.", "why_tests_cant": "Unbounded nesting and call sequences; tests flip one shape once.", "anchors": ["tinygfx/g3d/csg.py:CSGSurface.invert_normals", "tinygfx/g3d/csg.py:CSGSurface.reset_normals", "tinygfx/g3d/world_objects.py:TracerSurface.invert_normals", "tinygfx/g3d/world_objects.py:TracerSurface.reset_normals"]}
{"id": "C77", "title": "Inverting and resetting restores the normals of a composite", "statement": "invert_normals() followed by reset_normals() on a composite or surface gives all of its surfaces the normals they had after construction.", "quantifier": "All composites and surfaces of all histories.", "why_tests_cant": "Needs every construction tree; the difference operator inverts normals itself, which only shows at surfaces of subtracted operands.", "anchors": ["tinygfx/g3d/csg.py:difference", "tinygfx/g3d/csg.py:CSGSurface.reset_normals"]}
{"id": "C78", "title": "Points, vectors, rays and bundles behave as values", "statement": "Whatever a program does with points, vectors, rays and bundles (construct, assign, edit in place, normalize, collect), each expression evaluates to what it would be if every array were a value of its own; editing ray.origin or ray.direction changes that ray and nothing else, default arguments are never shared, and normalize() gives the first three components length one, the same direction, and leaves w alone.", "quantifier": "All programs over these operations.", "why_tests_cant": "Aliasing between arrays and views depends on the whole history of the program.", "anchors": ["tinygfx/g3d/primitives.py:Ray", "tinygfx/g3d/primitives.py:Point", "tinygfx/g3d/primitives.py:Vector", "tinygfx/g3d/primitives.py:HomogeneousCoordinate.normalize", "tinygfx/g3d/primitives.py:bundle_rays"]}
{"id": "C79", "title": "point_in_shape decides the closed disk and the closed rectangle", "statement": "point_in_shape answers one point with one boolean and an array with an array, entry by entry; the region of a disk is the closed disk of that radius around the origin (empty for negative radius), Disk.from_diameter(d) has radius d/2, and the region of a rectangle is the closed, centred rectangle with the given sides.", "quantifier": "All radii, diameters, sides and points.", "why_tests_cant": "Real parameters and boundary points.", "anchors": ["tinygfx/g3d/primitives.py:Disk", "tinygfx/g3d/primitives.py:Rectangle"]}
{"id": "C80", "title": "overlap returns the entries in the common range", "statement": "For a 1-d first array and two non-empty arrays overlap returns, in order, exactly the entries of each array lying in the range of the other; at least one result is non-empty if the ranges intersect. An empty array makes it raise, a first array with more axes makes it return None.", "quantifier": "All finite arrays of reals.", "why_tests_cant": "Arrays of any length in any order, ties at the ends of the ranges.", "anchors": ["tinygfx/g3d/primitives.py:overlap"]}
{"id": "C81", "title": "Cuboid.from_sides and from_length make centred boxes", "statement": "Cuboid.from_sides(x, y, z) is the box with these side lengths centred at its origin: rays hit it at the ends of the part of their line in the box and miss if that is at most a point. Negative lengths count with their absolute value. from_length(l) is from_sides(l, l, l).", "quantifier": "All lengths and all rays with direction components zero or above the tolerance.", "why_tests_cant": "All real sides and rays.", "anchors": ["tinygfx/g3d/primitives.py:Cube", "tinygfx/g3d/world_objects.py:Cuboid.from_sides", "tinygfx/g3d/world_objects.py:Cuboid.from_length"]}
{"id": "C82", "title": "abbe() returns the Abbe number", "statement": "abbe() of a glass returns (n_D - 1)/(n_F - n_C) for its current index model.", "quantifier": "All glasses, coefficients and sequences of calls and attribute assignments.", "why_tests_cant": "The result depends on a cache shared by all glasses and on the history of attribute assignments.", "anchors": ["pyrayt/materials.py:Glass.abbe", "pyrayt/materials.py:SellmeierRefractor", "pyrayt/materials.py:BasicRefractor"]}
{"id": "C83", "title": "show draws each traced segment in its colour", "statement": "After a trace, show draws one arrow per result row from its projected start to its projected end; coloured by wavelength it has the colour of that row's wavelength, coloured by source that of the emitting source. Before any trace and after reset() nothing is drawn.", "quantifier": "All traces, views, colourings; sources that emit the requested number of rays.", "why_tests_cant": "Source colours depend on ray numbers of the whole result table.", "anchors": ["pyrayt/_pyrayt.py:RayTracer.show", "pyrayt/utils.py:wavelength_to_rgb"]}
{"id": "C84", "title": "wavelength_to_rgb accepts numbers and arrays", "statement": "wavelength_to_rgb returns one colour for each entry of an array, in order, and one colour for a single number.", "quantifier": "All arrays and numbers.", "why_tests_cant": "Input kinds documented but not exercised by the tests.", "anchors": ["pyrayt/utils.py:wavelength_to_rgb"]}
{"id": "C85", "title": "Getters give the true placement and editing their results does not change the object", "statement": "Whatever a program does with the arrays returned by the getters of an object, get_world_transform() is the product of all movements, get_object_transform() its inverse, get_position() the moved origin and get_orientation() the moved unit z axis.", "quantifier": "All programs: movements, getter calls and in-place edits of returned arrays, in any order.", "why_tests_cant": "Aliasing depends on the history of the program; tests never edit a returned array.", "anchors": ["tinygfx/g3d/world_objects.py:WorldObject.get_position", "tinygfx/g3d/world_objects.py:WorldObject.get_orientation", "tinygfx/g3d/world_objects.py:WorldObject.get_world_transform", "tinygfx/g3d/world_objects.py:WorldObject.get_object_transform"]}
{"id": "C86", "title": "Perpendicular rays, parallel windows and balls", "statement": "In any trace: a row ending at right angles on a surface is followed by a row with the opposite tilt (mirror) or the same tilt and the index of the far side (glass); a ray from air that enters glass of index at least 1 and next meets a glass surface of the same index with the opposite normal - in particular the opposite face of a cuboid in any placement - goes on in air with exactly the tilt it came with; a ray whose line passes through the centre of an unscaled sphere is sent back by a mirror and passes glass undeviated.", "quantifier": "All scenes of affine movements with built-in materials, all sources of unit directions, all traces and rows.", "why_tests_cant": "Every angle, glass and placement; the angles before and behind a plate must agree exactly.", "anchors": ["pyrayt/_pyrayt.py:RayTracer.trace", "pyrayt/materials.py:Glass.trace", "tinygfx/g3d/operations.py:refract", "tinygfx/g3d/world_objects.py:TracerSurface.get_world_normals"]}
{"id": "C87", "title": "A traced parabolic mirror focuses axial light and collimates light from its focus", "statement": "After parabolic_mirror(f, t, ...) (4f > 1e-8, opening not negligible against f), in any trace with it among the components: a row that ends on the paraboloid parallel to the axis is followed by a row on the line from its end through the origin, at the distance x + 2f ahead if it came from the front, so that all such paths are equally long; a row that comes from the origin (and is not within the tolerances) is followed by a row with tilt (1, 0, 0).", "quantifier": "All focal lengths, thicknesses, openings and offsets, all scenes built before, all other components, sources, traces and rows.", "why_tests_cant": "Real parameters; holds for every ray position and in the presence of any other components.", "anchors": ["pyrayt/components.py:parabolic_mirror", "pyrayt/_pyrayt.py:RayTracer.trace", "tinygfx/g3d/primitives.py:Paraboloid"]}
{"id": "C88", "title": "A traced thick lens has the focal length of lensmakers_equation", "statement": "Let thick_lens(r1, r2, t, ...) build a lens with a focal length f = lensmakers_equation(r1, r2, n, t), thicker than 1e-6, thinner than the diameter of each convex side, with n r1 != (n - 1) t (the focus is not in the back vertex). For every eps > 0 there is a delta > 0 such that in any trace with the lens among the components, a ray in air parallel to the axis, nearer to the axis than delta but not on it, that meets the lens from the front and then its other side, has index n inside and 1 behind, leaves with a tilt whose effective focal length (height in / slope out) is within eps of f, and crosses the axis within eps of t/2 + f (1 - (n - 1) t / (n r1)).", "quantifier": "All radii, thicknesses (above the ray offset), apertures that fit, glasses, wavelengths, eps, scenes built before, other components, sources and traces.", "why_tests_cant": "A limit statement over real parameters; it links a formula, a component builder and the tracer.", "anchors": ["pyrayt/utils.py:lensmakers_equation", "pyrayt/components.py:thick_lens", "pyrayt/_pyrayt.py:RayTracer.trace", "pyrayt/materials.py:Glass.trace"]}
{"id": "C89", "title": "Rays end only on absorbers, at the generation limit, or in empty space", "statement": "In any trace: if no row follows a row of the result, then the surface it ends on absorbs, or the generation limit is reached, or the ray that leaves by the law of the surface's material (a unit direction, started 1e-6 ahead) meets no component. Every emitted ray has a row of generation 0 with its start, direction, wavelength and index, unless nothing is in front of it.", "quantifier": "All scenes of affine movements with built-in materials, all sources of unit directions, limits, traces and rows.", "why_tests_cant": "A statement on every ray of every trace: no light is lost between generations.", "anchors": ["pyrayt/_pyrayt.py:RayTracer.trace", "pyrayt/_pyrayt.py:RayTracer._st_interact", "pyrayt/_pyrayt.py:RayTracer._st_propagate"]}
{"id": "C90", "title": "Skewness about the axis of a round system is conserved", "statement": "In any trace, index times tilt changes between consecutive rows of a ray only along the normal of the surface the first row ends on. If all surfaces that do not absorb are round about one axis (at every point the normal lies in the plane of the point and the axis), then index * axis . ((start - point of the axis) x tilt) is the same in all rows of a ray, and a ray that starts in a plane through the axis stays in it. Spheres are round about every axis through their centre; planes, cylinders and paraboloids placed by movements and rotations about their own axis; thick_lens, plano_convex_lens, biconvex_lens and plane_mirror with round aperture, and spherical_mirror and parabolic_mirror with any aperture and offset, about the x-axis.", "quantifier": "All benches (affine placements, built-in materials, unit directions), axes, limits, traces and pairs of rows of a ray.", "why_tests_cant": "A conserved quantity over arbitrarily long sequences of refractions, reflections and total reflections.", "anchors": ["pyrayt/_pyrayt.py:RayTracer.trace", "pyrayt/materials.py:Glass.trace", "pyrayt/materials.py:_ReflectingMaterial.trace", "tinygfx/g3d/world_objects.py:TracerSurface.get_world_normals", "pyrayt/components.py:thick_lens", "pyrayt/components.py:parabolic_mirror"]}
{"id": "C91", "title": "Rays on a spherical mirror cross the axis where they should", "statement": "Let spherical_mirror(R, t, ...) with the mirror material be among the components of a trace. A row parallel to the axis at the distance h < |R| that ends on the sphere ends at its sag, and the line of the next row of the ray crosses the axis at x = R - |R| R / (2 sqrt(R^2 - h^2)), ahead of the mirror when the light comes from the hollow side and behind it otherwise; this is off R/2 by at most |R| h^2 / (4 (R^2 - h^2)). A row whose line goes through the centre of the sphere (in a direction that the tolerances of the intersections do not misjudge) is turned back on itself.", "quantifier": "All radii other than 0, thicknesses, apertures and offsets that fit the sphere, scenes built before, other components, sources and traces.", "why_tests_cant": "Exact spherical aberration for real parameters, linking builder, intersection, normals, reflection and tracer.", "anchors": ["pyrayt/components.py:spherical_mirror", "pyrayt/_pyrayt.py:RayTracer.trace", "pyrayt/materials.py:_ReflectingMaterial.trace", "tinygfx/g3d/operations.py:reflect"]}
{"id": "C92", "title": "The prism has a least deviation", "statement": "Let a ray of a trace come from outside to one slanted face of equilateral_prism(side, width, glass), run inside the glass of index n > 1 to the other slanted face, and leave. Then n <= 2, the angle between its first and its last direction is at least 2 arcsin(n/2) - 60 degrees, and equals it exactly when the ray inside is parallel to the x axis; this holds for rays out of the plane of the cross section too. The two slanted faces are surfaces of their own: hits labelled with their ids lie on them, and the normals there point out of the prism; hits with the third id are on the base or the ends.", "quantifier": "All sides and widths from 1e-6, indices, wavelengths, scenes built before, other components, sources and traces; rows outside the tolerance bands of the faces and of the edges at the base.", "why_tests_cant": "An extremum over a continuum of rays and indices, through builder, boolean operations, flipped normals, refraction and tracer.", "anchors": ["pyrayt/components.py:equilateral_prism", "pyrayt/_pyrayt.py:RayTracer.trace", "pyrayt/materials.py:Glass.trace", "tinygfx/g3d/csg.py:difference", "tinygfx/g3d/operations.py:refract"]}
{"id": "C93", "title": "A smaller generation limit cuts the result off", "statement": "Two calls of trace() that differ only in the generation limit: the result with the smaller positive limit L is the beginning of the result with the larger limit (or with none, a limit <= 0), row by row and value by value; it consists of exactly the rows of generation below L.", "quantifier": "All components, sources, materials, limits.", "why_tests_cant": "The limits, systems and numbers of rays are unbounded; a test compares one pair of limits.", "anchors": ["pyrayt/_pyrayt.py:RayTracer.set_generation_limit", "pyrayt/_pyrayt.py:RayTracer._st_interact", "pyrayt/_pyrayt.py:RayTracer.trace"]}
{"id": "C94", "title": "Components that no ray reaches have no effect", "statement": "If every row of a result ends on a surface of one of the components of a sublist of the tracer's components, then a tracer with only these components, in the same order, gives the same result, row by row and value by value. Components that no ray of the trace reaches have no influence, whatever their shape and material.", "quantifier": "All systems, sublists, sources, limits.", "why_tests_cant": "All systems and all ways of leaving components out; a test leaves out one component of one system.", "anchors": ["pyrayt/_pyrayt.py:RayTracer._st_propagate", "pyrayt/_pyrayt.py:RayTracer._st_interact", "pyrayt/_pyrayt.py:RayTracer.load_components"]}
{"id": "C95", "title": "Surfaces without optical material raise exactly when they are reached", "statement": "A surface made without an optical material keeps its rendering material, which cannot be traced. trace() over components with such surfaces raises AttributeError if and only if some row of the result that the same system gives with optical materials in their place ends on one of them. If it raises, the rows recorded are those of all generations before the first such row. If it does not raise, the result is the same as with any optical materials in place of the missing ones.", "quantifier": "All systems, sources, limits and sets of surfaces without optical material.", "why_tests_cant": "Whether a surface is reached depends on the whole trace; the systems and numbers of reflections are unbounded.", "anchors": ["tinygfx/g3d/world_objects.py:TracerSurface.__init__", "pyrayt/_pyrayt.py:RayTracer._st_interact", "pyrayt/_pyrayt.py:RayTracer.trace", "tinygfx/g3d/primitives.py:Paraboloid.intersect"]}
{"id": "C96", "title": "A movement reaches every object once for each way it is contained", "statement": "After any sequence of constructor calls, movements and list operations on groups (append, insert, extend, item assignment, pop, remove, clear, reverse, *=), a movement of an object multiplies the world transform of every object x by the movement's matrix to the power of the number of routes from the moved object to x through members of groups and parts of composites: not at all if x is not contained, once if contained once, twice if it is listed twice or lies in the group and also in a group within it. The list operations themselves move nothing and leave every object's world and object transforms inverse to each other.", "quantifier": "All sequences of operations, nestings and movements that return.", "why_tests_cant": "The histories and nestings are unbounded; a test moves one arrangement.", "anchors": ["tinygfx/g3d/world_objects.py:ObjectGroup", "tinygfx/g3d/world_objects.py:ObjectGroup._append_world_transform", "tinygfx/g3d/world_objects.py:WorldObject.transform"]}
{"id": "C97", "title": "remove takes the given object out of a group", "statement": "For a group g and a member m, g.remove(m) takes the first occurrence of m itself out of g, leaving the other members in their order, and raises ValueError if m is not a member; appending or inserting a member and popping it again, from the front or from the end, restores the group, and so does reversing twice; pop and item assignment out of range raise IndexError.", "quantifier": "All groups, members and nestings.", "why_tests_cant": "The groups and nestings are unbounded; a test removes one object from one list.", "anchors": ["tinygfx/g3d/world_objects.py:ObjectGroup"]}
{"id": "C98", "title": "Light goes back the way it came", "statement": "In a system of surfaces, mirrors, lenses, prisms and their combinations, take the rows of a ray and send a second ray of the same wavelength back along its last row, in the index of that row. The second ray meets the same surfaces at the same points in the opposite order: for each earlier row of the first ray there is a row of the second, ending in the point where the earlier one ended, at the same surface, with the direction and index of the following row reversed; and after the last of them it continues along the first row reversed, in its index. This includes refraction into and out of glass and total internal reflection. Conditions: no two surfaces meet each other on the line of a row, no direction component is within the intersection tolerances, no further surface lies within the 1e-6 step after a crossing, a crossed surface is reported from the far side of that step too, and rays arrive at glass with the index of their side.", "quantifier": "All systems, rays, wavelengths, numbers of crossings and generation limits (large enough), also between two tracers with different sources.", "why_tests_cant": "The systems and the numbers of crossings are unbounded; a test would compare two traces of one system.", "anchors": ["pyrayt/_pyrayt.py:RayTracer.trace", "pyrayt/_pyrayt.py:RayTracer._st_interact", "pyrayt/materials.py:Glass.trace", "pyrayt/materials.py:_ReflectingMaterial.trace", "tinygfx/g3d/csg.py:array_csg", "tinygfx/g3d/primitives.py:Cube.intersect"]}
{"id": "C99", "title": "An object looks the same from every side", "statement": "If an object (a primitive or any nesting of unions, intersections and differences) reports a hit to one ray at a point, then it reports a hit at this point, with the id of the surface there, to every other ray through this point that goes through the surface there, that is from its inside to its outside or back; not being tangent to a smooth point of the surface is enough. Conditions: exactly one of the object's surfaces passes through the point and the object contains it once; the bounding boxes are up to date and the boxes of the parts of unions overlap (C04); no direction component is within the intersection tolerances.", "quantifier": "All objects of any history meeting the conditions, of any depth, and all pairs of rays through a common point.", "why_tests_cant": "Rays, points and nestings are unbounded; a composite is intersected ray by ray, by sorting and masking distances, and nothing in the code relates the results of two rays.", "anchors": ["tinygfx/g3d/csg.py:CSGSurface.intersect", "tinygfx/g3d/csg.py:array_csg", "tinygfx/g3d/world_objects.py:TracerSurface.intersect", "tinygfx/g3d/world_objects.py:TracerSurface.get_world_normals", "tinygfx/g3d/primitives.py:Cube.intersect"]}
{"id": "C100", "title": "Fermat's principle", "statement": "The optical path of a traced ray is stationary. Take consecutive rows of one ray in the frame returned by trace(), and move the points in which it meets surfaces on these surfaces, along any differentiable curves, keeping the start of the first row and the end of the last row. The derivative of the optical path length, the sum over the rows of index times distance, is zero. This holds through mirrors, refractions and total reflections, on placed, turned and scaled objects of every shape and any composite of them, where the ray meets them in smooth points (away from edges).", "quantifier": "All scenes made of objects of any history with the built-in materials, all rays and numbers of rows, all differentiable curves on the surfaces.", "why_tests_cant": "Scenes, rays and curves are unbounded; stationarity is a statement on all neighbouring paths, which are not traced rays and which no run of the tracer can produce.", "anchors": ["pyrayt/_pyrayt.py:RayTracer._st_propagate", "pyrayt/_pyrayt.py:RayTracer._st_interact", "pyrayt/materials.py:Glass.trace", "pyrayt/materials.py:_ReflectingMaterial.trace", "tinygfx/g3d/operations.py:refract", "tinygfx/g3d/world_objects.py:TracerSurface.get_world_normals"]}
{"id": "C101", "title": "get_quaternion() is the rotation of the object", "statement": "get_quaternion() returns a unit quaternion (scalar last) that turns every vector into the direction in which the object's world transform sends it, and so the z axis to get_orientation(), however the object was moved, turned and scaled uniformly, itself or as a member of groups and composites.", "quantifier": "All histories of move, rotate and scale_all calls with any arguments, all objects, all vectors.", "why_tests_cant": "Histories, angles and vectors are unbounded; the algorithm has four branches, chosen by comparing matrix entries, of which the repo's two tests run one.", "anchors": ["tinygfx/g3d/world_objects.py:WorldObject.get_quaternion", "tinygfx/g3d/world_objects.py:WorldObject.get_orientation"]}
{"id": "C102", "title": "Flat mirrors: boxes, pairs and corner reflectors", "statement": "In a trace of any bench: a ray reflected any number of times by the faces of one cuboid (mirror faces, or glass beyond the critical angle), however moved, turned and scaled along its own axes, keeps the size of each component of its direction in the coordinates of the cuboid, reverses it once for each reflection at a face across it, and ends where the straight line of the same length, folded into the cuboid, ends. A ray reflected by three surfaces with mutually perpendicular normals, in any order, leaves exactly opposite to the direction in which it came. A ray reflected by two surfaces keeps its component along any direction common to both, and if it travels across their common edge it is turned by twice the angle between their normals, whatever the angle at which it came.", "quantifier": "All benches, all cuboids and placements, all rays, any number of reflections, all angles between mirrors.", "why_tests_cant": "The number of reflections is unbounded, and the statements relate the first to the last row of a chain of any length; a test follows one ray.", "anchors": ["pyrayt/_pyrayt.py:RayTracer.trace", "pyrayt/materials.py:_ReflectingMaterial.trace", "tinygfx/g3d/primitives.py:Cube.normal", "tinygfx/g3d/operations.py:reflect"]}
{"id": "C103", "title": "Omitted arguments", "statement": "A lens function called without aperture builds the lens with a round opening of diameter 1, without material one of index 3/2 at every wavelength; a mirror function called without aperture, material or off_axis builds it with diameter 1, reflecting, centred on the axis; each keyword given replaces only its own default, and keywords the function does not know (off_axis for lenses among them) have no effect. A prism without material is of BK7 glass. Shapes made without arguments are the cylinder of radius 1 from z = -1 to 1, the cuboid from (-1,-1,-1) to (1,1,1) (from_sides: of sides 1, centred), the paraboloid of focal length 1 up to z = 1 and the square of side 2; sources have wavelength 0.633, lines and circles of rays are 1 wide, lamps emit into the half space in front of them; a tracer takes 10 rays per source and 10 generations.", "quantifier": "All combinations of given and omitted arguments for which the shape exists (the conditions of C45-C49 and C52), all rays.", "why_tests_cant": "There are exponentially many combinations of given and omitted keywords, and what is built is a set of points seen by all rays.", "anchors": ["pyrayt/components.py:_lens", "pyrayt/components.py:_mirror", "pyrayt/components.py:equilateral_prism", "pyrayt/components.py:Source", "tinygfx/g3d/world_objects.py:Cylinder", "tinygfx/g3d/world_objects.py:Cuboid", "pyrayt/_pyrayt.py:RayTracer.__init__"]}
{"id": "C104", "title": "Spheres: conserved moment, spherical mirrors from inside, ball lenses", "statement": "In a trace of any bench: while a ray meets only spheres around one common centre (moved and turned, not scaled; mirrors, glasses in any order, total reflections), the product of its refractive index and its moment about the centre never changes, so that its whole path is in one plane through the centre. A ray reflected again and again by the inside of one sphere runs along chords of equal length, makes the same angle with the radius at each end of each, is turned by the same angle each time, and all its chords keep the same distance from the centre. A ray that enters a ball of glass of index at least 1 from air and meets its surface again always leaves there (never by total reflection), at the angle at which it came, turned by twice the difference of the angles of incidence and refraction, after a path of 2R cos t in the ball.", "quantifier": "All benches, all sources, all concentric spheres of all radii and materials, any number of interactions.", "why_tests_cant": "The claims are about sequences of interactions of any length and all radii, indices and angles.", "anchors": ["tinygfx/g3d/primitives.py:Sphere", "tinygfx/g3d/operations.py:refract", "tinygfx/g3d/operations.py:reflect", "pyrayt/_pyrayt.py:RayTracer.trace"]}
{"id": "C105", "title": "Light guides: what goes in at an end comes out at the other end", "statement": "In a trace of any bench: let a ray from air enter a piece of glass of index N through a face across a direction z, at an angle to z of sine s with 1 + s^2 <= N^2, and then meet from inside, any number of times, faces along z. Then it never leaves through them: every time it is reflected as by a mirror, stays in the glass, keeps its component along z, and its angle t to z satisfies N sin t = s. If it then meets a face across z from inside, it leaves there into air at the angle to z at which it came. So a ray that enters a round rod (cylinder, moved and turned) through an end at such an angle never leaves through the side, cannot come back to the end it entered by, and leaves at the other end at the angle at which it came. The limit is sharp: if 1 + s^2 > N^2 and N >= 1, a ray in a plane with the axis leaves through the side where it first meets it.", "quantifier": "All benches, all shapes of faces with the stated normals, all rods, any number of meetings with the side.", "why_tests_cant": "The claim is about any number of total reflections, all indices, all angles up to the limit, including rays that are not in a plane with the axis.", "anchors": ["tinygfx/g3d/primitives.py:Cylinder", "tinygfx/g3d/operations.py:refract", "pyrayt/_pyrayt.py:RayTracer.trace"]}
{"id": "C106", "title": "Number, intensity and colour of a ray do not bend it; only the indices of the glasses do", "statement": "Take two traces through the same bench with the same generation limit, and one ray in each that has the same start, direction and index, but any number, intensity and wavelength (there may be any other rays in both traces). If the glasses on which rows of the first ray end have the same index at both wavelengths, then the two rays go the same way: each row of one is, but for the columns id, intensity and wavelength, a row of the other. In particular this is so if both have the same wavelength, or if every glass has a constant index. But if they arrive from air with the same direction, not along the normal, at the same point of a glass with a greater index at the second wavelength than at the first, then they part: both are refracted, the second one closer to the normal, so in different directions.", "quantifier": "All benches, all rays, all numbers of interactions, all glass models.", "why_tests_cant": "A test traces a few rays with a few wavelengths; the claim says that nothing else about a ray and no other ray in the trace has an influence.", "anchors": ["pyrayt/materials.py:Glass.trace", "pyrayt/materials.py:SellmeierRefractor", "pyrayt/_pyrayt.py:RayTracer.trace"]}
{"id": "C107", "title": "What rounding does to reflected and refracted directions", "statement": "Let every arithmetic operation of reflect, refract and of the normalisation v / norm(v) be rounded with unit roundoff u <= 1e-6 (2^-53 for doubles; any rounding mode, any order of summation, with or without fused multiplication; underflow included, overflow not). Then for arguments of about unit length: normalising yields a unit vector up to 5u; reflect is off by at most 30u; after k reflections the length of a direction is still 1 up to 81ku (while this is below 1/4), although reflected directions are never normalised; refract (not at grazing incidence, ratio of indices at most 4) yields a unit vector up to rounding, and either returns the index behind the surface and obeys Snell's law up to 2000u in every direction along the surface, even at the critical angle, or returns the index before and is the mirror image up to 200u; the choice between them is right unless the radicand of Snell's law is within 500u of zero. Rounding to a nearest double is such a rounding. Without rounding these functions are the exact ones.", "quantifier": "All directions, normals, indices, roundings and numbers of reflections within the stated ranges.", "why_tests_cant": "Error bounds must hold for all inputs and all roundings; the worst cases (critical angle, long chains of mirrors) are not met by samples.", "anchors": ["tinygfx/g3d/operations.py:reflect", "tinygfx/g3d/operations.py:refract", "tinygfx/g3d/operations.py:element_wise_dot"]}
{"id": "C108", "title": "What rounding does to the hits of spheres, and what the tracer's offset is good for", "statement": "Let every arithmetic operation of Sphere.intersect and of the tracer's steps position + distance * direction be rounded with unit roundoff u <= 1e-6, for a sphere and a ray start within L >= 1 of its centre and a direction of about unit length. Then every hit that Sphere.intersect reports lies on the sphere: the squared distance from the centre differs from the squared radius by at most 110 u L^2, also for rays that only touch the sphere; both hits are inf only if the exact problem has no solution up to 23 u L^2 in the quarter discriminant, and finite only if it has some up to the same tolerance. The point to which the tracer advances the ray is within 120 u L^2 / R of the surface. After the tracer has moved the ray off the surface by its offset along the new direction w, exactly one of the two newly computed hits lies ahead if w points inwards, and none if it points outwards, provided the angle is not grazing: with doubles, the offset 1e-6 and scenes of at most ten units, p.w < -2e-6 or p.w > 1e-6. Without the offset this is false for every u: the ray can meet the surface again at the place it has just left. Without rounding the computation is the exact one.", "quantifier": "All spheres, rays, sizes of the scene, new directions, offsets up to 0.001 and roundings within the stated ranges.", "why_tests_cant": "Self-hits caused by rounding show up for a few rays out of many, depending on the platform; no sample of rays shows their absence.", "anchors": ["tinygfx/g3d/primitives.py:Sphere.intersect", "pyrayt/_pyrayt.py:RayTracer._st_interact"]}
{"id": "C109", "title": "The vectorised code treats every ray of a bundle as if it were alone", "statement": "Taken as it is written, on whole arrays with stacking, sorting, reshaping, masking, argsort and fancy indexing, every function on the way from a ray set to the results works ray by ray. intersect of each primitive and of any composite, normal and get_world_normals, reflect and refract of arrays, array_csg of matrices and trace of the materials give for a ray the same column in every bundle: whatever the other rays are, how many there are (none included), at which place the ray is, and whatever memory np.empty returns. That column is the result for the ray alone. RayTracer.trace() on the whole table of rays ends if and only if tracing the rays one by one does, after the same number of steps, with the same table row for row; the rows of one ray are the rows that a trace of only this ray gives.", "quantifier": "All bundles of any number of rays, all primitives, composites of any depth, scenes, sources and generation limits; any sorting algorithm.", "why_tests_cant": "Mistakes in reshape, masks and axis arguments show up only for particular numbers and mixtures of rays (one ray, all rays missing, some inside a bounding box), of which tests try a few.", "anchors": ["tinygfx/g3d/primitives.py:Plane.intersect", "tinygfx/g3d/primitives.py:Cylinder.intersect", "tinygfx/g3d/csg.py:CSGSurface.intersect", "tinygfx/g3d/csg.py:array_csg", "tinygfx/g3d/operations.py:refract", "pyrayt/_pyrayt.py:RayTracer.trace"]}
{"id": "C110", "title": "No nan or infinity gets into the results", "statement": "Computed with the rules of floating point numbers for nan and the infinities (0/0, inf - inf, 0*inf, square roots of negative numbers, comparisons with nan), RayTracer.trace() gives a table in which every number (generation, intensity, wavelength, index, id, start, end, tilt) is finite, if the surfaces have nonzero radii and focal lengths and are placed by affine matrices, the sources emit unit directions and positive indices, and the glasses have positive indices at the emitted wavelengths, none of which is a pole of a Sellmeier formula. The table is the one obtained without special values. No hit of any object is nan for any ray whose direction is not zero. Two cases outside of this: the distances of a ray with direction zero (an absorbed ray) to a sphere are nan, which the tracer takes for no hit; and a glass whose Sellmeier formula is negative at the wavelength (BK7 at 0.141 um) has index nan and silently reflects, as a mirror, the rays that come from outside.", "quantifier": "All scenes of any history of affine movements with composites of any depth, all sources, generation limits and sorting algorithms.", "why_tests_cant": "A nan arises only in exactly degenerate configurations and then spreads silently; tests with nondegenerate rays never meet one.", "anchors": ["pyrayt/_pyrayt.py:RayTracer.trace", "tinygfx/g3d/primitives.py:Sphere.intersect", "tinygfx/g3d/primitives.py:Cube.intersect", "tinygfx/g3d/operations.py:binomial_root", "tinygfx/g3d/operations.py:refract", "pyrayt/materials.py:SellmeierRefractor.index_at"]}
{"id": "C111", "title": "The prism spreads the colours in order", "statement": "Let two rays of different wavelengths go along the same line through the two slanted faces of equilateral_prism(side, width, glass), in the same trace or in two, and let the index of the glass be larger for the second. Then the angle between the first and the last direction is larger for the second; the second leaves in the direction of the first turned towards the base, with the same y tilt; and if the rays come from below the normal of the face where they go in and leave forwards, the second lies below the first at every distance behind the prism (as on the screen of examples/chromatic_dispersion.py). The index of a Sellmeier glass with nonnegative coefficients falls with the wavelength between its poles; in particular those of BK7, SF5 and SF2 from 0.3 to 2.5 um, so that the colours leave the prism in the order of their wavelengths.", "quantifier": "All sides and widths from 1e-6, glasses, wavelengths, incoming directions (also out of the plane of the cross section), scenes built before, other components, sources and traces; rows outside the tolerance bands of the faces and of the edges at the base.", "why_tests_cant": "An order that holds for every pair of wavelengths and every incoming ray, from both sides of the prism; a test samples a few rays.", "anchors": ["examples/chromatic_dispersion.py:main", "pyrayt/components.py:equilateral_prism", "pyrayt/materials.py:SellmeierRefractor.index_at", "tinygfx/g3d/operations.py:refract", "pyrayt/_pyrayt.py:RayTracer.trace"]}
{"id": "C112", "title": "Rounding on planes and on surfaces that have been moved", "statement": "Let every arithmetic operation be rounded with the relative error u <= 1e-6 (2^-53 for doubles), and let a plane or a sphere be moved and turned in a scene of size L >= 1 (the matrix itself may be inexact, too). The place to which the tracer advances a ray that hits the plane lies in the plane up to 60 u L and within its rectangle up to 70 u L + 1e-7 L; on the sphere up to 600 u L^2 in the square of the distance from the centre. A crossing that lies inside the rectangle by 70 u L / slope + 5e-8 L is always reported, at its exact distance up to 25 u L / slope. A ray that leaves the place of the hit and is moved off by eta does not meet the plane again if eta times its slope exceeds 80 u L (doubles, eta = 1e-6, L = 100: slope 1e-6); a moved sphere it meets exactly once more, going inwards, or not at all, going outwards, up to 730 u L^2. Without the offset some rays meet the same plane again. After any history of moves and rotations the matrices satisfy the premise.", "quantifier": "All roundings (modes, orders of summation, fused operations), roundoffs up to 1e-6, positions and orientations, sizes, rays with directions of about length one, offsets up to 0.001.", "why_tests_cant": "Rounding errors depend on the last bits of all numbers and on the order in which numpy sums; bounds for all of them cannot be tested.", "anchors": ["tinygfx/g3d/primitives.py:Plane.intersect", "tinygfx/g3d/primitives.py:Sphere.intersect", "tinygfx/g3d/world_objects.py:TracerSurface.intersect", "pyrayt/_pyrayt.py:RayTracer._st_interact"]}
{"id": "C113", "title": "Rounding errors along a path between flat mirrors", "statement": "Let a ray go from one flat mirror to the next, n of them in any positions and orientations in a scene of size L >= 1, with every arithmetic operation rounded with the relative error u <= 1e-6 (hits, normals, reflections, advances, offsets). The ray without errors is the mirror image of the first ray in one mirror after the other. If the computed first direction is off by delta, then the computed direction after the mirrors is off by at most delta + 81 n u, and the computed places lie within 8.05 (n+1) L delta + (20 + 800 n + 330 n^2) u L of the line of the ray without errors, whatever the angles at which the mirrors are hit; the place where a further mirror is hit differs from the exact one by that bound times about 1 + 1/slope at this last mirror only. For doubles, L = 15, n <= 100 and slope >= 0.1 that is less than 7e-8. The ray never leaves the scene on the way. For u = 0 the tracer's reflections are the mirror images exactly.", "quantifier": "All roundings, numbers and arrangements of flat mirrors, rays that hit them one after the other, roundoffs up to 1e-6 with delta + 81 n u <= 4e-5, offsets up to 0.001.", "why_tests_cant": "The errors of the turns are fed into each other; neither all roundings nor all sequences of mirrors can be tried, and a test has no exact path to compare with.", "anchors": ["pyrayt/_pyrayt.py:RayTracer._st_interact", "pyrayt/_pyrayt.py:RayTracer.trace", "tinygfx/g3d/primitives.py:Plane.intersect", "tinygfx/g3d/world_objects.py:TracerSurface.get_world_normals", "tinygfx/g3d/operations.py:reflect"]}
{"id": "C114", "title": "Aplanatic points of a ball of glass", "statement": "Two points on a half line from the centre of a ball of glass of radius R and index N >= 1, at N R and at R / N from it, are imaged into each other without any error. A ray in air that comes to the ball from outside, aimed at the outer point and a distance L before it, goes in the glass exactly to the inner point, at the distance L / N. A ray in the glass that comes from the inner point over the distance L to a place from which the outer point is seen through the ball is never totally reflected and goes on in air exactly as if it came from the outer point, at the distance N L. The parts of the two directions across the axis are in the ratio N (the sine condition). This holds for every ray, not only near the axis, wherever the ball has been moved and turned.", "quantifier": "All balls of glass in any scene and position, indices at least 1, and all rays of every trace that go to the outer point or come from the inner one, at any angle.", "why_tests_cant": "The angles form a continuum, and near the axis a wrong law of refraction gives the same images; a test of a few rays cannot tell an exact image from a good one.", "anchors": ["tinygfx/g3d/operations.py:refract", "pyrayt/materials.py:Glass.trace", "tinygfx/g3d/primitives.py:Sphere.intersect", "tinygfx/g3d/primitives.py:Sphere.normal", "pyrayt/_pyrayt.py:RayTracer.trace"]}
{"id": "C115", "title": "Confocal parabolic mirrors", "statement": "Let two parabolic mirrors (of the primitive Paraboloid), moved and turned in any way but not scaled, have one focus and one axis, their openings looking the same way (eps = 1) or opposite ways (eps = -1). Let a ray of a trace come along the axis at any distance from it, hit the curved part of the first mirror, of focal length f1, and next that of the second, of focal length f2. It leaves along the axis again. Either it goes on as it came, and then the place on the second mirror, seen from the focus, is the place on the first one multiplied by exactly eps f2 / f1, for every ray, so a parallel beam is enlarged without distortion; or it goes back, and then the product of the distances of the two places from the axis is exactly 4 f1 f2. In both cases the length of the way between two planes across the axis is the same for all rays. The two mirrors may be the same one. At each single mirror a ray along the axis is sent along the line through the focus and a ray on a line through the focus is sent along the axis.", "quantifier": "All pairs of confocal paraboloids in any scene and position, all rays of every trace along the axis that hit one and then the other, from inside or outside.", "why_tests_cant": "The distances from the axis form a continuum, and a wrong normal or a wrong focal length that is right near the axis shows only away from it; a few rays in one arrangement do not show that the image has no distortion.", "anchors": ["tinygfx/g3d/primitives.py:Paraboloid.intersect", "tinygfx/g3d/primitives.py:Paraboloid.normal", "tinygfx/g3d/world_objects.py:TracerSurface.get_world_normals", "tinygfx/g3d/operations.py:reflect", "pyrayt/_pyrayt.py:RayTracer.trace"]}
{"id": "C116", "title": "Spheroids", "statement": "Let a sphere, scaled by different factors, turned and moved, have become a spheroid with half axes A across and C along its axis, C > A, so that its foci are at the distance h from its centre with h^2 = C^2 - A^2. If it is a mirror, every ray of a trace that comes from one focus, or aims at it, and hits the spheroid anywhere, from inside or outside, is sent along the line through the other focus, and the distances of the place from the foci add up to 2C. If it is of glass with the index N = C / h for the light of the ray, every ray that comes through the air along the axis and enters at the near half goes exactly through the far focus, and the optical way from a plane across the axis to the focus is the same for all these rays; and every ray inside the glass from a focus that meets the half beyond the centre leaves exactly along the axis, is never totally reflected, and has the same optical way as all the others.", "quantifier": "All spheres under all affine transforms that make them such a spheroid, in any scene; all rays of every trace as described, at every distance from the axis.", "why_tests_cant": "Scaling by different factors changes the hits through directions of other than unit length and the normals through the transposed inverse of the transform; an error in either can be right on the axis and at the equator, where the symmetry hides it, and wrong in between, on a continuum of places.", "anchors": ["tinygfx/g3d/primitives.py:Sphere.intersect", "tinygfx/g3d/primitives.py:Sphere.normal", "tinygfx/g3d/world_objects.py:WorldObject.scale", "tinygfx/g3d/world_objects.py:TracerSurface.get_world_normals", "tinygfx/g3d/operations.py:reflect", "tinygfx/g3d/operations.py:refract", "pyrayt/_pyrayt.py:RayTracer.trace"]}
{"id": "C117", "title": "A lens is stronger for blue light", "statement": "By lensmakers_equation a biconvex lens no thicker than the sum of its radii has a positive focal length that is shorter for the higher index, and a biconcave lens has a negative focal length that is nearer to zero for the higher index. In the results of traces through a biconvex thick_lens of a glass whose index is higher for blue light than for red light, with the focus behind the lens, blue light that comes in parallel to the axis and near it crosses the axis behind the lens and nearer to it than red light does; for the glasses of the catalogue this holds for every two wavelengths from 0.3 to 2.5 micrometres.", "quantifier": "All radii, thicknesses, apertures and indices as described; every scene with the lens in it; every two traces and all rays that start within a distance of the axis that depends on the lens and the two wavelengths only.", "why_tests_cant": "The crossing points move continuously with radii, thickness and index and differ little between colours; a test compares two numbers for one lens, while an index taken from the wrong wavelength, or a thickness term with the wrong sign, gives the right order for some lenses and the wrong one for others.", "anchors": ["pyrayt/utils.py:lensmakers_equation", "pyrayt/components.py:thick_lens", "pyrayt/materials.py:SellmeierRefractor.index_at", "pyrayt/materials.py:TracerMaterial.trace", "pyrayt/_pyrayt.py:RayTracer.trace"]}
{"id": "C118", "title": "Traces near the axis obey Gaussian optics", "statement": "For a centred system of any number of spherical and flat surfaces and mirrors on a common axis, rays of a trace that are close to the axis and meet the surfaces in the given order are nowhere totally reflected and end in the medium behind the last surface; height and index times slope behind the system depend on those before it by a matrix of determinant 1, the same for both transverse directions, whose entries come as close as one likes to those of the product of the translation, refraction and reflection matrices of Gaussian optics. All light from a point of the axis that has a Gaussian image crosses the axis behind the system at that image, and all light that comes in parallel to the axis crosses it at the Gaussian focal point, to any accuracy. Rays through a lens made by thick_lens meet two such surfaces, and lensmakers_equation is the focal length of their matrix.", "quantifier": "All lists of surfaces, positions, curvatures and positive indices; light in either sense of the axis; every tolerance: there is a distance from the axis, depending on the system and the tolerance only, such that the claim holds on every bench, in every trace and for all rays within it, skew rays included.", "why_tests_cant": "A test can send some rays through some systems and compare with some tolerance; that the tolerance can be made as small as one likes, for all systems with any number of surfaces, is a limit. A sign error for concave surfaces seen from the other side, after a mirror or when leaving a medium shows only in particular combinations.", "anchors": ["pyrayt/_pyrayt.py:RayTracer.trace", "pyrayt/materials.py:TracerMaterial.trace", "tinygfx/g3d/operations.py:refract", "tinygfx/g3d/operations.py:reflect", "tinygfx/g3d/primitives.py:Sphere.normal", "pyrayt/components.py:thick_lens", "pyrayt/utils.py:lensmakers_equation"]}
{"id": "C119", "title": "Rounding on cuboids", "statement": "Let every arithmetic operation be rounded with the relative error u <= 1e-6 (2^-53 for doubles), and let a cuboid be moved and turned in a scene of size L >= 1 (the matrix itself may be inexact, too). The place to which the tracer advances a ray that hits the cuboid lies in the plane of one of its faces up to 70 u L, and within the cuboid up to 70 u L + 1e-7 L. If at the distance T the exact ray is inside the cuboid by 35 u L + 1e-8 |T|, then two hits are reported, one nearer than T and one farther. A ray that leaves the place of a hit outwards and is moved off by eta has no hit ahead if eta times its slope against the face exceeds 100 u L; going inwards it has exactly one hit ahead and one behind, unless it starts closer than 2 eta + 200 u L to another face (doubles, eta = 1e-6, L = 100: slope 2e-6, distance 3e-6).", "quantifier": "All roundings (modes, orders of summation, fused operations), roundoffs up to 1e-6, positions and orientations, corners in any order, rays with directions of about length one, offsets up to 0.001.", "why_tests_cant": "Whether a ray that leaves a face meets the same face again depends on the last bits of all numbers; bounds for all of them cannot be tested.", "anchors": ["tinygfx/g3d/primitives.py:Cube.intersect", "tinygfx/g3d/world_objects.py:TracerSurface.intersect", "pyrayt/_pyrayt.py:RayTracer._st_interact"]}
{"id": "C120", "title": "Images, telescopes and combinations of systems", "statement": "In a centred system of any number of spherical and flat surfaces and mirrors: all light of a trace from a point near the axis in a plane that has a Gaussian image crosses the image plane at the height of the point times one magnification, 1 / D with D the lower right entry of the Gaussian matrix, to any accuracy relative to height and slope; index times slope behind the system is the linear function of height and slope before it that Gaussian optics gives. The matrix of two systems in a row is the product of their matrices; the two form a telescope if and only if light from the focal point of the first leaves the second parallel, and then a parallel bundle leaves it parallel with its angles multiplied by minus the ratio of the powers.", "quantifier": "All lists of surfaces, positions, curvatures, positive indices, both senses of the axis; every tolerance: there is a distance from the axis, depending on the system and the tolerance only, for all benches, traces and rays within it, skew rays included.", "why_tests_cant": "That an image is sharp, flat and scaled by one number for all systems is a statement about limits; tests compare some rays through some systems with some tolerance.", "anchors": ["pyrayt/_pyrayt.py:RayTracer.trace", "pyrayt/materials.py:TracerMaterial.trace", "tinygfx/g3d/operations.py:refract", "tinygfx/g3d/operations.py:reflect", "tinygfx/g3d/primitives.py:Sphere.normal"]}
{"id": "C121", "title": "Systems on any axis, folded by flat mirrors", "statement": "Let spherical and flat surfaces and mirrors be centred on any line of space, and let flat mirrors in any position turn this axis any number of times between them. Light of a trace that meets surfaces and folding mirrors in the given order, close enough to the axis, behaves as in the system without the folds when seen in the folding mirrors: height and index times slope change by a matrix of determinant 1 as close as wanted to that of Gaussian optics, points of the axis are imaged to their Gaussian images and light parallel to the axis is focused in the Gaussian focal point; planes across the axis are imaged with the Gaussian magnification, and two systems that share a focal point are a telescope that multiplies angles by minus the ratio of the powers. For any two rays, height of one times index times slope of the other minus the same with the rays exchanged is conserved (Lagrange's invariant), to any accuracy. Light that meets flat mirrors only goes exactly straight on when seen in the mirrors. On the x axis and without folds this is C118.", "quantifier": "All axes (isometries), lists of surfaces and folding planes, positions, curvatures, positive indices, both senses; every tolerance: there is a distance from the axis, depending on the system without the folds and the tolerance only, for all benches, traces and rays within it, skew rays included.", "why_tests_cant": "Tests place systems on the coordinate axes; that nothing depends on the axis and that any number of folds in any position changes nothing but the coordinates is a statement about all positions of all mirrors.", "anchors": ["pyrayt/_pyrayt.py:RayTracer.trace", "pyrayt/materials.py:TracerMaterial.trace", "tinygfx/g3d/operations.py:refract", "tinygfx/g3d/operations.py:reflect", "tinygfx/g3d/primitives.py:Sphere.normal", "tinygfx/g3d/world_objects.py:TracerSurface.get_world_normals"]}
{"id": "C122", "title": "What light keeps along a common direction of surfaces", "statement": "Let a ray of a trace meet any number of surfaces of glass and mirrors that contain one direction c where the ray meets them: rectangles and faces of cuboids along c, sides of cylinders with axes along c. Whether it is refracted, reflected or totally reflected at each, index times component of its direction along c never changes. So back in a medium of the first index the light makes the first angle with c, and it cannot be in a medium of an index smaller than the conserved quantity. If all surfaces are flat and parallel, a stack of any number of plates and mirrors, the light that is again in a medium of the first index goes exactly along its first direction or along the mirror image of it in the layers. The slanted faces of equilateral_prism contain the direction of its edge, so light that meets them any number of times and is outside again keeps its angle with the edge.", "quantifier": "All benches and traces, numbers of surfaces, glasses, mirrors, directions c, placements of the surfaces (moved, turned, mirrored, scaled in any way), rays, skew rays included.", "why_tests_cant": "Tests follow single refractions; the invariant speaks of any number of interactions of any kind in any order, and parallel layers are exact only in the proof.", "anchors": ["pyrayt/_pyrayt.py:RayTracer.trace", "pyrayt/materials.py:TracerMaterial.trace", "tinygfx/g3d/operations.py:refract", "tinygfx/g3d/operations.py:reflect", "tinygfx/g3d/primitives.py:Cylinder.normal", "tinygfx/g3d/primitives.py:Cube.normal", "tinygfx/g3d/primitives.py:Plane.normal", "tinygfx/g3d/world_objects.py:TracerSurface.get_world_normals", "pyrayt/components.py:equilateral_prism"]}
