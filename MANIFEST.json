{
 "claims": [
  {
   "property": "C01",
   "status": "proved",
   "theorems": [
    "PyRayT.C01_arrayCsg_parity",
    "PyRayT.C01_arrayCsg_parity_after"
   ],
   "note": "Any lengths (even), sorted inputs, any argsort tie-breaking."
  },
  {
   "property": "C02",
   "status": "proved",
   "theorems": [
    "PyRayT.C02_arrayCsg_shape"
   ],
   "note": ""
  },
  {
   "property": "C03",
   "status": "proved",
   "theorems": [
    "PyRayT.C03_left_crossings",
    "PyRayT.C03_right_crossings",
    "PyRayT.C03_needs_stability"
   ],
   "note": "Stable argsort assumed for exact crossings; C03_needs_stability shows the assumption is needed."
  },
  {
   "property": "C04",
   "status": "partial",
   "theorems": [
    "PyRayT.C04_composite_partial",
    "PyRayT.C04_tidy_partial",
    "PyRayT.C06_separated_union_false"
   ],
   "note": "Any history and tree depth; needs up-to-date boxes (automatic for tidy histories) and unions whose operands have overlapping boxes. False without the latter."
  },
  {
   "property": "C05",
   "status": "proved",
   "theorems": [
    "PyRayT.C05_labels"
   ],
   "note": "Every heap, composite, ray and tie-breaking."
  },
  {
   "property": "C06",
   "status": "partial",
   "theorems": [
    "PyRayT.C06_culling_partial",
    "PyRayT.C06_separated_union_false"
   ],
   "note": "Holds when the boxes of the operands of every union overlap; false for separated operands."
  },
  {
   "property": "C07",
   "status": "proved",
   "theorems": [
    "PyRayT.C07_sphere"
   ],
   "note": ""
  },
  {
   "property": "C08",
   "status": "proved",
   "theorems": [
    "PyRayT.C08_cube"
   ],
   "note": ""
  },
  {
   "property": "C09",
   "status": "partial",
   "theorems": [
    "PyRayT.C09_cylinder_partial",
    "PyRayT.C09_cylinder_near_axial_false"
   ],
   "note": "Exact for rays outside the numpy tolerance band; false inside it (witness: a unit ray tilted 5e-5 through the solid is reported as a miss)."
  },
  {
   "property": "C10",
   "status": "partial",
   "theorems": [
    "PyRayT.C10_paraboloid_partial",
    "PyRayT.C10_paraboloid_near_axial_false"
   ],
   "note": "Exact for rays outside the numpy tolerance band; false inside it (witness theorem)."
  },
  {
   "property": "C100",
   "status": "proved",
   "theorems": [
    "PyRayT.C100_fermat"
   ],
   "note": ""
  },
  {
   "property": "C101",
   "status": "partial",
   "theorems": [
    "PyRayT.C101_quaternion_partial",
    "PyRayT.C101_scaled_false"
   ],
   "note": "False once the object is scaled: the 3x3 block handed to scipy then is not a rotation, and the result turns by another angle (scale_all(2), rotate_x(90) give (3/5, 0, 0, 4/5), C101_scaled_false). Proved for all histories without scaling. scipy is outside /repo; its from_matrix is modelled as in the locked version 1.6.3."
  },
  {
   "property": "C102",
   "status": "proved",
   "theorems": [
    "PyRayT.C102_box",
    "PyRayT.C102_corner",
    "PyRayT.C102_pair",
    "PyRayT.folds_exist"
   ],
   "note": "The hits on the cuboid are at faces, away from the edges (Spec.OnFace), since the normal at an edge is the mean of those of the faces; the folding is any function that is the identity on the cuboid and symmetric about its faces, and folds_exist shows that there is one."
  },
  {
   "property": "C103",
   "status": "proved",
   "theorems": [
    "PyRayT.C103_thick_lens",
    "PyRayT.C103_plano_convex",
    "PyRayT.C103_biconvex",
    "PyRayT.C103_plane_mirror",
    "PyRayT.C103_spherical_mirror",
    "PyRayT.C103_parabolic_mirror",
    "PyRayT.C103_prism",
    "PyRayT.C103_cylinder",
    "PyRayT.C103_cuboid",
    "PyRayT.C103_cuboid_sides",
    "PyRayT.C103_paraboloid",
    "PyRayT.C103_plane",
    "PyRayT.C103_sources",
    "PyRayT.C103_lamp",
    "PyRayT.C103_tracer"
   ],
   "note": "Biconvex lenses with equal radii (with different radii the function builds another shape, see C46). Arguments given as None and positional arguments repeated as keywords are not modelled."
  },
  {
   "property": "C104",
   "status": "proved",
   "theorems": [
    "PyRayT.C104_concentric",
    "PyRayT.C104_billiard",
    "PyRayT.C104_ball_lens"
   ],
   "note": "Spheres that were moved and turned but not scaled (Spec.EndsOnSphere)."
  },
  {
   "property": "C105",
   "status": "proved",
   "theorems": [
    "PyRayT.C105_guide",
    "PyRayT.C105_guide_exit",
    "PyRayT.C105_rod",
    "PyRayT.C105_leaks"
   ],
   "note": "Rods that were moved and turned but not scaled; hits on the side of the rod that are outside the tolerance band of isclose around its ends (Spec.OnSide), since there the code takes the normal of the end."
  },
  {
   "property": "C106",
   "status": "proved",
   "theorems": [
    "PyRayT.C106_labels",
    "PyRayT.C106_achromatic",
    "PyRayT.C106_dispersion"
   ],
   "note": ""
  },
  {
   "property": "C107",
   "status": "proved",
   "theorems": [
    "PyRayT.C107_doubles",
    "PyRayT.C107_reflect",
    "PyRayT.C107_normalize",
    "PyRayT.C107_drift",
    "PyRayT.C107_refract",
    "PyRayT.C107_exact"
   ],
   "note": "Rounded arithmetic is a relation between the exact and the rounded result of each operation. Overflow and nan are not covered. Normals are assumed to be unit up to 5u, which is what normalising yields (C107_normalize)."
  },
  {
   "property": "C108",
   "status": "proved",
   "theorems": [
    "PyRayT.C108_hits",
    "PyRayT.C108_inside",
    "PyRayT.C108_away",
    "PyRayT.C108_advance",
    "PyRayT.C108_offset",
    "PyRayT.C108_distance",
    "PyRayT.C108_doubles",
    "PyRayT.C108_exact",
    "PyRayT.C108_without_offset"
   ],
   "note": "In the local frame of the sphere; C112 adds the rounding of the transformation between world and object coordinates. Overflow and nan are not covered."
  },
  {
   "property": "C109",
   "status": "proved",
   "theorems": [
    "PyRayT.C109_primitives",
    "PyRayT.C109_normals",
    "PyRayT.C109_world_normals",
    "PyRayT.C109_reflect",
    "PyRayT.C109_refract",
    "PyRayT.C109_csg",
    "PyRayT.C109_intersect",
    "PyRayT.C109_materials",
    "PyRayT.C109_trace",
    "PyRayT.C109_alone"
   ],
   "note": "numpy functions are modelled as in Model/Bundles.lean (first section) and trusted to be as modelled."
  },
  {
   "property": "C11",
   "status": "proved",
   "theorems": [
    "PyRayT.C11_plane"
   ],
   "note": ""
  },
  {
   "property": "C110",
   "status": "proved",
   "theorems": [
    "PyRayT.C110_no_nan",
    "PyRayT.C110_hits",
    "PyRayT.C110_extinct",
    "PyRayT.C110_undefined_index",
    "PyRayT.C110_bk7"
   ],
   "note": "Finite numbers are exact: overflow and underflow are not covered. Divisions of a nonzero number by zero are nan in this model (the sign of zero is not modelled); C110_no_nan shows that none occurs."
  },
  {
   "property": "C111",
   "status": "proved",
   "theorems": [
    "PyRayT.C111_spectrum",
    "PyRayT.C111_index",
    "PyRayT.C111_catalogue"
   ],
   "note": ""
  },
  {
   "property": "C112",
   "status": "proved",
   "theorems": [
    "PyRayT.C112_plane",
    "PyRayT.C112_plane_offset",
    "PyRayT.C112_plane_doubles",
    "PyRayT.C112_plane_found",
    "PyRayT.C112_sphere",
    "PyRayT.C112_sphere_offset",
    "PyRayT.C112_sphere_doubles",
    "PyRayT.C112_plane_exact",
    "PyRayT.C112_local_exact",
    "PyRayT.C112_without_offset",
    "PyRayT.C112_placed"
   ],
   "note": "Overflow and nan are not covered. The theorems on the offset assume that the homogeneous component of the moved point is exactly one (1 + 1e-6 * 0 is exact in floating point, while the relation allows a tiny error)."
  },
  {
   "property": "C113",
   "status": "proved",
   "theorems": [
    "PyRayT.C113_path",
    "PyRayT.C113_end",
    "PyRayT.C113_hit",
    "PyRayT.C113_doubles",
    "PyRayT.C113_exact",
    "PyRayT.C113_image"
   ],
   "note": "Mirrors of the primitive Plane (other flat faces are not covered). That the ray hits the mirrors of the list in their order is a premise. The last components of computed points and directions are taken to be exact, as in floating point. Overflow and nan are not covered."
  },
  {
   "property": "C114",
   "status": "proved",
   "theorems": [
    "PyRayT.C114_focus",
    "PyRayT.C114_magnify"
   ],
   "note": "The row of the trace that names the ball and the row that follows it are given; light going in comes from air (index 1)."
  },
  {
   "property": "C115",
   "status": "proved",
   "theorems": [
    "PyRayT.C115_mirror",
    "PyRayT.C115_confocal"
   ],
   "note": "That the rows end on the curved parts, away from the rim by more than the tolerance of isclose, and that the ray goes from the first mirror to the second are premises."
  },
  {
   "property": "C116",
   "status": "proved",
   "theorems": [
    "PyRayT.C116_mirror",
    "PyRayT.C116_focus",
    "PyRayT.C116_collimate"
   ],
   "note": "The row of the trace that names the spheroid and the row that follows it are given. For glass, the sign of the product of direction and normal, which says that the ray goes in or out, is a premise; light going in comes from air (index 1)."
  },
  {
   "property": "C117",
   "status": "proved",
   "theorems": [
    "PyRayT.C117_focal",
    "PyRayT.C117_axis",
    "PyRayT.C117_catalogue"
   ],
   "note": "The three segments of each ray, named by the surfaces of the lens, are given; the distance of the rays from the axis for which the order is certain exists but is not computed."
  },
  {
   "property": "C118",
   "status": "proved",
   "theorems": [
    "PyRayT.C118_gauss",
    "PyRayT.C118_image",
    "PyRayT.C118_focus",
    "PyRayT.C118_det",
    "PyRayT.C118_lens",
    "PyRayT.C118_thick_lens"
   ],
   "note": "That the ray meets the listed surfaces in the listed order, on the halves of the spheres around the vertices, is given (and shown for thick_lens with parallel light); the axis is the x axis; the distance from the axis exists but is not computed."
  },
  {
   "property": "C119",
   "status": "proved",
   "theorems": [
    "PyRayT.C119_cube",
    "PyRayT.C119_found",
    "PyRayT.C119_offset_out",
    "PyRayT.C119_offset_in",
    "PyRayT.C119_doubles",
    "PyRayT.C119_exact"
   ],
   "note": "Overflow and nan are not covered; sizes up to L, offsets up to 0.001. That the moves and rotations of a history give matrices that meet the premise is C112_placed."
  },
  {
   "property": "C12",
   "status": "partial",
   "theorems": [
    "PyRayT.C12_normals_partial",
    "PyRayT.C12_plane",
    "PyRayT.C12_thin_cuboid_false"
   ],
   "note": "Proved for every smooth point outside the np.isclose tolerance bands, all affine placements, all histories; planes separately. False inside the bands: a thin cuboid far from the origin gets an inward normal."
  },
  {
   "property": "C120",
   "status": "proved",
   "theorems": [
    "PyRayT.C120_magnification",
    "PyRayT.C120_slope",
    "PyRayT.C120_combine",
    "PyRayT.C120_telescope",
    "PyRayT.C120_afocal"
   ],
   "note": "That the rays meet the listed surfaces in the listed order is given, as in C118; the axis is the x axis (any axis and folds: C121)."
  },
  {
   "property": "C121",
   "status": "proved",
   "theorems": [
    "PyRayT.C121_gauss",
    "PyRayT.C121_image",
    "PyRayT.C121_focus",
    "PyRayT.C121_unfold",
    "PyRayT.C121_unfolded",
    "PyRayT.C121_magnification",
    "PyRayT.C121_slope",
    "PyRayT.C121_afocal",
    "PyRayT.C121_lagrange"
   ],
   "note": "That the rays meet the listed surfaces and folding mirrors in the listed order is given, as in C118."
  },
  {
   "property": "C122",
   "status": "proved",
   "theorems": [
    "PyRayT.C122_along",
    "PyRayT.C122_angle",
    "PyRayT.C122_stack",
    "PyRayT.C122_prism"
   ],
   "note": "The rows of the trace and the surfaces they end on are given; for cylinders the row ends on the side, away from the caps by more than the tolerance of isclose; for the prism the tolerance bands of the faces and of the base are excluded as in C92."
  },
  {
   "property": "C13",
   "status": "proved",
   "theorems": [
    "PyRayT.C13_frames",
    "PyRayT.C13_history",
    "PyRayT.C13_history_single"
   ],
   "note": "Any history of creations and movements; exceptions handled in C15."
  },
  {
   "property": "C14",
   "status": "proved",
   "theorems": [
    "PyRayT.C14_laws",
    "PyRayT.C14_rigid",
    "PyRayT.C14_directions",
    "PyRayT.C14_compose"
   ],
   "note": ""
  },
  {
   "property": "C15",
   "status": "partial",
   "theorems": [
    "PyRayT.C15_rejected_partial",
    "PyRayT.C15_rigid_never_rejected",
    "PyRayT.C15_zero_scale_false"
   ],
   "note": "Arguments rejected before anything changes (negative scale, unknown units) leave everything as it was, and rigid movements are never rejected; false for singular matrices (zero scale): the object is left half-updated (witness theorem)."
  },
  {
   "property": "C16",
   "status": "partial",
   "theorems": [
    "PyRayT.C16_group_partial",
    "PyRayT.C16_listed_twice_false"
   ],
   "note": "Holds when each object is reachable once; an object listed twice is moved twice (witness theorem)."
  },
  {
   "property": "C17",
   "status": "partial",
   "theorems": [
    "PyRayT.C17_pin_partial",
    "PyRayT.C17_pin_parts",
    "PyRayT.C17_member_first_false"
   ],
   "note": "Holds for objects without shared members; restoring a group with pinned members listed first is wrong (witness theorem)."
  },
  {
   "property": "C18",
   "status": "proved",
   "theorems": [
    "PyRayT.C18_leaf_box"
   ],
   "note": ""
  },
  {
   "property": "C19",
   "status": "partial",
   "theorems": [
    "PyRayT.C19_flat_partial",
    "PyRayT.C19_tidy_partial",
    "PyRayT.C19_nested_right_false",
    "PyRayT.C19_inner_part_false"
   ],
   "note": "Holds for every composite of two surfaces after any history, and for composites of any depth after tidy histories (no sharing, composite right operands only in differences, movements of whole composites or of direct surface operands). False otherwise: two witness theorems."
  },
  {
   "property": "C20",
   "status": "partial",
   "theorems": [
    "PyRayT.C20_normals_partial",
    "PyRayT.C20_double_difference_false"
   ],
   "note": "Right for surfaces subtracted at most once in unshared trees; false for surfaces subtracted twice (witness theorem)."
  },
  {
   "property": "C21",
   "status": "proved",
   "theorems": [
    "PyRayT.C21_reflect",
    "PyRayT.C21_reflect_forms"
   ],
   "note": ""
  },
  {
   "property": "C22",
   "status": "proved",
   "theorems": [
    "PyRayT.C22_snell"
   ],
   "note": ""
  },
  {
   "property": "C23",
   "status": "proved",
   "theorems": [
    "PyRayT.C23_total_internal_reflection"
   ],
   "note": ""
  },
  {
   "property": "C24",
   "status": "proved",
   "theorems": [
    "PyRayT.C24_reversible"
   ],
   "note": ""
  },
  {
   "property": "C25",
   "status": "proved",
   "theorems": [
    "PyRayT.C25_nearest",
    "PyRayT.C25_surface"
   ],
   "note": "Ties: the first component reporting the smallest distance."
  },
  {
   "property": "C26",
   "status": "proved",
   "theorems": [
    "PyRayT.C26_terminates",
    "PyRayT.C26_nonpositive_limit",
    "PyRayT.C26_limit_zero_false"
   ],
   "note": "For limits >= 1, all components and materials. Limits below 1 are not a limit: C26_limit_zero_false shows a trace that never ends, C26_nonpositive_limit says exactly when one ends."
  },
  {
   "property": "C27",
   "status": "proved",
   "theorems": [
    "PyRayT.C27_chains"
   ],
   "note": "All tracers over components with distinct surface ids (scene_tracer_ok: all objects with built-in materials)."
  },
  {
   "property": "C28",
   "status": "proved",
   "theorems": [
    "PyRayT.C28_segment",
    "PyRayT.C28_connected"
   ],
   "note": "All tracers over components with distinct surface ids; duplicates are treated in C57."
  },
  {
   "property": "C29",
   "status": "proved",
   "theorems": [
    "PyRayT.C29_independent",
    "PyRayT.material_ignoresId"
   ],
   "note": ""
  },
  {
   "property": "C30",
   "status": "proved",
   "theorems": [
    "PyRayT.C30_row",
    "PyRayT.C30_absorbed",
    "PyRayT.C30_escaped",
    "PyRayT.C30_continues",
    "PyRayT.absorber_zero"
   ],
   "note": ""
  },
  {
   "property": "C31",
   "status": "partial",
   "theorems": [
    "PyRayT.C31_partial",
    "PyRayT.C31_false",
    "PyRayT.C31_threshold_ignored"
   ],
   "note": "False: the threshold mask is passed to np.logical_or as its output array, so it has no effect (C31_threshold_ignored). What holds: rays emitted above the threshold stay above it."
  },
  {
   "property": "C32",
   "status": "partial",
   "theorems": [
    "PyRayT.C32_partial",
    "PyRayT.C32_false",
    "PyRayT.C32_unknown_surface"
   ],
   "note": "False: the surface table is only built by the constructor. Holds when all surfaces of the new components were surfaces of the old ones."
  },
  {
   "property": "C33",
   "status": "proved",
   "theorems": [
    "PyRayT.C33_repeatable"
   ],
   "note": ""
  },
  {
   "property": "C34",
   "status": "proved",
   "theorems": [
    "PyRayT.C34_source_ids",
    "PyRayT.C34_ids",
    "PyRayT.C34_changed_rays_per_source"
   ],
   "note": "For sources that emit as many rays as asked for, as long as rays_per_source is not changed between trace and calculate_source_ids (witness theorem)."
  },
  {
   "property": "C35",
   "status": "proved",
   "theorems": [
    "PyRayT.C35_unit_tilts"
   ],
   "note": ""
  },
  {
   "property": "C36",
   "status": "partial",
   "theorems": [
    "PyRayT.C36_bundle_partial",
    "PyRayT.C36_moves",
    "PyRayT.C36_line",
    "PyRayT.C36_line_distance",
    "PyRayT.C36_circle",
    "PyRayT.C36_cone_partial",
    "PyRayT.C36_wedge",
    "PyRayT.C36_single_cone_false"
   ],
   "note": "All claims hold except that a ConeOfRays asked for one ray emits it on the axis (witness theorem); at 90 degrees this ray has direction 0/0."
  },
  {
   "property": "C37",
   "status": "partial",
   "theorems": [
    "PyRayT.C37_distinct_false",
    "PyRayT.C37_partial"
   ],
   "note": "False for every n >= 2: linspace includes the end point, the first and the last ray coincide. Proved: the spacing is 1/(n-1) of the turn and all rays but the last are distinct."
  },
  {
   "property": "C38",
   "status": "proved",
   "theorems": [
    "PyRayT.C38_lamp"
   ],
   "note": ""
  },
  {
   "property": "C39",
   "status": "partial",
   "theorems": [
    "PyRayT.C39_same_partial",
    "PyRayT.C39_current_partial",
    "PyRayT.C39_evicted_false",
    "PyRayT.C39_keyword_false",
    "PyRayT.C39_stale_false",
    "PyRayT.C39_edited_false"
   ],
   "note": "False after ten other keys, for keyword calls, after moving the lamp and when the returned set is overwritten (witness theorems). Proved: same set while at most nine other keys are called, rays of the current placement while the lamp is not moved and no set is overwritten."
  },
  {
   "property": "C40",
   "status": "proved",
   "theorems": [
    "PyRayT.C40_range",
    "PyRayT.C40_clipped",
    "PyRayT.C40_continuous"
   ],
   "note": ""
  },
  {
   "property": "C41",
   "status": "proved",
   "theorems": [
    "PyRayT.C41_lensmaker"
   ],
   "note": ""
  },
  {
   "property": "C42",
   "status": "proved",
   "theorems": [
    "PyRayT.C42_index",
    "PyRayT.C42_dispersion",
    "PyRayT.C42_abbe_pos",
    "PyRayT.C42_builtin_glasses",
    "PyRayT.C42_default_glass"
   ],
   "note": ""
  },
  {
   "property": "C43",
   "status": "partial",
   "theorems": [
    "PyRayT.C43_smallest_positive_root_partial",
    "PyRayT.C43_false"
   ],
   "note": "Holds for a>0, and a<0 with c<0; false for every a<0, c>0 (the code answers inf)."
  },
  {
   "property": "C44",
   "status": "partial",
   "theorems": [
    "PyRayT.C44_binomial_root_partial",
    "PyRayT.C44_false"
   ],
   "note": "Exact when the leading coefficients are exactly 0 or above the numpy tolerance; false inside the tolerance."
  },
  {
   "property": "C45",
   "status": "partial",
   "theorems": [
    "PyRayT.C45_thick_lens_partial",
    "PyRayT.C45_axis_rays_partial",
    "PyRayT.C45_far_side_false"
   ],
   "note": "False when the far side of a convex sphere lies in front of the other surface (witness theorem). Proved whenever the spheres are wide enough for the aperture and deep enough for the thickness."
  },
  {
   "property": "C46",
   "status": "partial",
   "theorems": [
    "PyRayT.C46_plano_convex_partial",
    "PyRayT.C46_biconvex_partial",
    "PyRayT.C46_biconvex_false"
   ],
   "note": "biconvex_lens exchanges the radii but not the centres (witness theorem); proved for equal radii and for plano_convex_lens, under the fitting condition of C45."
  },
  {
   "property": "C47",
   "status": "proved",
   "theorems": [
    "PyRayT.C47_spherical_mirror",
    "PyRayT.C47_zero_radius"
   ],
   "note": "For openings that fit the sphere; radius 0 raises UnboundLocalError."
  },
  {
   "property": "C48",
   "status": "partial",
   "theorems": [
    "PyRayT.C48_parabolic_mirror_partial",
    "PyRayT.C48_tiny_false",
    "PyRayT.C48_not_positive"
   ],
   "note": "Positive focal lengths above 2.5e-9 and openings above about 1e-7 of the focal length. False for openings that are tiny against the focal length (witness: the cap test of the normals has an absolute tolerance). Other focal lengths raise."
  },
  {
   "property": "C49",
   "status": "proved",
   "theorems": [
    "PyRayT.C49_prism"
   ],
   "note": ""
  },
  {
   "property": "C50",
   "status": "partial",
   "theorems": [
    "PyRayT.C50_shape_partial",
    "PyRayT.C50_mixed_pair",
    "PyRayT.C50_ellipse_false"
   ],
   "note": "Elliptical apertures (two negative numbers) always raise TypeError."
  },
  {
   "property": "C51",
   "status": "partial",
   "theorems": [
    "PyRayT.C51_baffle_partial",
    "PyRayT.C51_baffle_false",
    "PyRayT.C51_baffle_number",
    "PyRayT.C51_aperture_partial"
   ],
   "note": "baffle((y,z)) has extent z along Y and y along Z (witness theorem), right for squares. aperture is right except that nothing is said about rays exactly through a rim."
  },
  {
   "property": "C52",
   "status": "partial",
   "theorems": [
    "PyRayT.C52_plane_mirror_partial",
    "PyRayT.C52_flat_rectangle_false"
   ],
   "note": "A rectangular plane mirror of thickness 0 is invisible to rays along the axis."
  },
  {
   "property": "C53",
   "status": "partial",
   "theorems": [
    "PyRayT.C53_grid_partial",
    "PyRayT.C53_single_false",
    "PyRayT.C53_negative"
   ],
   "note": "Right for at least two rows and columns. With a single column or row the ray starts at the edge of the span, not in its middle (witness). A negative number of rows raises ValueError."
  },
  {
   "property": "C54",
   "status": "partial",
   "theorems": [
    "PyRayT.C54_exact_partial",
    "PyRayT.C54_objects_partial",
    "PyRayT.C54_behind_false",
    "PyRayT.C54_hides_false"
   ],
   "note": "The renderers look for the index among the positive hits but read the unmasked distance: an object that lies wholly behind the camera is shown, and hides what is in front. Exact condition: every object that has a hit has one in front of the camera."
  },
  {
   "property": "C55",
   "status": "proved",
   "theorems": [
    "PyRayT.C55_gooch",
    "PyRayT.C55_presets",
    "PyRayT.C55_presets_warm"
   ],
   "note": "For one light given as a vector that is not at the shaded point; several lights: C66."
  },
  {
   "property": "C56",
   "status": "proved",
   "theorems": [
    "PyRayT.C56_unique_ids"
   ],
   "note": ""
  },
  {
   "property": "C57",
   "status": "partial",
   "theorems": [
    "PyRayT.C57_once",
    "PyRayT.C57_step",
    "PyRayT.C57_twice_false"
   ],
   "note": "Holds when no surface id occurs twice; false for lists with a component listed twice (witness theorem)."
  },
  {
   "property": "C58",
   "status": "proved",
   "theorems": [
    "PyRayT.C58_materials",
    "PyRayT.C58_normals"
   ],
   "note": "Glass: for nonzero directions, unit normals and positive indices."
  },
  {
   "property": "C59",
   "status": "proved",
   "theorems": [
    "PyRayT.C59_fields",
    "PyRayT.C59_columns"
   ],
   "note": ""
  },
  {
   "property": "C60",
   "status": "proved",
   "theorems": [
    "PyRayT.C60_distance",
    "PyRayT.C60_order"
   ],
   "note": ""
  },
  {
   "property": "C61",
   "status": "partial",
   "theorems": [
    "PyRayT.C61_distances_partial",
    "PyRayT.C61_C72_band_false"
   ],
   "note": "All placements and primitives; rays inside the tolerance bands of C09/C10 excluded: there it is false (witness: a paraboloid and a unit ray tilted by 5e-5)."
  },
  {
   "property": "C62",
   "status": "proved",
   "theorems": [
    "PyRayT.C62_uniform",
    "PyRayT.C62_lamp"
   ],
   "note": "The pseudo-random generator itself is not modelled; the claim is about the map from draws to angles."
  },
  {
   "property": "C63",
   "status": "proved",
   "theorems": [
    "PyRayT.C63_trace_optics",
    "PyRayT.C63_indices"
   ],
   "note": "For surfaces occurring once among the components, unit normals at the hit point, positive indices; C74 shows that the normals of reported hits are unit vectors."
  },
  {
   "property": "C64",
   "status": "partial",
   "theorems": [
    "PyRayT.C64_boundary_partial",
    "PyRayT.C64_tidy_partial",
    "PyRayT.C64_crossing_partial",
    "PyRayT.C64_separated_false"
   ],
   "note": "Without these conditions it is false (witness: a union of separated parts). In the situation of C04: boxes as freshly built, unions of overlapping boxes, rays not in the tolerance bands."
  },
  {
   "property": "C65",
   "status": "partial",
   "theorems": [
    "PyRayT.C65_position_partial",
    "PyRayT.C65_position_false"
   ],
   "note": "The surfaces are at x=-t/2 and x=t/2, for every thickness t>0."
  },
  {
   "property": "C66",
   "status": "partial",
   "theorems": [
    "PyRayT.C66_count_false",
    "PyRayT.C66_column_false",
    "PyRayT.C66_three_false"
   ],
   "note": "Fails for every number of lights: ValueError unless there are 1 or 3 columns; with 1 and with 3 the axes of lights and positions are mixed up (witnesses)."
  },
  {
   "property": "C67",
   "status": "proved",
   "theorems": [
    "PyRayT.C67_outline"
   ],
   "note": "binary_dilation with the full 3x3 structure is modelled by its definition."
  },
  {
   "property": "C68",
   "status": "proved",
   "theorems": [
    "PyRayT.C68_shaded"
   ],
   "note": "Objects that share no surface. Which surface is recorded: C54."
  },
  {
   "property": "C69",
   "status": "partial",
   "theorems": [
    "PyRayT.C69_view_partial",
    "PyRayT.C69_below_false"
   ],
   "note": "Right if a bounding box reaches above z=0 (xy) or to y=0 (xz); below that the camera is placed inside or behind the objects (1.5 times a negative number) and the far side is shown (witnesses for both views). Conditions on the objects as in C72."
  },
  {
   "property": "C70",
   "status": "proved",
   "theorems": [
    "PyRayT.C70_grid",
    "PyRayT.C70_bounds"
   ],
   "note": "For positive spans (otherwise numpy divides by zero); positions for at least two rows and columns. imshow itself is not modelled; it puts pixel centres half a pixel inside the extent."
  },
  {
   "property": "C71",
   "status": "proved",
   "theorems": [
    "PyRayT.C71_render"
   ],
   "note": "EdgeRender.get_results() (raises AttributeError, _frame is never set) is not modelled."
  },
  {
   "property": "C72",
   "status": "partial",
   "theorems": [
    "PyRayT.C72_hits_in_box_partial",
    "PyRayT.C61_C72_band_false"
   ],
   "note": "False in the tolerance bands (witness: a paraboloid and a unit ray tilted by 5e-5). For tidy histories; unions and intersections of operands with overlapping boxes (C06 shows why), rays outside the tolerance bands, finite distances."
  },
  {
   "property": "C73",
   "status": "partial",
   "theorems": [
    "PyRayT.C73_light_partial",
    "PyRayT.C73_light_false"
   ],
   "note": "Exact conditions: max z > 0 (xy), min y > -3 max y (xz); witnesses otherwise."
  },
  {
   "property": "C74",
   "status": "proved",
   "theorems": [
    "PyRayT.C74_unit_normals",
    "PyRayT.C74_trace_optics",
    "PyRayT.C74_point_sphere"
   ],
   "note": "Radii and focal lengths not 0 (C74_point_sphere shows why)."
  },
  {
   "property": "C75",
   "status": "partial",
   "theorems": [
    "PyRayT.C75_surfaces_partial",
    "PyRayT.C75_composites_partial",
    "PyRayT.C75_sources",
    "PyRayT.C75_moving_each",
    "PyRayT.C75_separated_union_false"
   ],
   "note": "Exact for components that are single surfaces (all rays, any history). For composites: tidy histories, unions whose operands share interior points, rays outside the tolerance bands in both places that do not merely touch a composite. False for unions of separated parts: turning the bench makes a missed part visible."
  },
  {
   "property": "C76",
   "status": "proved",
   "theorems": [
    "PyRayT.C76_last_call_wins"
   ],
   "note": ""
  },
  {
   "property": "C77",
   "status": "partial",
   "theorems": [
    "PyRayT.C77_restore_partial",
    "PyRayT.C77_difference_false"
   ],
   "note": "False for surfaces of a subtracted operand: difference() inverts their normals, reset_normals() undoes that."
  },
  {
   "property": "C78",
   "status": "proved",
   "theorems": [
    "PyRayT.C78_values",
    "PyRayT.C78_normalize"
   ],
   "note": "Array classes as a memory with references; refinement to value semantics."
  },
  {
   "property": "C79",
   "status": "proved",
   "theorems": [
    "PyRayT.C79_point_in_shape"
   ],
   "note": ""
  },
  {
   "property": "C80",
   "status": "proved",
   "theorems": [
    "PyRayT.C80_overlap"
   ],
   "note": ""
  },
  {
   "property": "C81",
   "status": "proved",
   "theorems": [
    "PyRayT.C81_centred_cuboid"
   ],
   "note": "Rays whose direction components are zero or above the tolerance."
  },
  {
   "property": "C82",
   "status": "partial",
   "theorems": [
    "PyRayT.C82_abbe_partial",
    "PyRayT.C82_catalogue",
    "PyRayT.C82_edited_false",
    "PyRayT.C82_basic_false"
   ],
   "note": "False after coefficients are reassigned (cache) and for BasicRefractor (division by zero)."
  },
  {
   "property": "C83",
   "status": "partial",
   "theorems": [
    "PyRayT.C83_show_partial",
    "PyRayT.C83_changed_false"
   ],
   "note": "False if set_rays_per_source is called between tracing and showing."
  },
  {
   "property": "C84",
   "status": "partial",
   "theorems": [
    "PyRayT.C84_array_partial",
    "PyRayT.C84_scalar_false"
   ],
   "note": "False for a single number (IndexError), although documented."
  },
  {
   "property": "C85",
   "status": "partial",
   "theorems": [
    "PyRayT.C85_transforms",
    "PyRayT.C85_position_partial",
    "PyRayT.C85_position_false"
   ],
   "note": "Transforms: all programs. get_position/get_orientation return internal arrays: false after an in-place edit, until the next movement."
  },
  {
   "property": "C86",
   "status": "proved",
   "theorems": [
    "PyRayT.C86_perpendicular",
    "PyRayT.C86_window",
    "PyRayT.C86_cuboid",
    "PyRayT.C86_ball"
   ],
   "note": ""
  },
  {
   "property": "C87",
   "status": "proved",
   "theorems": [
    "PyRayT.C87_focus"
   ],
   "note": "Light from the focus: rays whose directions the tolerances do not misjudge."
  },
  {
   "property": "C88",
   "status": "proved",
   "theorems": [
    "PyRayT.C88_paraxial"
   ],
   "note": "For lenses whose thickness exceeds the ray offset 1e-6 and is less than the diameter of a convex side; the back focus must not lie in the back vertex (n r1 = (n-1) t)."
  },
  {
   "property": "C89",
   "status": "proved",
   "theorems": [
    "PyRayT.C89_endings",
    "PyRayT.C89_starts"
   ],
   "note": ""
  },
  {
   "property": "C90",
   "status": "proved",
   "theorems": [
    "PyRayT.C90_impulse",
    "PyRayT.C90_skew",
    "PyRayT.C90_meridional",
    "PyRayT.C90_components",
    "PyRayT.round_prim",
    "PyRayT.round_sphere",
    "PyRayT.Spec.RoundAbout.moved"
   ],
   "note": ""
  },
  {
   "property": "C91",
   "status": "proved",
   "theorems": [
    "PyRayT.C91_spherical",
    "PyRayT.mirrorFocus_near"
   ],
   "note": ""
  },
  {
   "property": "C92",
   "status": "proved",
   "theorems": [
    "PyRayT.C92_prism",
    "PyRayT.C92_faces"
   ],
   "note": ""
  },
  {
   "property": "C93",
   "status": "proved",
   "theorems": [
    "PyRayT.C93_limit"
   ],
   "note": ""
  },
  {
   "property": "C94",
   "status": "proved",
   "theorems": [
    "PyRayT.C94_unreached"
   ],
   "note": ""
  },
  {
   "property": "C95",
   "status": "partial",
   "theorems": [
    "PyRayT.C95_bare_partial",
    "PyRayT.C95_scene_partial",
    "PyRayT.C95_exact",
    "PyRayT.C95_any_material",
    "PyRayT.C95_still",
    "PyRayT.C95_dead_ray_false"
   ],
   "note": "Fails when a single paraboloid without optical material is a component: a ray absorbed inside it, which has direction zero, is still reported to hit it, and trace() raises (C95_dead_ray_false). Proved for systems in which no component is a single paraboloid (composites with paraboloids are allowed), and exactly for all systems in terms of rays dead or alive (C95_exact)."
  },
  {
   "property": "C96",
   "status": "proved",
   "theorems": [
    "PyRayT.C96_routes",
    "PyRayT.C96_edits"
   ],
   "note": ""
  },
  {
   "property": "C97",
   "status": "partial",
   "theorems": [
    "PyRayT.C97_remove_partial",
    "PyRayT.C97_remove_exact",
    "PyRayT.C97_laws",
    "PyRayT.C97_places",
    "PyRayT.C97_remove_false"
   ],
   "note": "False when m is a group: groups compare by their members, so remove takes out the first group with equal members, which may be another one (C97_remove_false). Proved for members that are not groups, with the exact rule for all members (C97_remove_exact); the list laws hold for all."
  },
  {
   "property": "C98",
   "status": "proved",
   "theorems": [
    "PyRayT.C98_retraces",
    "PyRayT.C98_twoWay",
    "PyRayT.C98_scene",
    "PyRayT.C98_there"
   ],
   "note": "C98_retraces is for any components in terms of what they report; C98_twoWay and C98_scene discharge the two-way condition for all objects of any history. The conditions of the statement are those of Spec.Crossing; C98_there shows that the crossed surface is reported from the far side whenever the next row is not tangent to it at a smooth point."
  },
  {
   "property": "C99",
   "status": "proved",
   "theorems": [
    "PyRayT.C99_any_side",
    "PyRayT.C99_not_tangent"
   ],
   "note": "C99_any_side is for rays that go through the surface, any history with up-to-date boxes; C99_not_tangent is for rays not tangent to a smooth point, histories in which parts are not moved after being combined (there the boxes are up to date)."
  }
 ]
}