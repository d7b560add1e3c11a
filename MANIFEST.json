{
 "claims": [
  {
   "property": "C01",
   "status": "proved",
   "theorems": [
    "Batoid.Props.C01_local_global_roundtrip"
   ],
   "note": "Induction over arbitrary histories of shifts and rotations, exact arithmetic."
  },
  {
   "property": "C02",
   "status": "proved",
   "theorems": [
    "Batoid.Props.C02_frames_stay_rotations",
    "Batoid.Props.C02_angle_constructors"
   ],
   "note": "Invariant over histories; axes form a right-handed orthonormal basis."
  },
  {
   "property": "C03",
   "status": "proved",
   "theorems": [
    "Batoid.Props.C03_shiftGlobal",
    "Batoid.Props.C03_shiftLocal",
    "Batoid.Props.C03_shiftLocal_origin"
   ],
   "note": ""
  },
  {
   "property": "C04",
   "status": "proved",
   "theorems": [
    "Batoid.Props.C04_rotateGlobal_moves",
    "Batoid.Props.C04_rotateLocal_moves",
    "Batoid.Props.C04_rotations_rigid",
    "Batoid.Props.C04_centre_fixed",
    "Batoid.Props.C04_rotate_back",
    "Batoid.Props.C04_rotateLocal_default_origin"
   ],
   "note": ""
  },
  {
   "property": "C05",
   "status": "proved",
   "theorems": [
    "Batoid.Props.C05_forward_reverse",
    "Batoid.Props.C05_path_independent",
    "Batoid.Props.C05_chain",
    "Batoid.Props.C05_velocity"
   ],
   "note": ""
  },
  {
   "property": "C06",
   "status": "proved",
   "theorems": [
    "Batoid.Props.C06_isometry",
    "Batoid.Props.C06_only_position_velocity"
   ],
   "note": ""
  },
  {
   "property": "C07",
   "status": "proved",
   "theorems": [
    "Batoid.Props.C07_toCoordSys_physical",
    "Batoid.Props.C07_apply"
   ],
   "note": "For finite positions and velocities."
  },
  {
   "property": "C08",
   "status": "proved",
   "theorems": [
    "Batoid.Props.C08_law_of_reflection",
    "Batoid.Props.C08_reversible"
   ],
   "note": "Exact arithmetic; any surface, for rays that hit it at a finite time."
  },
  {
   "property": "C09",
   "status": "proved",
   "theorems": [
    "Batoid.Props.C09_snell"
   ],
   "note": "Exact arithmetic."
  },
  {
   "property": "C10",
   "status": "proved",
   "theorems": [
    "Batoid.Props.C10_speed",
    "Batoid.Props.C10_reversible",
    "Batoid.Props.C10_equal_index"
   ],
   "note": "Exact arithmetic."
  },
  {
   "property": "C11",
   "status": "proved",
   "theorems": [
    "Batoid.Props.C11_along_line",
    "Batoid.Props.C11_intersect_keeps_velocity",
    "Batoid.Props.C11_along_line_screen"
   ],
   "note": "Exact arithmetic; every kernel that intersects."
  },
  {
   "property": "C12",
   "status": "proved",
   "theorems": [
    "Batoid.Props.C12_failed_untouched",
    "Batoid.Props.C12_flags_monotone"
   ],
   "note": "Any floating point arithmetic, any history of operations."
  },
  {
   "property": "C13",
   "status": "proved",
   "theorems": [
    "Batoid.Props.C13_failed_vignetted",
    "Batoid.Props.C13_new_failures_vignetted"
   ],
   "note": "Any floating point arithmetic."
  },
  {
   "property": "C14",
   "status": "partial",
   "theorems": [
    "Batoid.Props.C14_failed_ray_frame_violated",
    "Batoid.Props.C14_live_rays_partial"
   ],
   "note": "Holds for live rays; the code violates it for failed rays, which keep old-frame coordinates."
  },
  {
   "property": "C15",
   "status": "proved",
   "theorems": [
    "Batoid.Props.C15_refracted_is_refract",
    "Batoid.Props.C15_miss_fails_both",
    "Batoid.Props.C15_reflected_position",
    "Batoid.Props.C15_reflected_velocity",
    "Batoid.Props.C15_flux",
    "Batoid.Props.C15_flux_conserved"
   ],
   "note": ""
  },
  {
   "property": "C16",
   "status": "proved",
   "theorems": [
    "Batoid.Props.C16_any_schedule",
    "Batoid.Props.C16_any_schedule_split",
    "Batoid.Props.C16_schedule_implements_operation",
    "Batoid.Props.C16_batch_is_single_rays",
    "Batoid.Props.C16_batch_append"
   ],
   "note": "Any interleaving of loads and stores of the loop iterations, any arithmetic; sequentially consistent memory."
  },
  {
   "property": "C17",
   "status": "proved",
   "theorems": [
    "Batoid.Props.C17_obscure",
    "Batoid.Props.C17_obscure_idem_comm",
    "Batoid.Props.C17_obscure_list"
   ],
   "note": "Any floating point arithmetic."
  },
  {
   "property": "C18",
   "status": "proved",
   "theorems": [
    "Batoid.Props.C18_trace_frame_and_order",
    "Batoid.Props.C18_physics"
   ],
   "note": "OPDScreen physics is C19."
  },
  {
   "property": "C19",
   "status": "proved",
   "theorems": [
    "Batoid.Props.C19_refractScreen",
    "Batoid.Props.C19_zero_screen",
    "Batoid.Props.C19_over_bent_ray_stays_live_violated"
   ],
   "note": "The law is proved whenever the bent direction exists; over-bent rays stay live with NaN velocity (recorded disagreement)."
  },
  {
   "property": "C20",
   "status": "proved",
   "theorems": [
    "Batoid.Props.C20_plane",
    "Batoid.Props.C20_tilted",
    "Batoid.Props.C20_paraboloid",
    "Batoid.Props.C20_sphere",
    "Batoid.Props.C20_quadric",
    "Batoid.Props.C20_sphere_near_cap",
    "Batoid.Props.C20_sphere_near_cap_violated",
    "Batoid.Props.C20_quadric_near_sheet",
    "Batoid.Props.C20_quadric_near_sheet_violated"
   ],
   "note": "Exact arithmetic. Beyond the statement: on which sheet the point lies, with the two cases where the code picks the wrong sheet."
  },
  {
   "property": "C21",
   "status": "partial",
   "theorems": [
    "Batoid.Props.C21_paraboloid",
    "Batoid.Props.C21_sphere",
    "Batoid.Props.C21_quadric",
    "Batoid.Props.C21_plane",
    "Batoid.Props.C21_tilted",
    "Batoid.Props.C21_ray_inside_plane_violated"
   ],
   "note": "Paraboloid, Sphere and Quadric in full; Plane and Tilted except rays lying inside the plane, for which the code contradicts the statement."
  },
  {
   "property": "C22",
   "status": "partial",
   "theorems": [
    "Batoid.Props.C22_plane",
    "Batoid.Props.C22_paraboloid",
    "Batoid.Props.C22_sphere",
    "Batoid.Props.C22_quadric",
    "Batoid.Props.C22_asphere",
    "Batoid.Props.C22_bicubic",
    "Batoid.Props.C22_tilted_violated",
    "Batoid.Props.C22_tilted_flat",
    "Batoid.Props.C22_grad",
    "Batoid.Props.C22_grad_nan"
   ],
   "note": "All surface types except Tilted, whose normal is unit but not perpendicular (C22_tilted_violated); polynomial/Zernike surfaces via C25_normal, sums via C28_normal."
  },
  {
   "property": "C23",
   "status": "proved",
   "theorems": [
    "Batoid.Props.C23_residual",
    "Batoid.Props.C23_residual_real",
    "Batoid.Props.C23_planar_one_step",
    "Batoid.Props.C23_fixed_points"
   ],
   "note": ""
  },
  {
   "property": "C24",
   "status": "proved",
   "theorems": [
    "Batoid.Props.C24_sag",
    "Batoid.Props.C24_imin",
    "Batoid.Props.C24_zero_coefs",
    "Batoid.Props.C24_zero_coefs_time",
    "Batoid.Props.C24_object"
   ],
   "note": "Slope of the asphere is C22_asphere."
  },
  {
   "property": "C25",
   "status": "proved",
   "theorems": [
    "Batoid.Props.C25_sag",
    "Batoid.Props.C25_no_term_lost",
    "Batoid.Props.C25_normal",
    "Batoid.Props.C25_zernike",
    "Batoid.Props.C25_lost_term_matters"
   ],
   "note": "Coefficient arrays are square and triangular, as galsim produces them; a non-square array would be read transposed."
  },
  {
   "property": "C26",
   "status": "partial",
   "theorems": [
    "Batoid.Props.C26_finite_inside",
    "Batoid.Props.C26_nodes_partial",
    "Batoid.Props.C26_cross_derivative",
    "Batoid.Props.C26_smooth",
    "Batoid.Props.C26_gradient",
    "Batoid.Props.C26_outside",
    "Batoid.Props.C26_last_node_violated"
   ],
   "note": "Nodes on the upper edges (last row, last column) are reported as outside the grid: C26_last_node_violated. Everything else holds on the half-open rectangle."
  },
  {
   "property": "C27",
   "status": "proved",
   "theorems": [
    "Batoid.Props.C27_bilinear",
    "Batoid.Props.C27_affine"
   ],
   "note": "Proved for all bilinear functions; inside the half-open rectangle of C26."
  },
  {
   "property": "C28",
   "status": "proved",
   "theorems": [
    "Batoid.Props.C28_order",
    "Batoid.Props.C28_sag",
    "Batoid.Props.C28_grouping_sag",
    "Batoid.Props.C28_normal",
    "Batoid.Props.C28_grouping_normal",
    "Batoid.Props.C28_single",
    "Batoid.Props.C28_intersection"
   ],
   "note": ""
  },
  {
   "property": "C29",
   "status": "proved",
   "theorems": [
    "Batoid.Props.C29_sphere",
    "Batoid.Props.C29_paraboloid",
    "Batoid.Props.C29_conic_equation"
   ],
   "note": ""
  },
  {
   "property": "C30",
   "status": "partial",
   "theorems": [
    "Batoid.Props.C30_plane",
    "Batoid.Props.C30_tilted",
    "Batoid.Props.C30_newton",
    "Batoid.Props.C30_newton_surfaces",
    "Batoid.Props.C30_sphere_exact",
    "Batoid.Props.C30_paraboloid_exact",
    "Batoid.Props.C30_quadric_partial",
    "Batoid.Props.C30_sphere_violated",
    "Batoid.Props.C30_paraboloid_violated",
    "Batoid.Props.C30_quadric_violated",
    "Batoid.Props.C30_quadric_parabolic_violated"
   ],
   "note": "Exact characterisation for Sphere and Paraboloid; the code violates the statement for rays starting on these surfaces and for every ray on a Quadric with conic -1."
  },
  {
   "property": "C31",
   "status": "partial",
   "theorems": [
    "Batoid.Props.C31_interpolates",
    "Batoid.Props.C31_tabulated_partial",
    "Batoid.Props.C31_between",
    "Batoid.Props.C31_reads_inside",
    "Batoid.Props.C31_out_of_range",
    "Batoid.Props.C31_last_wavelength_violated"
   ],
   "note": "Interpolation, exactness at tabulated wavelengths and NaN outside are proved for every table; the statement fails at the last tabulated wavelength, where the code reads one entry past the table (C31_last_wavelength_violated)."
  },
  {
   "property": "C32",
   "status": "proved",
   "theorems": [
    "Batoid.Props.C32_sellmeier",
    "Batoid.Props.C32_sumita",
    "Batoid.Props.C32_air",
    "Batoid.Props.C32_vacuum"
   ],
   "note": "Formulas stated against independent definitions in micrometres; reals without rounding."
  },
  {
   "property": "C33",
   "status": "proved",
   "theorems": [
    "Batoid.Props.C33_union",
    "Batoid.Props.C33_intersection",
    "Batoid.Props.C33_negation",
    "Batoid.Props.C33_not_union",
    "Batoid.Props.C33_not_intersection",
    "Batoid.Props.C33_double_negation",
    "Batoid.Props.C33_order",
    "Batoid.Props.C33_nested",
    "Batoid.Props.C33_deep",
    "Batoid.Props.C33_constructors",
    "Batoid.Props.C33_obscure_union"
   ],
   "note": "By structural induction over obscuration trees, for every arithmetic."
  },
  {
   "property": "C34",
   "status": "proved",
   "theorems": [
    "Batoid.Props.C34_circle",
    "Batoid.Props.C34_annulus",
    "Batoid.Props.C34_partition",
    "Batoid.Props.C34_distance_only",
    "Batoid.Props.C34_rotation",
    "Batoid.Props.C34_translation",
    "Batoid.Props.C34_doc_example"
   ],
   "note": "Exact reals."
  },
  {
   "property": "C35",
   "status": "proved",
   "theorems": [
    "Batoid.Props.C35_crossing_number",
    "Batoid.Props.C35_start_vertex",
    "Batoid.Props.C35_orientation",
    "Batoid.Props.C35_translation",
    "Batoid.Props.C35_convex_inside",
    "Batoid.Props.C35_convex_outside",
    "Batoid.Props.C35_convex_clockwise"
   ],
   "note": "contains is the crossing number rule for every vertex list; for strictly convex polygons it is the interior/exterior."
  },
  {
   "property": "C36",
   "status": "partial",
   "theorems": [
    "Batoid.Props.C36_grid_partial",
    "Batoid.Props.C36_closing_edge_violated",
    "Batoid.Props.C36_stride_violated",
    "Batoid.Props.C36_coarse_grid_violated"
   ],
   "note": "The statement is false in three independent ways (closing edge omitted, stride ny instead of nx, one intercept per grid step); equality is proved for closed vertex lists, square increasing grids that step over at most one crossing."
  },
  {
   "property": "C37",
   "status": "proved",
   "theorems": [
    "Batoid.Props.C37_rectangle",
    "Batoid.Props.C37_ray",
    "Batoid.Props.C37_turn",
    "Batoid.Props.C37_translation",
    "Batoid.Props.C37_quarter_turn"
   ],
   "note": "Exact reals; the rotation angle enters through its sine and cosine."
  },
  {
   "property": "C38",
   "status": "proved",
   "theorems": [
    "Batoid.Props.C38_straight_line",
    "Batoid.Props.C38_keeps_the_rest",
    "Batoid.Props.C38_last_target_counts",
    "Batoid.Props.C38_invertible"
   ],
   "note": "Exact reals; histories of propagations by induction."
  },
  {
   "property": "C39",
   "status": "proved",
   "theorems": [
    "Batoid.Props.C39_order",
    "Batoid.Props.C39_concatenation",
    "Batoid.Props.C39_ignored_rays",
    "Batoid.Props.C39_sum"
   ],
   "note": "Order and concatenation on ideal doubles including NaN and infinities; ignored rays for every arithmetic; the value is the complex sum of plane waves."
  },
  {
   "property": "C40",
   "status": "proved",
   "theorems": [
    "Batoid.Props.C40_zero_on_wavefront",
    "Batoid.Props.C40_plane_wave",
    "Batoid.Props.C40_propagation_invariant",
    "Batoid.Props.C40_period",
    "Batoid.Props.C40_wave_vector"
   ],
   "note": "Exact reals, rays with nonzero velocity and wavelength."
  },
  {
   "property": "C41",
   "status": "partial",
   "theorems": [
    "Batoid.Props.C41_index_partial",
    "Batoid.Props.C41_out_of_range",
    "Batoid.Props.C41_negative_index",
    "Batoid.Props.C41_last_ray",
    "Batoid.Props.C41_negative_index_violated",
    "Batoid.Props.C41_slice",
    "Batoid.Props.C41_reverse",
    "Batoid.Props.C41_mask",
    "Batoid.Props.C41_fancy",
    "Batoid.Props.C41_concatenate_partial",
    "Batoid.Props.C41_concatenate_empty",
    "Batoid.Props.C41_concatenate_frames_violated"
   ],
   "note": "Nonnegative indices, -1, slices, masks and integer arrays select the documented rays; rv[-k] returns the last k rays and concatenation drops all frames but the first, so the full statement is false."
  },
  {
   "property": "C42",
   "status": "partial",
   "theorems": [
    "Batoid.Props.C42_spacing_partial",
    "Batoid.Props.C42_length",
    "Batoid.Props.C42_pupil",
    "Batoid.Props.C42_odd_extent",
    "Batoid.Props.C42_even_extent",
    "Batoid.Props.C42_inferred",
    "Batoid.Props.C42_even_ratio_partial",
    "Batoid.Props.C42_two_rays_violated",
    "Batoid.Props.C42_adjusted_violated",
    "Batoid.Props.C42_exactly_two",
    "Batoid.Props.C42_exactly_two_error"
   ],
   "note": "Spacing, extent and row order hold for the parameter combinations where the code keeps what the caller asked for; nx = 2 with a spacing gives a side of length zero, and a side with a non-dividing spacing changes the spacing (both proved as violations)."
  },
  {
   "property": "C43",
   "status": "partial",
   "theorems": [
    "Batoid.Props.C43_fromStop_partial",
    "Batoid.Props.C43_asPolar_partial",
    "Batoid.Props.C43_forward",
    "Batoid.Props.C43_distance_partial",
    "Batoid.Props.C43_distance_violated",
    "Batoid.Props.C43_source_violated",
    "Batoid.Props.C43_degenerate",
    "Batoid.Props.C43_fromFieldAngles",
    "Batoid.Props.C43_random_partial",
    "Batoid.Props.C43_polar_pupil_partial"
   ],
   "note": "The launched rays form one plane wave through the requested stop points; the launch distance is measured from the origin of the ray frame, not from the stop vertex, a point source makes the constructors return None, and a direction along x gives NaN."
  },
  {
   "property": "C44",
   "status": "partial",
   "theorems": [
    "Batoid.Props.C44_transposed",
    "Batoid.Props.C44_symmetric_partial",
    "Batoid.Props.C44_vectors_violated",
    "Batoid.Props.C44_default_violated",
    "Batoid.Props.C44_sides_violated"
   ],
   "note": "Vector spacings are applied transposed; they agree with the request exactly for symmetric pairs of vectors, and the defaulted second vector makes every grid degenerate."
  },
  {
   "property": "C45",
   "status": "partial",
   "theorems": [
    "Batoid.Props.C45_uniform_partial",
    "Batoid.Props.C45_layout",
    "Batoid.Props.C45_quadrature_partial",
    "Batoid.Props.C45_rings_violated"
   ],
   "note": "Azimuth and ring layout of asSpokes for integer counts; array rings with an integer number of spokes give a single azimuth (violation)."
  },
  {
   "property": "C46",
   "status": "partial",
   "theorems": [
    "Batoid.Props.C46_init",
    "Batoid.Props.C46_init_values",
    "Batoid.Props.C46_asGrid_partial",
    "Batoid.Props.C46_asPolar_partial",
    "Batoid.Props.C46_fromStop_partial",
    "Batoid.Props.C46_fieldAngles_partial",
    "Batoid.Props.C46_fromStop_refines",
    "Batoid.Props.C46_asGrid_refines",
    "Batoid.Props.C46_asPolar_refines",
    "Batoid.Props.C46_fromStop_shared_violated",
    "Batoid.Props.C46_fromStop_modified_violated",
    "Batoid.Props.C46_flux_violated",
    "Batoid.Props.C46_fieldAngles_violated"
   ],
   "note": "RayVector(...) copies everything; asGrid/asPolar copy all but an array flux; fromStop takes over arrays of doubles passed as x, y, flux and changes them (proved violated); fromFieldAngles divides the caller arrays with the orthographic projection (proved violated). asSpokes is not in the array model."
  },
  {
   "property": "C47",
   "status": "partial",
   "theorems": [
    "Batoid.Props.C47_equality_partial",
    "Batoid.Props.C47_frame_ignored_violated",
    "Batoid.Props.C47_length_ignored_violated"
   ],
   "note": "Proved for ray vectors of one length in one frame; == ignores frames and compares only as many rays as the left operand has."
  },
  {
   "property": "C48",
   "status": "partial",
   "theorems": [
    "Batoid.Props.C48_lookup_partial",
    "Batoid.Props.C48_ambiguous_raises",
    "Batoid.Props.C48_same_name_siblings_violated"
   ],
   "note": "Full characterisation of optic[key] (ok exactly for full dotted paths and unambiguous suffixes, ValueError otherwise) for every tree whose names contain no dot and whose siblings have distinct names. With two same-named items of one compound the lookup silently returns the last one: violation proved."
  },
  {
   "property": "C49",
   "status": "partial",
   "theorems": [
    "Batoid.Props.C49_withGloballyShiftedOptic_partial",
    "Batoid.Props.C49_withLocallyShiftedOptic_partial",
    "Batoid.Props.C49_withLocallyRotatedOptic_partial",
    "Batoid.Props.C49_stop_of_rotated_interface_violated"
   ],
   "note": "For every tree with dot-free, sibling-distinct and not prefix-related names that satisfies the constructors' assertions: exactly the optic returned by o[key] and its descendants move by one rigid motion, everything else is identical (skip and coatings: C55, C56). False for an interface whose stop surface has another orientation (violation proved) and for prefix-related siblings (C50)."
  },
  {
   "property": "C50",
   "status": "partial",
   "theorems": [
    "Batoid.Props.C50_withSurface_partial",
    "Batoid.Props.C50_prefix_sibling_violated",
    "Batoid.Props.C50_prefix_sibling_wrong_optic_violated",
    "Batoid.Props.C50_reached_partial",
    "Batoid.Props.C50_unreached_violated"
   ],
   "note": "The optic edited is the one returned by o[key] when no sibling name is a prefix of a later one (also C49_*). Prefix-related siblings: an exception is raised, or (nested homonym) the wrong optic is silently moved; both violations proved."
  },
  {
   "property": "C51",
   "status": "partial",
   "theorems": [
    "Batoid.Props.C51_traceFull_partial",
    "Batoid.Props.C51_same_name_violated",
    "Batoid.Props.C51_same_name_nested_violated"
   ],
   "note": "Holds when the visited interfaces have distinct names; false otherwise (dictionary keyed by name)."
  },
  {
   "property": "C52",
   "status": "proved",
   "theorems": [
    "Batoid.Props.C52_reverse_order",
    "Batoid.Props.C52_final_frame"
   ],
   "note": ""
  },
  {
   "property": "C53",
   "status": "proved",
   "theorems": [
    "Batoid.Props.C53_moved_tree",
    "Batoid.Props.C53_shift",
    "Batoid.Props.C53_rotation",
    "Batoid.Props.C53_skipped_violated"
   ],
   "note": "All trees, rays (in any frame), rigid motions, both directions. For the with* methods the tree must have no skipped items because copies lose skip (C53_skipped_violated, see C55)."
  },
  {
   "property": "C54",
   "status": "proved",
   "theorems": [
    "Batoid.Props.C54_returned_rays",
    "Batoid.Props.C54_flux_not_created",
    "Batoid.Props.C54_traceSplit_ends",
    "Batoid.Props.C54_failed_ray_loops_violated"
   ],
   "note": "Rays with finite non-negative flux whose failed members are vignetted (an invariant of every operation, C16). For user-made rays that are failed but not vignetted the loop is proved not to terminate."
  },
  {
   "property": "C55",
   "status": "partial",
   "theorems": [
    "Batoid.Props.C55_trace_transparent",
    "Batoid.Props.C55_traceFull_transparent",
    "Batoid.Props.C55_traceSplit_skip_violated",
    "Batoid.Props.C55_constructor_ignores_skip_violated",
    "Batoid.Props.C55_copies_lose_skip_violated",
    "Batoid.Props.C55_shift_unskips_violated",
    "Batoid.Props.C55_own_skip_violated"
   ],
   "note": "skip set by attribute is transparent to trace and traceFull; the constructor argument is ignored, copies lose it and traceSplit raises TypeError."
  },
  {
   "property": "C56",
   "status": "partial",
   "theorems": [
    "Batoid.Props.C56_copies_keep_coatings_partial",
    "Batoid.Props.C56_copies_drop_coatings_violated",
    "Batoid.Props.C56_half_mirror_violated",
    "Batoid.Props.C56_coating_used_partial",
    "Batoid.Props.C56_coating_swapped_violated",
    "Batoid.Props.C56_forward_flux_violated"
   ],
   "note": "The property is false of the code in both halves, proved for every non-empty history of copies and every refractive interface. What holds: factory coatings survive every history, screens and plain interfaces keep theirs, detectors use the forward coating."
  },
  {
   "property": "C57",
   "status": "partial",
   "theorems": [
    "Batoid.Props.C57_path_follows_walk_partial",
    "Batoid.Props.C57_nominal_path_partial",
    "Batoid.Props.C57_turn_reflects",
    "Batoid.Props.C57_traceFull_path",
    "Batoid.Props.C57_single_interface_violated"
   ],
   "note": "Every walk of at least two steps (any ghost path between neighbouring interfaces, starting at the first one) is followed exactly; the nominal path equals the plain trace for telescopes of two or more interfaces, and is proved to differ for a telescope of one. Paths that jump over interfaces are excluded: the direction bookkeeping is only meaningful for neighbouring steps."
  },
  {
   "property": "C58",
   "status": "partial",
   "theorems": [
    "Batoid.Props.C58_withInsertedOptic_partial",
    "Batoid.Props.C58_withRemovedOptic_partial",
    "Batoid.Props.C58_insert_then_remove_partial",
    "Batoid.Props.C58_nested_target_violated",
    "Batoid.Props.C58_nested_target_example_violated",
    "Batoid.Props.C58_ambiguous_short_name_violated",
    "Batoid.Props.C58_lens_removal_raises",
    "Batoid.Props.C50_withSurface_partial"
   ],
   "note": "withSurface replaces exactly the named surface at any depth; insert/remove edit exactly the named item of the compound and undo each other when short names of items are unambiguous. Nested targets are silently not edited and ambiguous short names of bystanders raise KeyError: violations proved."
  },
  {
   "property": "C59",
   "status": "proved",
   "theorems": [
    "Batoid.Props.C59_there_and_back",
    "Batoid.Props.C59_back_and_there",
    "Batoid.Props.C59_centre",
    "Batoid.Props.C59_unknown",
    "Batoid.Props.C59_lambert_edge"
   ],
   "note": "Exact arithmetic; each projection on its natural domain (open disc for Postel and Lambert). Unit vectors follow the textbook law of each projection; the edge of the Lambert field is shown to be outside."
  },
  {
   "property": "C60",
   "status": "proved",
   "theorems": [
    "Batoid.Props.C60_polar",
    "Batoid.Props.C60_cartesian",
    "Batoid.Props.C60_rings",
    "Batoid.Props.C60_sizes",
    "Batoid.Props.C60_symmetry",
    "Batoid.Props.C60_no_rings"
   ],
   "note": "All parameters with outer > 0, inner >= 0, kfold > 0; numpy linspace modelled."
  },
  {
   "property": "C61",
   "status": "proved",
   "theorems": [
    "Batoid.Props.C61_coords",
    "Batoid.Props.C61_size",
    "Batoid.Props.C61_origin",
    "Batoid.Props.C61_rejected",
    "Batoid.Props.C61_no_dimensions"
   ],
   "note": "Any dimension, shape and vectors."
  },
  {
   "property": "C62",
   "status": "proved",
   "theorems": [
    "Batoid.Props.C62_tree",
    "Batoid.Props.C62_motion",
    "Batoid.Props.C62_nested"
   ],
   "note": "Frames in parsed trees; constructors called through eval are parameters."
  },
  {
   "property": "C63",
   "status": "partial",
   "theorems": [
    "Batoid.Props.C63_in_partial",
    "Batoid.Props.C63_out_partial",
    "Batoid.Props.C63_top_partial",
    "Batoid.Props.C63_lens",
    "Batoid.Props.C63_vacuum",
    "Batoid.Props.C63_interface_violated"
   ],
   "note": "False for plain Interface dictionaries, which ignore their media; proved for all other types. inMedium: null is not modelled."
  },
  {
   "property": "C64",
   "status": "partial",
   "theorems": [
    "Batoid.Props.C64_host_build",
    "Batoid.Props.C64_device_partial",
    "Batoid.Props.C64_split_all_hit",
    "Batoid.Props.C64_wavelength_violated",
    "Batoid.Props.C64_split_violated"
   ],
   "note": "Proved for every history of a build without a device. With a device it is false after an assignment to rv.wavelength and for the reflected half of a split with missing rays; proved for all other histories. Arrays kept from earlier accesses are not modelled."
  },
  {
   "property": "C65",
   "status": "proved",
   "theorems": [
    "Batoid.Props.C65_closest",
    "Batoid.Props.C65_parallel",
    "Batoid.Props.C65_exitPupil",
    "Batoid.Props.C65_exitPupil_common",
    "Batoid.Props.C65_exitPupil_parallel"
   ],
   "note": "points nearest to the axis, mean of them, and the point itself when all traced lines share a point of the axis"
  },
  {
   "property": "C66",
   "status": "partial",
   "theorems": [
    "Batoid.Props.C66_exact",
    "Batoid.Props.C66_partial",
    "Batoid.Props.C66_violated"
   ],
   "note": "holds exactly for axis aligned lattices; the code lacks minus signs"
  },
  {
   "property": "C67",
   "status": "partial",
   "theorems": [
    "Batoid.Props.C67_even_partial",
    "Batoid.Props.C67_odd_violated"
   ],
   "note": "holds for even nx; every odd nx raises IndexError"
  },
  {
   "property": "C68",
   "status": "partial",
   "theorems": [
    "Batoid.Props.C68_medium",
    "Batoid.Props.C68_coating",
    "Batoid.Props.C68_coordSys",
    "Batoid.Props.C68_transform",
    "Batoid.Props.C68_lattice",
    "Batoid.Props.C68_surface_partial",
    "Batoid.Props.C68_obscuration_partial",
    "Batoid.Props.C68_optic_partial",
    "Batoid.Props.C68_bicubic_violated",
    "Batoid.Props.C68_polygon_violated"
   ],
   "note": "False for Bicubic whose nanpolicy differs in case and for ObscPolygon compared through broadcasting (both shown). Proved in any arithmetic and for any hash respecting equality of numbers, for all other objects: documented nanpolicy spelling, polygons of two or more vertices."
  },
  {
   "property": "C69",
   "status": "proved",
   "theorems": [
    "Batoid.Props.C69_flux_unchanged_without_coating",
    "Batoid.Props.C69_flux_bounds",
    "Batoid.Props.C69_no_mixing"
   ],
   "note": ""
  },
  {
   "property": "C70",
   "status": "partial",
   "theorems": [
    "Batoid.Props.C70_optics",
    "Batoid.Props.C70_lookup",
    "Batoid.Props.C70_copies",
    "Batoid.Props.C70_edits",
    "Batoid.Props.C70_insert",
    "Batoid.Props.C70_lookup_in_copy",
    "Batoid.Props.C70_radii_partial",
    "Batoid.Props.C70_radii_violated"
   ],
   "note": "Proved over all histories of method calls (lookups, copies, edits, clearObscuration) on a memory of objects with caches, by refinement to optics as values. Radii hold in histories without clearObscuration only: after it R_inner, inRadius and outRadius keep the old values (violated)."
  },
  {
   "property": "C71",
   "status": "partial",
   "theorems": [
    "Batoid.Props.C71_methods",
    "Batoid.Props.C71_clear",
    "Batoid.Props.C71_copies_partial",
    "Batoid.Props.C71_shared_violated"
   ],
   "note": "No method but clearObscuration changes an existing optic; full copies are independent of everything older for ever after. Copies made by methods that change a named part share the other parts, so clearing one clears the other (violated)."
  },
  {
   "property": "C72",
   "status": "proved",
   "theorems": [
    "Batoid.Props.C72_optical_path",
    "Batoid.Props.C72_path_connected",
    "Batoid.Props.C72_time_origin"
   ],
   "note": ""
  },
  {
   "property": "C73",
   "status": "proved",
   "theorems": [
    "Batoid.Props.C73_cleared",
    "Batoid.Props.C73_idempotent",
    "Batoid.Props.C73_only_vignetting",
    "Batoid.Props.C73_all_clear"
   ],
   "note": ""
  },
  {
   "property": "C74",
   "status": "proved",
   "theorems": [
    "Batoid.Props.C74_chief",
    "Batoid.Props.C74_reference"
   ],
   "note": "for every grid size; reference point is the traced position of that ray alone"
  },
  {
   "property": "C75",
   "status": "partial",
   "theorems": [
    "Batoid.Props.C75_wavefront",
    "Batoid.Props.C75_perfect",
    "Batoid.Props.C75_small_violated",
    "Batoid.Props.C75_newtonian"
   ],
   "note": "holds for nx > 2 and rays inside the sphere; nx = 1 and nx = 2 never give a result (division by zero in the lattice step)"
  },
  {
   "property": "C76",
   "status": "proved",
   "theorems": [
    "Batoid.Props.C76_spot",
    "Batoid.Props.C76_count",
    "Batoid.Props.C76_mean",
    "Batoid.Props.C76_chief",
    "Batoid.Props.C76_newtonian"
   ],
   "note": "Numpy's mean is taken as sum over count in exact reals."
  },
  {
   "property": "C77",
   "status": "proved",
   "theorems": [
    "Batoid.Props.C77_intensity",
    "Batoid.Props.C77_time",
    "Batoid.Props.C77_bound",
    "Batoid.Props.C77_peak",
    "Batoid.Props.C77_psf",
    "Batoid.Props.C77_centre",
    "Batoid.Props.C77_newtonian"
   ],
   "note": "dx given (number or vectors). The waves are summed at z=0 of the last frame, which is the reference point only if that lies at z=0 (C77_centre)."
  },
  {
   "property": "C78",
   "status": "proved",
   "theorems": [
    "Batoid.Props.C78_conic",
    "Batoid.Props.C78_sphere",
    "Batoid.Props.C78_collimate",
    "Batoid.Props.C78_focus",
    "Batoid.Props.C78_twoMirrors"
   ],
   "note": "Exact reals. Rays whose first crossing is on the other sheet, and those parallel to the asymptotic cone, are outside the hypotheses; Quadric with conic -1 gives NaN (C30_quadric_parabolic_violated), so the parabolic case is about Paraboloid."
  },
  {
   "property": "C79",
   "status": "proved",
   "theorems": [
    "Batoid.Props.C79_keeps"
   ],
   "note": "Any arithmetic."
  },
  {
   "property": "C80",
   "status": "partial",
   "theorems": [
    "Batoid.Props.C80_medium",
    "Batoid.Props.C80_coating",
    "Batoid.Props.C80_transform",
    "Batoid.Props.C80_surface",
    "Batoid.Props.C80_obscuration",
    "Batoid.Props.C80_optic_partial",
    "Batoid.Props.C80_skip_violated"
   ],
   "note": "Proved in exact arithmetic for everything but optics; there == ignores skip (shown), and the theorem asks for equal skip flags. Signed zeros are not modelled."
  },
  {
   "property": "C81",
   "status": "partial",
   "theorems": [
    "Batoid.Props.C81_medium_symm",
    "Batoid.Props.C81_surface_symm",
    "Batoid.Props.C81_obscuration_symm",
    "Batoid.Props.C81_optic_symm",
    "Batoid.Props.C81_medium_refl",
    "Batoid.Props.C81_surface_refl",
    "Batoid.Props.C81_obscuration_refl",
    "Batoid.Props.C81_optic_refl",
    "Batoid.Props.C81_medium_trans",
    "Batoid.Props.C81_surface_trans",
    "Batoid.Props.C81_obscuration_trans_partial",
    "Batoid.Props.C81_optic_trans_partial",
    "Batoid.Props.C81_polygon_violated"
   ],
   "note": "Transitivity fails for polygons with one vertex (shown), and is proved for polygons with two or more."
  },
  {
   "property": "C82",
   "status": "partial",
   "theorems": [
    "Batoid.Props.C82_order_partial",
    "Batoid.Props.C82_contains",
    "Batoid.Props.C82_restore",
    "Batoid.Props.C82_tie_violated"
   ],
   "note": "Fails for items with equal repr (shown); proved when repr tells the items apart. repr itself is an arbitrary function to strings."
  },
  {
   "property": "C83",
   "status": "partial",
   "theorems": [
    "Batoid.Props.C83_items",
    "Batoid.Props.C83_names",
    "Batoid.Props.C83_interfaces",
    "Batoid.Props.C83_obscuration_violated",
    "Batoid.Props.C83_lens_violated",
    "Batoid.Props.C83_coatings"
   ],
   "note": "False for lenses with more than two items (dropped) and for the obscuration of plain Interfaces (ignored); proved otherwise. stopSurface and the extra attributes are not modelled."
  },
  {
   "property": "C84",
   "status": "proved",
   "theorems": [
    "Batoid.Props.C84_clear",
    "Batoid.Props.C84_unknown"
   ],
   "note": "Names in which Clear occurs only at the start; str.replace changes every occurrence."
  },
  {
   "property": "C85",
   "status": "proved",
   "theorems": [
    "Batoid.Props.C85_quadrature"
   ],
   "note": "numpy.polynomial.legendre.leggauss is a parameter whose contract is GaussRule; gaussRule_two shows the contract can be met"
  },
  {
   "property": "C86",
   "status": "partial",
   "theorems": [
    "Batoid.Props.C86_integral",
    "Batoid.Props.C86_recovers",
    "Batoid.Props.C86_newtonian",
    "Batoid.Props.C86_frame_violated"
   ],
   "note": "False for systems whose coordSys is not the global frame (the chief ray is launched without it, shown); otherwise proved for every polynomial wavefront and family of polynomials. leggauss and the Zernike family are parameters."
  },
  {
   "property": "C87",
   "status": "proved",
   "theorems": [
    "Batoid.Props.C87_zernike",
    "Batoid.Props.C87_zernike_recovers",
    "Batoid.Props.C87_transverse",
    "Batoid.Props.C87_transverse_recovers",
    "Batoid.Props.C87_xy"
   ],
   "note": "lstsq is a parameter satisfying the contract LeastSquares (exact rank, shortest minimiser of the sum of squares), the polynomials are any family."
  },
  {
   "property": "C88",
   "status": "proved",
   "theorems": [
    "Batoid.Props.C88_integral",
    "Batoid.Props.C88_recovers",
    "Batoid.Props.C88_wavefront"
   ],
   "note": "leggauss and the Zernike polynomials enter through their contracts (Gauss-Legendre rule, orthonormal polynomials)."
  },
  {
   "property": "C89",
   "status": "partial",
   "theorems": [
    "Batoid.Props.C89_differences",
    "Batoid.Props.C89_camera",
    "Batoid.Props.C89_gnomonic",
    "Batoid.Props.C89_focalLength",
    "Batoid.Props.C89_camera_focalLength",
    "Batoid.Props.C89_reversed_violated",
    "Batoid.Props.C89_inverse"
   ],
   "note": "Everything except focalLength of a system with negative determinant, which is NaN (C89_reversed_violated)."
  },
  {
   "property": "C90",
   "status": "proved",
   "theorems": [
    "Batoid.Props.C90_fit",
    "Batoid.Props.C90_recovers",
    "Batoid.Props.C90_newtonian"
   ],
   "note": "np.linalg.lstsq enters as an argument that solves least squares problems."
  },
  {
   "property": "C91",
   "status": "partial",
   "theorems": [
    "Batoid.Props.C91_pixels",
    "Batoid.Props.C91_energy",
    "Batoid.Props.C91_perfect",
    "Batoid.Props.C91_waves_partial",
    "Batoid.Props.C91_exact",
    "Batoid.Props.C91_newtonian",
    "Batoid.Props.C91_same_lattice",
    "Batoid.Props.C91_odd_violated",
    "Batoid.Props.C91_rotated_violated"
   ],
   "note": "Proved for even nx: every pixel as a sum over the lit pupil points, total and maximum, the position of the pixels when dkdu is diagonal, exactly those systems. Violated for turned detectors (wrong lattice) and odd nx (IndexError)."
  },
  {
   "property": "C92",
   "status": "partial",
   "theorems": [
    "Batoid.Props.C92_lines_partial",
    "Batoid.Props.C92_defaults",
    "Batoid.Props.C92_errors",
    "Batoid.Props.C92_position",
    "Batoid.Props.C92_straight",
    "Batoid.Props.C92_entry_violated",
    "Batoid.Props.C92_drawn_partial"
   ],
   "note": "Missing: the first vertex is drawn even if the ray arrives vignetted (C92_entry_violated), and interfaces that share a name overwrite each other's records (C51)."
  },
  {
   "property": "C93",
   "status": "proved",
   "theorems": [
    "Batoid.Props.C93_medium",
    "Batoid.Props.C93_coating",
    "Batoid.Props.C93_coordSys",
    "Batoid.Props.C93_transform",
    "Batoid.Props.C93_rays",
    "Batoid.Props.C93_surface",
    "Batoid.Props.C93_obscuration",
    "Batoid.Props.C93_optic",
    "Batoid.Props.C93_trace"
   ],
   "note": "Pickle protocol 2 or later; objects as the constructors make them (imin >= 1, sorted items)."
  },
  {
   "property": "C94",
   "status": "partial",
   "theorems": [
    "Batoid.Props.C94_interface",
    "Batoid.Props.C94_named_partial",
    "Batoid.Props.C94_order",
    "Batoid.Props.C94_zero",
    "Batoid.Props.C94_prefix_violated",
    "Batoid.Props.C94_wrong_optic_violated"
   ],
   "note": "Holds in every tree without prefix-related siblings. Where the name of an item is a prefix of that of a later one the call raises, or silently perturbs the wrong optic with the wrong surface (both violations proved)."
  },
  {
   "property": "C95",
   "status": "partial",
   "theorems": [
    "Batoid.Props.C95_lookup",
    "Batoid.Props.C95_traceFull",
    "Batoid.Props.C95_detector",
    "Batoid.Props.C95_media_partial",
    "Batoid.Props.C95_media_violated",
    "Batoid.Props.C95_edit_partial",
    "Batoid.Props.C95_hidden_violated"
   ],
   "note": "For every configuration with the types, names and media of one of the 39 files. False for 17 optics of five files (they cannot be edited: violation proved for each) and for the media of PFS.yaml. Rotations of the other optics: C49_withLocallyRotatedOptic_partial."
  },
  {
   "property": "C96",
   "status": "partial",
   "theorems": [
    "Batoid.Props.C96_plane",
    "Batoid.Props.C96_tilted",
    "Batoid.Props.C96_paraboloid",
    "Batoid.Props.C96_sphere",
    "Batoid.Props.C96_quadric",
    "Batoid.Props.C96_nearest",
    "Batoid.Props.C96_line",
    "Batoid.Props.C96_found",
    "Batoid.Props.C96_level_violated",
    "Batoid.Props.C96_start_violated"
   ],
   "note": "Missing: rays parallel to the vertex plane (C96_level_violated) and rays that start on the surface (C96_start_violated). Exact arithmetic."
  },
  {
   "property": "C97",
   "status": "partial",
   "theorems": [
    "Batoid.Props.C97_reversible",
    "Batoid.Props.C97_same_points",
    "Batoid.Props.C97_back",
    "Batoid.Props.C97_screen_violated"
   ],
   "note": "Missing: OPDScreen (C97_screen_violated). That the turned ray finds the same point of the surface is a condition of C97_reversible; C97_back gives it for the surfaces solved in closed form."
  },
  {
   "property": "C98",
   "status": "partial",
   "theorems": [
    "Batoid.Props.C98_malus",
    "Batoid.Props.C98_equal_times",
    "Batoid.Props.C98_parallel",
    "Batoid.Props.C98_point",
    "Batoid.Props.C98_beam",
    "Batoid.Props.C98_malus_chief",
    "Batoid.Props.C98_smooth_plane",
    "Batoid.Props.C98_smooth_paraboloid",
    "Batoid.Props.C98_smooth_sphere",
    "Batoid.Props.C98_smooth_quadric",
    "Batoid.Props.C98_smooth_asphere",
    "Batoid.Props.C98_smooth_zernike",
    "Batoid.Props.C98_smooth_sum",
    "Batoid.Props.C98_screen",
    "Batoid.Props.C98_tilted_violated",
    "Batoid.Props.C98_smooth_bicubic"
   ],
   "note": "Proved for all systems of mirrors, lenses, baffles and detectors. False for Tilted surfaces and for OPDScreen other than against the normal in vacuum (exact condition proved). For surfaces met by Newton iteration the hypothesis is that the point is exactly on the sag; Bicubic is smooth inside its cells (C98_smooth_bicubic), not on the edges between them."
  },
  {
   "property": "C99",
   "status": "partial",
   "theorems": [
    "Batoid.Props.C99_turn_partial",
    "Batoid.Props.C99_meridional_partial",
    "Batoid.Props.C99_axis_partial",
    "Batoid.Props.sym_polynomial",
    "Batoid.Props.poly_shape",
    "Batoid.Props.invariant_flipY",
    "Batoid.Props.invariant_half_turn",
    "Batoid.Props.invariant_round",
    "Batoid.Props.C99_bicubic_violated"
   ],
   "note": "For every axial symmetry of the system, both directions, including failed and undefined rays and phase screens. Planes, paraboloids, spheres, conics, aspheres, sums with a curved term, suitably tilted planes and polynomial (Zernike) surfaces with an invariant polynomial are shown to be symmetric. False for Bicubic tables over a symmetric range: the upper edge is outside (C99_bicubic_violated)."
  },
  {
   "property": "C100",
   "status": "proved",
   "theorems": [
    "Batoid.Props.C100_skew",
    "Batoid.Props.C100_ray",
    "Batoid.Props.C100_distance"
   ],
   "note": "For every optic whose interfaces are Plane, Paraboloid, Sphere, Quadric, Asphere or sums of them on a common axis, with any obscurations, phase screens of the same kind, both directions, all bundles."
  },
  {
   "property": "C101",
   "status": "partial",
   "theorems": [
    "Batoid.Props.C101_slice_halves",
    "Batoid.Props.C101_slice_joined",
    "Batoid.Props.C101_slice_on_surface",
    "Batoid.Props.C101_one_point_violated",
    "Batoid.Props.C101_aperture_partial",
    "Batoid.Props.C101_aperture_violated",
    "Batoid.Props.C101_not_drawn",
    "Batoid.Props.C101_draws_all",
    "Batoid.Props.C101_only_partial",
    "Batoid.Props.C101_only_violated",
    "Batoid.Props.C101_only_lens",
    "Batoid.Props.C101_draws_all_3d",
    "Batoid.Props.C101_mesh_partial",
    "Batoid.Props.C101_mesh_violated",
    "Batoid.Props.C101_curves_3d",
    "Batoid.Props.C101_lens_whole",
    "Batoid.Props.C101_lens_holed",
    "Batoid.Props.C101_lens_violated"
   ],
   "note": "Exact lists of drawn points for every surface, frame and radii, and for trees of any depth. False in the code, hence partial: decentred apertures, one point per half slice, a list as `only`, meshes of trees with undrawn interfaces, lenses with one hole."
  },
  {
   "property": "C102",
   "status": "partial",
   "theorems": [
    "Batoid.Props.C102_to_horizon",
    "Batoid.Props.C102_to_equator",
    "Batoid.Props.C102_there_and_back",
    "Batoid.Props.C102_back_and_there",
    "Batoid.Props.C102_zenith_violated",
    "Batoid.Props.C102_sidereal_partial",
    "Batoid.Props.C102_sidereal_violated"
   ],
   "note": "Conversions proved for all angles where they are defined. At the zenith the azimuth is NaN, and lst counts the centuries from day 0, so it is not the sidereal time; its range and dependence on the longitude are proved."
  },
  {
   "property": "C103",
   "status": "partial",
   "theorems": [
    "Batoid.Props.C103_layout_partial",
    "Batoid.Props.C103_piston_violated",
    "Batoid.Props.C103_start_violated"
   ],
   "note": "Proved for jmin from 1 to 4 and coefficients up to at least 5; violated for jmin = 1 with vdim and for jmin above 4."
  },
  {
   "property": "C104",
   "status": "partial",
   "theorems": [
    "Batoid.Props.C104_length_partial",
    "Batoid.Props.C104_spacing_partial",
    "Batoid.Props.C104_pupil",
    "Batoid.Props.C104_default_violated",
    "Batoid.Props.C104_single_violated",
    "Batoid.Props.C104_centre_violated"
   ],
   "note": "Layout proved for all legal calls with at least one of the numbers above one; the default None of nx and ny raises, a fan of one point raises, and the central ray of a fan in both directions is in the bundle twice."
  },
  {
   "property": "C105",
   "status": "partial",
   "theorems": [
    "Batoid.Props.C105_invariant",
    "Batoid.Props.C105_etendue",
    "Batoid.Props.C105_image",
    "Batoid.Props.C105_pencil",
    "Batoid.Props.C105_chief",
    "Batoid.Props.C105_screen",
    "Batoid.Props.C105_tilted_violated"
   ],
   "note": "Proved for every optic whose surfaces are smooth where the common ray meets them and whose reported normals are those of the sag. Mirrors with a Tilted surface violate it (C105_tilted_violated). Phase screens keep it too (C105_screen, one screen at a time). For surfaces met by Newton iteration the returned point is assumed to be exactly on the sag."
  },
  {
   "property": "C106",
   "status": "partial",
   "theorems": [
    "Batoid.Props.C106_fermat",
    "Batoid.Props.C106_sensitivity",
    "Batoid.Props.C106_mirror",
    "Batoid.Props.C106_tilted_violated"
   ],
   "note": "Proved for every optic whose surfaces are smooth where the ray meets them and whose reported normals are those of the sag, for rays that meet all interfaces ahead of them. Mirrors with a Tilted surface violate it (C106_tilted_violated). Phase screens are not covered."
  },
  {
   "property": "C107",
   "status": "proved",
   "theorems": [
    "Batoid.Props.C107_star",
    "Batoid.Props.C107_aim",
    "Batoid.Props.C107_pointing",
    "Batoid.Props.C107_frames",
    "Batoid.Props.C107_axes",
    "Batoid.Props.C107_grid",
    "Batoid.Props.C107_rays"
   ],
   "note": "Stars in the direction of C102, telescope carried by one rigid motion to the direction asked for, frames, axes, grid points and ray lines."
  },
  {
   "property": "C108",
   "status": "partial",
   "theorems": [
    "Batoid.Props.C108_event_partial",
    "Batoid.Props.C108_session_partial",
    "Batoid.Props.C108_initial",
    "Batoid.Props.C108_camera_frame_violated",
    "Batoid.Props.C108_zenith_violated"
   ],
   "note": "Every session that avoids zenith, nadir and poles ends in order, except for the frame of the camera, which stays behind when the telescope moves; at the zenith the handlers never end."
  },
  {
   "property": "C109",
   "status": "proved",
   "theorems": [
    "Batoid.Props.C109_gauss",
    "Batoid.Props.C109_pencil",
    "Batoid.Props.C109_vertex",
    "Batoid.Props.C109_asphere",
    "Batoid.Props.C109_matrix",
    "Batoid.Props.C109_scale",
    "Batoid.Props.C109_mirror",
    "Batoid.Props.C109_lens"
   ],
   "note": "First-order law for centred optics; closed-form surfaces need no assumption on meeting points, others do (C109_pencil). Quadric with conic -1 excluded: its intersection is NaN (C30)."
  },
  {
   "property": "C110",
   "status": "proved",
   "theorems": [
    "Batoid.Props.C110_routes",
    "Batoid.Props.C110_nesting",
    "Batoid.Props.C110_distinct_paths",
    "Batoid.Props.C110_trace_path",
    "Batoid.Props.C110_returns"
   ],
   "note": "Calls that return two lists; C110_returns gives conditions under which they do. The link with trace(path=...) is for paths of at least two interfaces (for one see C57) and detectors only at the end of the optic."
  },
  {
   "property": "C111",
   "status": "proved",
   "theorems": [
    "Batoid.Props.C111_forward",
    "Batoid.Props.C111_velocity",
    "Batoid.Props.C111_reverse",
    "Batoid.Props.C111_round_trip",
    "Batoid.Props.C111_velocity_back"
   ],
   "note": "in `Flt rd` for every rounding with relative error u; overflow and underflow excluded; double precision is the instance rd53_rounds"
  },
  {
   "property": "C112",
   "status": "proved",
   "theorems": [
    "Batoid.Props.C112_drift"
   ],
   "note": "in `Flt rd` for every rounding with relative error u; the error of the origin is not bounded, only shown finite"
  },
  {
   "property": "C113",
   "status": "proved",
   "theorems": [
    "Batoid.Props.C113_contains",
    "Batoid.Props.C113_obscure",
    "Batoid.Props.C113_needs_margin"
   ],
   "note": "The margins are the only points excepted, and they are needed (C113_needs_margin). Underflow and overflow are not modelled."
  },
  {
   "property": "C114",
   "status": "proved",
   "theorems": [
    "Batoid.Props.C114_plane",
    "Batoid.Props.C114_quadric",
    "Batoid.Props.C114_asphere",
    "Batoid.Props.C114_sphere",
    "Batoid.Props.C114_paraboloid",
    "Batoid.Props.C114_polynomial",
    "Batoid.Props.C114_bicubic",
    "Batoid.Props.C114_sum",
    "Batoid.Props.C114_tilted"
   ],
   "note": "Only the length of the computed normal; its direction for surfaces given by series depends on the conditioning of the series."
  },
  {
   "property": "C115",
   "status": "proved",
   "theorems": [
    "Batoid.Props.C115_propagate",
    "Batoid.Props.C115_plane",
    "Batoid.Props.C115_reflect",
    "Batoid.Props.C115_speed"
   ],
   "note": ""
  },
  {
   "property": "C116",
   "status": "proved",
   "theorems": [
    "Batoid.Props.C116_direction",
    "Batoid.Props.C116_refract",
    "Batoid.Props.C116_history"
   ],
   "note": "Ratio of indices at most 2, so that the constants are numbers; ratios in use are below 1.6."
  },
  {
   "property": "C117",
   "status": "partial",
   "theorems": [
    "Batoid.Props.C117_asphere",
    "Batoid.Props.C117_asphere_integers",
    "Batoid.Props.C117_asphere_violated",
    "Batoid.Props.C117_medium",
    "Batoid.Props.C117_medium_lengths",
    "Batoid.Props.C117_medium_integers",
    "Batoid.Props.C117_medium_violated",
    "Batoid.Props.C117_polygon",
    "Batoid.Props.C117_polygon_violated",
    "Batoid.Props.C117_grid",
    "Batoid.Props.C117_grid_violated",
    "Batoid.Props.C117_table",
    "Batoid.Props.C117_table_violated",
    "Batoid.Props.C117_polynomial",
    "Batoid.Props.C117_polynomial_violated",
    "Batoid.Props.C117_normal",
    "Batoid.Props.C117_rays",
    "Batoid.Props.C117_rays_rows",
    "Batoid.Props.C117_rays_violated",
    "Batoid.Props.C117_stop",
    "Batoid.Props.C117_stop_violated"
   ],
   "note": "Proved for ObscPolygon, Bicubic, Surface.normal and RayVector with arrays of fitting shape, and for the others with doubles without gaps; violated for integers, strided views and shapes that do not fit."
  },
  {
   "property": "C118",
   "status": "partial",
   "theorems": [
    "Batoid.Props.C118_sphere",
    "Batoid.Props.C118_sphere_distance",
    "Batoid.Props.C118_sphere_miss",
    "Batoid.Props.C118_sphere_clear",
    "Batoid.Props.C118_paraboloid",
    "Batoid.Props.C118_quadric",
    "Batoid.Props.C118_tilted",
    "Batoid.Props.C118_iterated"
   ],
   "note": "Proved for every rounding of relative error u <= 1/1000 and every finite input, without a bound on the angle of incidence. Missing: underflow and overflow."
  },
  {
   "property": "C119",
   "status": "partial",
   "theorems": [
    "Batoid.Props.C119_trace",
    "Batoid.Props.C119_closed",
    "Batoid.Props.C119_exact",
    "Batoid.Props.C119_double",
    "Batoid.Props.C119_split",
    "Batoid.Props.C119_phase",
    "Batoid.Props.C119_amplitude",
    "Batoid.Props.C119_table",
    "Batoid.Props.C119_iterated_partial",
    "Batoid.Props.C119_newton_violated",
    "Batoid.Props.C119_glass_violated",
    "Batoid.Props.units_dbl",
    "Batoid.Props.units_flt",
    "Batoid.Props.units_rd53"
   ],
   "note": "Proved for all surfaces with closed intersection formulas and, given equal verdicts of the iteration, for all others. Violated for iterated surfaces with residual between the tolerances (C119_newton_violated) and for glasses given by formulas (C119_glass_violated)."
  },
  {
   "property": "C120",
   "status": "partial",
   "theorems": [
    "Batoid.Props.C120_converges",
    "Batoid.Props.C120_found",
    "Batoid.Props.C120_only",
    "Batoid.Props.C120_figure",
    "Batoid.Props.C120_near",
    "Batoid.Props.C120_parallel",
    "Batoid.Props.C120_parallel_polynomial",
    "Batoid.Props.C120_parallel_asphere",
    "Batoid.Props.C120_far_violated"
   ],
   "note": "Exact arithmetic. Five steps do not find every crossing ray: C120_far_violated. Rounding of the iteration: C133."
  },
  {
   "property": "C121",
   "status": "proved",
   "theorems": [
    "Batoid.Props.C121_straight",
    "Batoid.Props.C121_stack",
    "Batoid.Props.C121_plate",
    "Batoid.Props.C121_mirrors",
    "Batoid.Props.C121_corner",
    "Batoid.Props.C121_periscope"
   ],
   "note": "Exact arithmetic (Dbl). Phase screens are left out, since they turn light; frames orthonormal."
  },
  {
   "property": "C122",
   "status": "proved",
   "theorems": [
    "Batoid.Props.C122_focus",
    "Batoid.Props.C122_collimate",
    "Batoid.Props.C122_aplanatic",
    "Batoid.Props.C122_arrives",
    "Batoid.Props.C122_singlet"
   ],
   "note": "Exact real arithmetic; C122_arrives for Quadric traced forward, the others for whatever comes out alive on the vertex sheet, in both directions."
  },
  {
   "property": "C123",
   "status": "partial",
   "theorems": [
    "Batoid.Props.C123_safe_partial",
    "Batoid.Props.C123_once",
    "Batoid.Props.C123_freed",
    "Batoid.Props.C123_items_violated",
    "Batoid.Props.C123_attribute_violated",
    "Batoid.Props.C123_array_violated",
    "Batoid.Props.C123_leak_violated",
    "Batoid.Props.C123_violated"
   ],
   "note": "Safety for all histories without assignments to attributes (or to the list items) on which C++ objects depend; with such assignments the code violates it, and sums and unions leak their pointer arrays."
  },
  {
   "property": "C124",
   "status": "partial",
   "theorems": [
    "Batoid.Props.C124_medium",
    "Batoid.Props.C124_coating",
    "Batoid.Props.C124_surface",
    "Batoid.Props.C124_obscuration",
    "Batoid.Props.C124_coordSys",
    "Batoid.Props.C124_coordTransform",
    "Batoid.Props.C124_lattice",
    "Batoid.Props.C124_rays",
    "Batoid.Props.C124_optic_partial",
    "Batoid.Props.C124_trace_partial",
    "Batoid.Props.C124_attributes_violated",
    "Batoid.Props.C124_empty_violated",
    "Batoid.Props.C124_long_violated",
    "Batoid.Props.C124_digits_violated"
   ],
   "note": "Proved for all classes; for optics up to coatings, skip and stopSurface, which repr leaves out. Without items, with more than 1000 array elements, and beyond eight digits the code fails."
  },
  {
   "property": "C125",
   "status": "partial",
   "theorems": [
    "Batoid.Props.C125_quadric_sag",
    "Batoid.Props.C125_quadric_normal",
    "Batoid.Props.C125_sphere_normal",
    "Batoid.Props.C125_sphere_sag_partial",
    "Batoid.Props.C125_paraboloid_sag",
    "Batoid.Props.C125_paraboloid_normal",
    "Batoid.Props.C125_tilted_sag",
    "Batoid.Props.C125_asphere_sag",
    "Batoid.Props.C125_asphere_normal",
    "Batoid.Props.C125_sum_sag",
    "Batoid.Props.C125_reflect",
    "Batoid.Props.C125_quadric_mirror",
    "Batoid.Props.C125_sphere_violated"
   ],
   "note": "Relative accuracy of sags for quadrics, paraboloids and sums of powers; of a sphere only up to roundings of R, since the code cancels (violated). Zernike polynomials and the normals of sums: C130. Tables: C135."
  },
  {
   "property": "C126",
   "status": "proved",
   "theorems": [
    "Batoid.Props.C126_parabola",
    "Batoid.Props.C126_conic",
    "Batoid.Props.C126_sphere",
    "Batoid.Props.C126_shift",
    "Batoid.Props.C126_spot",
    "Batoid.Props.C126_prime_focus",
    "Batoid.Props.C126_cassegrain"
   ],
   "note": "For computed landing points off the rim and on the sheet of the vertex; the error of Quadric grows as the conic constant approaches -1, as the code does."
  },
  {
   "property": "C127",
   "status": "partial",
   "theorems": [
    "Batoid.Props.C127_intersect",
    "Batoid.Props.C127_reflect",
    "Batoid.Props.C127_refract",
    "Batoid.Props.C127_refractScreen",
    "Batoid.Props.C127_rSplit",
    "Batoid.Props.C127_obscure",
    "Batoid.Props.C127_toCoordSys",
    "Batoid.Props.C127_trace",
    "Batoid.Props.C127_interrupt_partial",
    "Batoid.Props.C127_path",
    "Batoid.Props.C127_path_known",
    "Batoid.Props.C127_path_partial",
    "Batoid.Props.C127_path_violated",
    "Batoid.Props.C127_interrupt_violated",
    "Batoid.Props.C127_relabel_violated"
   ],
   "note": "Proved for wrong arguments of the single calls, for traces of trees, and for where an interrupt can leave the rays. The code violates the rest: path names are looked up while tracing, and the label is set after the C++ call. Interrupts during evaluation of the arguments within one statement, and errors inside the C++ functions, are not modelled."
  },
  {
   "property": "C128",
   "status": "partial",
   "theorems": [
    "Batoid.Props.C128_angle_split",
    "Batoid.Props.C128_angle_single",
    "Batoid.Props.C128_angle_violated",
    "Batoid.Props.C128_split_partial",
    "Batoid.Props.C128_total_reflection_violated",
    "Batoid.Props.C128_half_lost_violated"
   ],
   "note": "Conservation is proved below the critical angle; beyond it the code loses the transmitted share. The angle given to the coating is the right one up to its sign, which differs between the functions."
  },
  {
   "property": "C129",
   "status": "proved",
   "theorems": [
    "Batoid.Props.C129_intersect",
    "Batoid.Props.C129_reflect",
    "Batoid.Props.C129_refract",
    "Batoid.Props.C129_parabola",
    "Batoid.Props.C129_prime_focus",
    "Batoid.Props.C129_conic"
   ],
   "note": "Rounding model without over/underflow; the bounds name every length and time they depend on. nrm p in C129_prime_focus is bounded by C126_prime_focus."
  },
  {
   "property": "C130",
   "status": "proved",
   "theorems": [
    "Batoid.Props.C130_polynomial_sag",
    "Batoid.Props.C130_polynomial_normal",
    "Batoid.Props.C130_sum_normal",
    "Batoid.Props.C130_lands",
    "Batoid.Props.C130_polynomial_reflect"
   ],
   "note": "Arithmetic with relative rounding error (no overflow or underflow). Examples in double precision: z = x^2 + y^2 given as 3 x 3 arrays (sag, normal, sum with itself, landing)."
  },
  {
   "property": "C131",
   "status": "proved",
   "theorems": [
    "Batoid.Props.C131_refract",
    "Batoid.Props.C131_enters",
    "Batoid.Props.C131_focus",
    "Batoid.Props.C131_spot"
   ],
   "note": "Arithmetic with relative rounding error (no overflow or underflow). Example in double precision: an ellipsoidal face into glass of index rd(sqrt 2), ray at (3, 1)."
  },
  {
   "property": "C132",
   "status": "proved",
   "theorems": [
    "Batoid.Props.C132_phase",
    "Batoid.Props.C132_amplitude",
    "Batoid.Props.C132_sum",
    "Batoid.Props.C132_threads",
    "Batoid.Props.C132_psf",
    "Batoid.Props.C132_wavevector"
   ],
   "note": "the waves of rays, added up by threads, in arithmetic with rounding"
  },
  {
   "property": "C133",
   "status": "proved",
   "theorems": [
    "Batoid.Props.C133_converges",
    "Batoid.Props.C133_found",
    "Batoid.Props.C133_lands"
   ],
   "note": "Local convergence with rounding; the region where the iteration starts is a hypothesis (C120_far_violated shows it is needed)."
  },
  {
   "property": "C134",
   "status": "proved",
   "theorems": [
    "Batoid.Props.C134_table",
    "Batoid.Props.C134_sellmeier",
    "Batoid.Props.C134_sumita",
    "Batoid.Props.C134_air"
   ],
   "note": "Rounding of the getN formulas; the decimal literals of Air are rounded too. std::sqrt is correct to a relative error u."
  },
  {
   "property": "C135",
   "status": "proved",
   "theorems": [
    "Batoid.Props.C135_sag",
    "Batoid.Props.C135_normal",
    "Batoid.Props.C135_outside"
   ],
   "note": "The entries of the table are taken as given: the rounding of the derivatives that Bicubic.__init__ computes when none are passed is not included."
  },
  {
   "property": "C136",
   "status": "partial",
   "theorems": [
    "Batoid.Props.C136_direction",
    "Batoid.Props.C136_back",
    "Batoid.Props.C136_postel_back",
    "Batoid.Props.C136_orthographic",
    "Batoid.Props.C136_lambert",
    "Batoid.Props.C136_lambert_violated",
    "Batoid.Props.C136_postel_violated",
    "Batoid.Props.C136_stereographic_violated"
   ],
   "note": "Directions for postel, zemax, gnomonic, stereographic, orthographic up to 45 degrees, and there and back for gnomonic, zemax, orthographic and, unless the axial component is rounded to -1, postel are proved; lambert up to 60 degrees with the exact order of its loss; lambert and the way back for postel and stereographic lose small angles (violations proved). Missing: orthographic nearer to the horizon, lambert beyond 60 degrees, the rest of the way back for stereographic."
  },
  {
   "property": "C137",
   "status": "proved",
   "theorems": [
    "Batoid.Props.C137_finish",
    "Batoid.Props.C137_launch",
    "Batoid.Props.C137_fromFieldAngles"
   ],
   "note": "For the stop points as computed; directions along x are excluded (C43_degenerate: all NaN). fromFieldAngles has its own theorem, for the projections C136_direction covers."
  },
  {
   "property": "C138",
   "status": "proved",
   "theorems": [
    "Batoid.Props.C138_points",
    "Batoid.Props.C138_asGrid",
    "Batoid.Props.C138_asFan"
   ],
   "note": "For numbers as lengths (vector spacings: C44); the arguments are those after setup, whose defaults are C43."
  },
  {
   "property": "C139",
   "status": "proved",
   "theorems": [
    "Batoid.Props.C139_points",
    "Batoid.Props.C139_asSpokes",
    "Batoid.Props.C139_quadrature",
    "Batoid.Props.C139_fromStop",
    "Batoid.Props.C139_asPolarRandom"
   ],
   "note": "spacing=uniform and GQ with numbers of rings and spokes, GQ for the nodes and weights numpy returns; asPolar without nrandom is not part of the statement."
  }
 ]
}