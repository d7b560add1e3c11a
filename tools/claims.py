claims = {
"C01": ("proved", ["C01_local_global_roundtrip"], "Induction over arbitrary histories of shifts and rotations, exact arithmetic."),
"C02": ("proved", ["C02_frames_stay_rotations", "C02_angle_constructors"], "Invariant over histories; axes form a right-handed orthonormal basis."),
"C03": ("proved", ["C03_shiftGlobal", "C03_shiftLocal", "C03_shiftLocal_origin"], ""),
"C04": ("proved", ["C04_rotateGlobal_moves", "C04_rotateLocal_moves", "C04_rotations_rigid", "C04_centre_fixed", "C04_rotate_back", "C04_rotateLocal_default_origin"], ""),
"C05": ("proved", ["C05_forward_reverse", "C05_path_independent", "C05_chain", "C05_velocity"], ""),
"C06": ("proved", ["C06_isometry", "C06_only_position_velocity"], ""),
"C07": ("proved", ["C07_toCoordSys_physical", "C07_apply"], "For finite positions and velocities."),
"C08": ("proved", ["C08_law_of_reflection", "C08_reversible"], "Exact arithmetic; any surface, for rays that hit it at a finite time."),
"C09": ("proved", ["C09_snell"], "Exact arithmetic."),
"C10": ("proved", ["C10_speed", "C10_reversible", "C10_equal_index"], "Exact arithmetic."),
"C100": ("proved", ["C100_skew", "C100_ray", "C100_distance"], "For every optic whose interfaces are Plane, Paraboloid, Sphere, Quadric, Asphere or sums of them on a common axis, with any obscurations, phase screens of the same kind, both directions, all bundles."),
"C101": ("partial", ["C101_slice_halves", "C101_slice_joined", "C101_slice_on_surface", "C101_one_point_violated", "C101_aperture_partial", "C101_aperture_violated", "C101_not_drawn", "C101_draws_all", "C101_only_partial", "C101_only_violated", "C101_only_lens", "C101_draws_all_3d", "C101_mesh_partial", "C101_mesh_violated", "C101_curves_3d", "C101_lens_whole", "C101_lens_holed", "C101_lens_violated"], "Exact lists of drawn points for every surface, frame and radii, and for trees of any depth. False in the code, hence partial: decentred apertures, one point per half slice, a list as `only`, meshes of trees with undrawn interfaces, lenses with one hole."),
"C102": ("partial", ["C102_to_horizon", "C102_to_equator", "C102_there_and_back", "C102_back_and_there", "C102_zenith_violated", "C102_sidereal_partial", "C102_sidereal_violated"], "Conversions proved for all angles where they are defined. At the zenith the azimuth is NaN, and lst counts the centuries from day 0, so it is not the sidereal time; its range and dependence on the longitude are proved."),
"C103": ("partial", ["C103_layout_partial", "C103_piston_violated", "C103_start_violated"], "Proved for jmin from 1 to 4 and coefficients up to at least 5; violated for jmin = 1 with vdim and for jmin above 4."),
"C104": ("partial", ["C104_length_partial", "C104_spacing_partial", "C104_pupil", "C104_default_violated", "C104_single_violated", "C104_centre_violated"], "Layout proved for all legal calls with at least one of the numbers above one; the default None of nx and ny raises, a fan of one point raises, and the central ray of a fan in both directions is in the bundle twice."),
"C105": ("partial", ["C105_invariant", "C105_etendue", "C105_image", "C105_pencil", "C105_chief", "C105_screen", "C105_tilted_violated"], "Proved for every optic whose surfaces are smooth where the common ray meets them and whose reported normals are those of the sag. Mirrors with a Tilted surface violate it (C105_tilted_violated). Phase screens keep it too (C105_screen, one screen at a time). For surfaces met by Newton iteration the returned point is assumed to be exactly on the sag."),
"C106": ("partial", ["C106_fermat", "C106_sensitivity", "C106_mirror", "C106_tilted_violated"], "Proved for every optic whose surfaces are smooth where the ray meets them and whose reported normals are those of the sag, for rays that meet all interfaces ahead of them. Mirrors with a Tilted surface violate it (C106_tilted_violated). Phase screens are not covered."),
"C107": ("proved", ["C107_star", "C107_aim", "C107_pointing", "C107_frames", "C107_axes", "C107_grid", "C107_rays"], "Stars in the direction of C102, telescope carried by one rigid motion to the direction asked for, frames, axes, grid points and ray lines."),
"C108": ("partial", ["C108_event_partial", "C108_session_partial", "C108_initial", "C108_camera_frame_violated", "C108_zenith_violated"], "Every session that avoids zenith, nadir and poles ends in order, except for the frame of the camera, which stays behind when the telescope moves; at the zenith the handlers never end."),
"C109": ("proved", ["C109_gauss", "C109_pencil", "C109_vertex", "C109_asphere", "C109_matrix", "C109_scale", "C109_mirror", "C109_lens"], "First-order law for centred optics; closed-form surfaces need no assumption on meeting points, others do (C109_pencil). Quadric with conic -1 excluded: its intersection is NaN (C30)."),
"C11": ("proved", ["C11_along_line", "C11_intersect_keeps_velocity", "C11_along_line_screen"], "Exact arithmetic; every kernel that intersects."),
"C110": ("proved", ["C110_routes", "C110_nesting", "C110_distinct_paths", "C110_trace_path", "C110_returns"], "Calls that return two lists; C110_returns gives conditions under which they do. The link with trace(path=...) is for paths of at least two interfaces (for one see C57) and detectors only at the end of the optic."),
"C111": ("proved", ["C111_forward", "C111_velocity", "C111_reverse", "C111_round_trip", "C111_velocity_back"], "in `Flt rd` for every rounding with relative error u; overflow and underflow excluded; double precision is the instance rd53_rounds"),
"C112": ("proved", ["C112_drift"], "in `Flt rd` for every rounding with relative error u; the error of the origin is not bounded, only shown finite"),
"C113": ("proved", ["C113_contains", "C113_obscure", "C113_needs_margin"], "The margins are the only points excepted, and they are needed (C113_needs_margin). Underflow and overflow are not modelled."),
"C114": ("proved", ["C114_plane", "C114_quadric", "C114_asphere", "C114_sphere", "C114_paraboloid", "C114_polynomial", "C114_bicubic", "C114_sum", "C114_tilted"], "Only the length of the computed normal; its direction for surfaces given by series depends on the conditioning of the series."),
"C115": ("proved", ["C115_propagate", "C115_plane", "C115_reflect", "C115_speed"], ""),
"C116": ("proved", ["C116_direction", "C116_refract", "C116_history"], "Ratio of indices at most 2, so that the constants are numbers; ratios in use are below 1.6."),
"C117": ("partial", ["C117_asphere", "C117_asphere_integers", "C117_asphere_violated", "C117_medium", "C117_medium_lengths", "C117_medium_integers", "C117_medium_violated", "C117_polygon", "C117_polygon_violated", "C117_grid", "C117_grid_violated", "C117_table", "C117_table_violated", "C117_polynomial", "C117_polynomial_violated", "C117_normal", "C117_rays", "C117_rays_rows", "C117_rays_violated", "C117_stop", "C117_stop_violated"], "Proved for ObscPolygon, Bicubic, Surface.normal and RayVector with arrays of fitting shape, and for the others with doubles without gaps; violated for integers, strided views and shapes that do not fit."),
"C118": ("partial", ["C118_sphere", "C118_sphere_distance", "C118_sphere_miss", "C118_sphere_clear", "C118_paraboloid", "C118_quadric", "C118_tilted", "C118_iterated"], "Proved for every rounding of relative error u <= 1/1000 and every finite input, without a bound on the angle of incidence. Missing: underflow and overflow."),
"C119": ("partial", ["C119_trace", "C119_closed", "C119_exact", "C119_double", "C119_split", "C119_phase", "C119_amplitude", "C119_table", "C119_iterated_partial", "C119_newton_violated", "C119_glass_violated", "units_dbl", "units_flt", "units_rd53"], "Proved for all surfaces with closed intersection formulas and, given equal verdicts of the iteration, for all others. Violated for iterated surfaces with residual between the tolerances (C119_newton_violated) and for glasses given by formulas (C119_glass_violated)."),
"C12": ("proved", ["C12_failed_untouched", "C12_flags_monotone"], "Any floating point arithmetic, any history of operations."),
"C120": ("partial", ["C120_converges", "C120_found", "C120_only", "C120_figure", "C120_near", "C120_parallel", "C120_parallel_polynomial", "C120_parallel_asphere", "C120_far_violated"], "Exact arithmetic. Five steps do not find every crossing ray: C120_far_violated. Rounding of the iteration: C133."),
"C121": ("proved", ["C121_straight", "C121_stack", "C121_plate", "C121_mirrors", "C121_corner", "C121_periscope"], "Exact arithmetic (Dbl). Phase screens are left out, since they turn light; frames orthonormal."),
"C122": ("proved", ["C122_focus", "C122_collimate", "C122_aplanatic", "C122_arrives", "C122_singlet"], "Exact real arithmetic; C122_arrives for Quadric traced forward, the others for whatever comes out alive on the vertex sheet, in both directions."),
"C123": ("partial", ["C123_safe_partial", "C123_once", "C123_freed", "C123_items_violated", "C123_attribute_violated", "C123_array_violated", "C123_leak_violated", "C123_violated"], "Safety for all histories without assignments to attributes (or to the list items) on which C++ objects depend; with such assignments the code violates it, and sums and unions leak their pointer arrays."),
"C124": ("partial", ["Batoid.Props.C124_medium", "Batoid.Props.C124_coating", "Batoid.Props.C124_surface", "Batoid.Props.C124_obscuration", "Batoid.Props.C124_coordSys", "Batoid.Props.C124_coordTransform", "Batoid.Props.C124_lattice", "Batoid.Props.C124_rays", "Batoid.Props.C124_optic_partial", "Batoid.Props.C124_trace_partial", "Batoid.Props.C124_attributes_violated", "Batoid.Props.C124_empty_violated", "Batoid.Props.C124_long_violated", "Batoid.Props.C124_digits_violated"], "Proved for all classes; for optics up to coatings, skip and stopSurface, which repr leaves out. Without items, with more than 1000 array elements, and beyond eight digits the code fails."),
"C125": ("partial", ["C125_quadric_sag", "C125_quadric_normal", "C125_sphere_normal", "C125_sphere_sag_partial", "C125_paraboloid_sag", "C125_paraboloid_normal", "C125_tilted_sag", "C125_asphere_sag", "C125_asphere_normal", "C125_sum_sag", "C125_reflect", "C125_quadric_mirror", "C125_sphere_violated"], "Relative accuracy of sags for quadrics, paraboloids and sums of powers; of a sphere only up to roundings of R, since the code cancels (violated). Zernike polynomials and the normals of sums: C130. Tables: C135."),
"C126": ("proved", ["C126_parabola", "C126_conic", "C126_sphere", "C126_shift", "C126_spot", "C126_prime_focus", "C126_cassegrain"], "For computed landing points off the rim and on the sheet of the vertex; the error of Quadric grows as the conic constant approaches -1, as the code does."),
"C127": ("partial", ["C127_intersect", "C127_reflect", "C127_refract", "C127_refractScreen", "C127_rSplit", "C127_obscure", "C127_toCoordSys", "C127_trace", "C127_interrupt_partial", "C127_path", "C127_path_known", "C127_path_partial", "C127_path_violated", "C127_interrupt_violated", "C127_relabel_violated"], "Proved for wrong arguments of the single calls, for traces of trees, and for where an interrupt can leave the rays. The code violates the rest: path names are looked up while tracing, and the label is set after the C++ call. Interrupts during evaluation of the arguments within one statement, and errors inside the C++ functions, are not modelled."),
"C128": ("partial", ["C128_angle_split", "C128_angle_single", "C128_angle_violated", "C128_split_partial", "C128_total_reflection_violated", "C128_half_lost_violated"], "Conservation is proved below the critical angle; beyond it the code loses the transmitted share. The angle given to the coating is the right one up to its sign, which differs between the functions."),
"C129": ("proved", ["C129_intersect", "C129_reflect", "C129_refract", "C129_parabola", "C129_prime_focus", "C129_conic"], "Rounding model without over/underflow; the bounds name every length and time they depend on. nrm p in C129_prime_focus is bounded by C126_prime_focus."),
"C13": ("proved", ["C13_failed_vignetted", "C13_new_failures_vignetted"], "Any floating point arithmetic."),
"C130": ("proved", ["C130_polynomial_sag", "C130_polynomial_normal", "C130_sum_normal", "C130_lands", "C130_polynomial_reflect"], "Arithmetic with relative rounding error (no overflow or underflow). Examples in double precision: z = x^2 + y^2 given as 3 x 3 arrays (sag, normal, sum with itself, landing)."),
"C131": ("proved", ["C131_refract", "C131_enters", "C131_focus", "C131_spot"], "Arithmetic with relative rounding error (no overflow or underflow). Example in double precision: an ellipsoidal face into glass of index rd(sqrt 2), ray at (3, 1)."),
"C132": ("proved", ["C132_phase", "C132_amplitude", "C132_sum", "C132_threads", "C132_psf", "C132_wavevector"], "the waves of rays, added up by threads, in arithmetic with rounding"),
"C133": ("proved", ["C133_converges", "C133_found", "C133_lands"], "Local convergence with rounding; the region where the iteration starts is a hypothesis (C120_far_violated shows it is needed)."),
"C134": ("proved", ["C134_table", "C134_sellmeier", "C134_sumita", "C134_air"], "Rounding of the getN formulas; the decimal literals of Air are rounded too. std::sqrt is correct to a relative error u."),
"C135": ("proved", ["C135_sag", "C135_normal", "C135_outside"], "The entries of the table are taken as given: the rounding of the derivatives that Bicubic.__init__ computes when none are passed is not included."),
"C136": ("partial", ["Batoid.Props.C136_direction", "Batoid.Props.C136_back", "Batoid.Props.C136_postel_back", "Batoid.Props.C136_orthographic", "Batoid.Props.C136_lambert", "Batoid.Props.C136_lambert_violated", "Batoid.Props.C136_postel_violated", "Batoid.Props.C136_stereographic_violated"], "Directions for postel, zemax, gnomonic, stereographic, orthographic up to 45 degrees, and there and back for gnomonic, zemax, orthographic and, unless the axial component is rounded to -1, postel are proved; lambert up to 60 degrees with the exact order of its loss; lambert and the way back for postel and stereographic lose small angles (violations proved). Missing: orthographic nearer to the horizon, lambert beyond 60 degrees, the rest of the way back for stereographic."),
"C137": ("proved", ["Batoid.Props.C137_finish", "Batoid.Props.C137_launch", "Batoid.Props.C137_fromFieldAngles"], "For the stop points as computed; directions along x are excluded (C43_degenerate: all NaN). fromFieldAngles has its own theorem, for the projections C136_direction covers."),
"C138": ("proved", ["C138_points", "C138_asGrid", "Batoid.Props.C138_asFan"], "For numbers as lengths (vector spacings: C44); the arguments are those after setup, whose defaults are C43."),
"C139": ("proved", ["Batoid.Props.C139_points", "Batoid.Props.C139_asSpokes", "Batoid.Props.C139_quadrature", "Batoid.Props.C139_fromStop", "Batoid.Props.C139_asPolarRandom"], "spacing=uniform and GQ with numbers of rings and spokes, GQ for the nodes and weights numpy returns; asPolar without nrandom is not part of the statement."),
"C14": ("partial", ["C14_failed_ray_frame_violated", "C14_live_rays_partial"], "Holds for live rays; the code violates it for failed rays, which keep old-frame coordinates."),
"C15": ("proved", ["C15_refracted_is_refract", "C15_miss_fails_both", "C15_reflected_position", "C15_reflected_velocity", "C15_flux", "C15_flux_conserved"], ""),
"C16": ("proved", ["C16_any_schedule", "C16_any_schedule_split", "C16_schedule_implements_operation", "C16_batch_is_single_rays", "C16_batch_append"], "Any interleaving of loads and stores of the loop iterations, any arithmetic; sequentially consistent memory."),
"C17": ("proved", ["C17_obscure", "C17_obscure_idem_comm", "C17_obscure_list"], "Any floating point arithmetic."),
"C18": ("proved", ["C18_trace_frame_and_order", "C18_physics"], "OPDScreen physics is C19."),
"C19": ("proved", ["C19_refractScreen", "C19_zero_screen", "C19_over_bent_ray_stays_live_violated"], "The law is proved whenever the bent direction exists; over-bent rays stay live with NaN velocity (recorded disagreement)."),
"C20": ("proved", ["C20_plane", "C20_tilted", "C20_paraboloid", "C20_sphere", "C20_quadric", "C20_sphere_near_cap", "C20_sphere_near_cap_violated", "C20_quadric_near_sheet", "C20_quadric_near_sheet_violated"], "Exact arithmetic. Beyond the statement: on which sheet the point lies, with the two cases where the code picks the wrong sheet."),
"C21": ("partial", ["C21_paraboloid", "C21_sphere", "C21_quadric", "C21_plane", "C21_tilted", "C21_ray_inside_plane_violated"], "Paraboloid, Sphere and Quadric in full; Plane and Tilted except rays lying inside the plane, for which the code contradicts the statement."),
"C22": ("partial", ["C22_plane", "C22_paraboloid", "C22_sphere", "C22_quadric", "C22_asphere", "C22_bicubic", "C22_tilted_violated", "C22_tilted_flat", "C22_grad", "C22_grad_nan"], "All surface types except Tilted, whose normal is unit but not perpendicular (C22_tilted_violated); polynomial/Zernike surfaces via C25_normal, sums via C28_normal."),
"C23": ("proved", ["C23_residual", "C23_residual_real", "C23_planar_one_step", "C23_fixed_points"], ""),
"C24": ("proved", ["C24_sag", "C24_imin", "C24_zero_coefs", "C24_zero_coefs_time", "C24_object"], "Slope of the asphere is C22_asphere."),
"C25": ("proved", ["C25_sag", "C25_no_term_lost", "C25_normal", "C25_zernike", "C25_lost_term_matters"], "Coefficient arrays are square and triangular, as galsim produces them; a non-square array would be read transposed."),
"C26": ("partial", ["C26_finite_inside", "C26_nodes_partial", "C26_cross_derivative", "C26_smooth", "C26_gradient", "C26_outside", "C26_last_node_violated"], "Nodes on the upper edges (last row, last column) are reported as outside the grid: C26_last_node_violated. Everything else holds on the half-open rectangle."),
"C27": ("proved", ["C27_bilinear", "C27_affine"], "Proved for all bilinear functions; inside the half-open rectangle of C26."),
"C28": ("proved", ["C28_order", "C28_sag", "C28_grouping_sag", "C28_normal", "C28_grouping_normal", "C28_single", "C28_intersection"], ""),
"C29": ("proved", ["C29_sphere", "C29_paraboloid", "C29_conic_equation"], ""),
"C30": ("partial", ["C30_plane", "C30_tilted", "C30_newton", "C30_newton_surfaces", "C30_sphere_exact", "C30_paraboloid_exact", "C30_quadric_partial", "C30_sphere_violated", "C30_paraboloid_violated", "C30_quadric_violated", "C30_quadric_parabolic_violated"], "Exact characterisation for Sphere and Paraboloid; the code violates the statement for rays starting on these surfaces and for every ray on a Quadric with conic -1."),
"C31": ("partial", ["C31_interpolates", "C31_tabulated_partial", "C31_between", "C31_reads_inside", "C31_out_of_range", "C31_last_wavelength_violated"], "Interpolation, exactness at tabulated wavelengths and NaN outside are proved for every table; the statement fails at the last tabulated wavelength, where the code reads one entry past the table (C31_last_wavelength_violated)."),
"C32": ("proved", ["C32_sellmeier", "C32_sumita", "C32_air", "C32_vacuum"], "Formulas stated against independent definitions in micrometres; reals without rounding."),
"C33": ("proved", ["C33_union", "C33_intersection", "C33_negation", "C33_not_union", "C33_not_intersection", "C33_double_negation", "C33_order", "C33_nested", "C33_deep", "C33_constructors", "C33_obscure_union"], "By structural induction over obscuration trees, for every arithmetic."),
"C34": ("proved", ["C34_circle", "C34_annulus", "C34_partition", "C34_distance_only", "C34_rotation", "C34_translation", "C34_doc_example"], "Exact reals."),
"C35": ("proved", ["C35_crossing_number", "C35_start_vertex", "C35_orientation", "C35_translation", "C35_convex_inside", "C35_convex_outside", "C35_convex_clockwise"], "contains is the crossing number rule for every vertex list; for strictly convex polygons it is the interior/exterior."),
"C36": ("partial", ["C36_grid_partial", "C36_closing_edge_violated", "C36_stride_violated", "C36_coarse_grid_violated"], "The statement is false in three independent ways (closing edge omitted, stride ny instead of nx, one intercept per grid step); equality is proved for closed vertex lists, square increasing grids that step over at most one crossing."),
"C37": ("proved", ["C37_rectangle", "C37_ray", "C37_turn", "C37_translation", "C37_quarter_turn"], "Exact reals; the rotation angle enters through its sine and cosine."),
"C38": ("proved", ["C38_straight_line", "C38_keeps_the_rest", "C38_last_target_counts", "C38_invertible"], "Exact reals; histories of propagations by induction."),
"C39": ("proved", ["C39_order", "C39_concatenation", "C39_ignored_rays", "C39_sum"], "Order and concatenation on ideal doubles including NaN and infinities; ignored rays for every arithmetic; the value is the complex sum of plane waves."),
"C40": ("proved", ["C40_zero_on_wavefront", "C40_plane_wave", "C40_propagation_invariant", "C40_period", "C40_wave_vector"], "Exact reals, rays with nonzero velocity and wavelength."),
"C41": ("partial", ["C41_index_partial", "C41_out_of_range", "C41_negative_index", "C41_last_ray", "C41_negative_index_violated", "C41_slice", "C41_reverse", "C41_mask", "C41_fancy", "C41_concatenate_partial", "C41_concatenate_empty", "C41_concatenate_frames_violated"], "Nonnegative indices, -1, slices, masks and integer arrays select the documented rays; rv[-k] returns the last k rays and concatenation drops all frames but the first, so the full statement is false."),
"C42": ("partial", ["C42_spacing_partial", "C42_length", "C42_pupil", "C42_odd_extent", "C42_even_extent", "C42_inferred", "C42_even_ratio_partial", "C42_two_rays_violated", "C42_adjusted_violated", "C42_exactly_two", "C42_exactly_two_error"], "Spacing, extent and row order hold for the parameter combinations where the code keeps what the caller asked for; nx = 2 with a spacing gives a side of length zero, and a side with a non-dividing spacing changes the spacing (both proved as violations)."),
"C43": ("partial", ["C43_fromStop_partial", "C43_asPolar_partial", "C43_forward", "C43_distance_partial", "C43_distance_violated", "C43_source_violated", "C43_degenerate", "C43_fromFieldAngles", "C43_random_partial", "C43_polar_pupil_partial"], "The launched rays form one plane wave through the requested stop points; the launch distance is measured from the origin of the ray frame, not from the stop vertex, a point source makes the constructors return None, and a direction along x gives NaN."),
"C44": ("partial", ["C44_transposed", "C44_symmetric_partial", "C44_vectors_violated", "C44_default_violated", "C44_sides_violated"], "Vector spacings are applied transposed; they agree with the request exactly for symmetric pairs of vectors, and the defaulted second vector makes every grid degenerate."),
"C45": ("partial", ["C45_uniform_partial", "C45_layout", "C45_quadrature_partial", "C45_rings_violated"], "Azimuth and ring layout of asSpokes for integer counts; array rings with an integer number of spokes give a single azimuth (violation)."),
"C46": ("partial", ["C46_init", "C46_init_values", "C46_asGrid_partial", "C46_asPolar_partial", "C46_fromStop_partial", "C46_fieldAngles_partial", "C46_fromStop_refines", "C46_asGrid_refines", "C46_asPolar_refines", "C46_fromStop_shared_violated", "C46_fromStop_modified_violated", "C46_flux_violated", "C46_fieldAngles_violated"], "RayVector(...) copies everything; asGrid/asPolar copy all but an array flux; fromStop takes over arrays of doubles passed as x, y, flux and changes them (proved violated); fromFieldAngles divides the caller arrays with the orthographic projection (proved violated). asSpokes is not in the array model."),
"C47": ("partial", ["C47_equality_partial", "C47_frame_ignored_violated", "C47_length_ignored_violated"], "Proved for ray vectors of one length in one frame; == ignores frames and compares only as many rays as the left operand has."),
"C48": ("partial", ["C48_lookup_partial", "C48_ambiguous_raises", "C48_same_name_siblings_violated"], "Full characterisation of optic[key] (ok exactly for full dotted paths and unambiguous suffixes, ValueError otherwise) for every tree whose names contain no dot and whose siblings have distinct names. With two same-named items of one compound the lookup silently returns the last one: violation proved."),
"C49": ("partial", ["C49_withGloballyShiftedOptic_partial", "C49_withLocallyShiftedOptic_partial", "C49_withLocallyRotatedOptic_partial", "C49_stop_of_rotated_interface_violated"], "For every tree with dot-free, sibling-distinct and not prefix-related names that satisfies the constructors' assertions: exactly the optic returned by o[key] and its descendants move by one rigid motion, everything else is identical (skip and coatings: C55, C56). False for an interface whose stop surface has another orientation (violation proved) and for prefix-related siblings (C50)."),
"C50": ("partial", ["C50_withSurface_partial", "C50_prefix_sibling_violated", "C50_prefix_sibling_wrong_optic_violated", "C50_reached_partial", "C50_unreached_violated"], "The optic edited is the one returned by o[key] when no sibling name is a prefix of a later one (also C49_*). Prefix-related siblings: an exception is raised, or (nested homonym) the wrong optic is silently moved; both violations proved."),
"C51": ("partial", ["C51_traceFull_partial", "C51_same_name_violated", "C51_same_name_nested_violated"], "Holds when the visited interfaces have distinct names; false otherwise (dictionary keyed by name)."),
"C52": ("proved", ["C52_reverse_order", "C52_final_frame"], ""),
"C53": ("proved", ["C53_moved_tree", "C53_shift", "C53_rotation", "C53_skipped_violated"], "All trees, rays (in any frame), rigid motions, both directions. For the with* methods the tree must have no skipped items because copies lose skip (C53_skipped_violated, see C55)."),
"C54": ("proved", ["C54_returned_rays", "C54_flux_not_created", "C54_traceSplit_ends", "C54_failed_ray_loops_violated"], "Rays with finite non-negative flux whose failed members are vignetted (an invariant of every operation, C16). For user-made rays that are failed but not vignetted the loop is proved not to terminate."),
"C55": ("partial", ["C55_trace_transparent", "C55_traceFull_transparent", "C55_traceSplit_skip_violated", "C55_constructor_ignores_skip_violated", "C55_copies_lose_skip_violated", "C55_shift_unskips_violated", "C55_own_skip_violated"], "skip set by attribute is transparent to trace and traceFull; the constructor argument is ignored, copies lose it and traceSplit raises TypeError."),
"C56": ("partial", ["C56_copies_keep_coatings_partial", "C56_copies_drop_coatings_violated", "C56_half_mirror_violated", "C56_coating_used_partial", "C56_coating_swapped_violated", "C56_forward_flux_violated"], "The property is false of the code in both halves, proved for every non-empty history of copies and every refractive interface. What holds: factory coatings survive every history, screens and plain interfaces keep theirs, detectors use the forward coating."),
"C57": ("partial", ["C57_path_follows_walk_partial", "C57_nominal_path_partial", "C57_turn_reflects", "C57_traceFull_path", "C57_single_interface_violated"], "Every walk of at least two steps (any ghost path between neighbouring interfaces, starting at the first one) is followed exactly; the nominal path equals the plain trace for telescopes of two or more interfaces, and is proved to differ for a telescope of one. Paths that jump over interfaces are excluded: the direction bookkeeping is only meaningful for neighbouring steps."),
"C58": ("partial", ["C58_withInsertedOptic_partial", "C58_withRemovedOptic_partial", "C58_insert_then_remove_partial", "C58_nested_target_violated", "C58_nested_target_example_violated", "C58_ambiguous_short_name_violated", "C58_lens_removal_raises", "C50_withSurface_partial"], "withSurface replaces exactly the named surface at any depth; insert/remove edit exactly the named item of the compound and undo each other when short names of items are unambiguous. Nested targets are silently not edited and ambiguous short names of bystanders raise KeyError: violations proved."),
"C59": ("proved", ["C59_there_and_back", "C59_back_and_there", "C59_centre", "C59_unknown", "C59_lambert_edge"], "Exact arithmetic; each projection on its natural domain (open disc for Postel and Lambert). Unit vectors follow the textbook law of each projection; the edge of the Lambert field is shown to be outside."),
"C60": ("proved", ["C60_polar", "C60_cartesian", "C60_rings", "C60_sizes", "C60_symmetry", "C60_no_rings"], "All parameters with outer > 0, inner >= 0, kfold > 0; numpy linspace modelled."),
"C61": ("proved", ["C61_coords", "C61_size", "C61_origin", "C61_rejected", "C61_no_dimensions"], "Any dimension, shape and vectors."),
"C62": ("proved", ["C62_tree", "C62_motion", "C62_nested"], "Frames in parsed trees; constructors called through eval are parameters."),
"C63": ("partial", ["C63_in_partial", "C63_out_partial", "C63_top_partial", "C63_lens", "C63_vacuum", "C63_interface_violated"], "False for plain Interface dictionaries, which ignore their media; proved for all other types. inMedium: null is not modelled."),
"C64": ("partial", ["C64_host_build", "C64_device_partial", "C64_split_all_hit", "C64_wavelength_violated", "C64_split_violated"], "Proved for every history of a build without a device. With a device it is false after an assignment to rv.wavelength and for the reflected half of a split with missing rays; proved for all other histories. Arrays kept from earlier accesses are not modelled."),
"C65": ("proved", ["C65_closest", "C65_parallel", "C65_exitPupil", "C65_exitPupil_common", "C65_exitPupil_parallel"], "points nearest to the axis, mean of them, and the point itself when all traced lines share a point of the axis"),
"C66": ("partial", ["C66_exact", "C66_partial", "C66_violated"], "holds exactly for axis aligned lattices; the code lacks minus signs"),
"C67": ("partial", ["C67_even_partial", "C67_odd_violated"], "holds for even nx; every odd nx raises IndexError"),
"C68": ("partial", ["C68_medium", "C68_coating", "C68_coordSys", "C68_transform", "C68_lattice", "C68_surface_partial", "C68_obscuration_partial", "C68_optic_partial", "C68_bicubic_violated", "C68_polygon_violated"], "False for Bicubic whose nanpolicy differs in case and for ObscPolygon compared through broadcasting (both shown). Proved in any arithmetic and for any hash respecting equality of numbers, for all other objects: documented nanpolicy spelling, polygons of two or more vertices."),
"C69": ("proved", ["C69_flux_unchanged_without_coating", "C69_flux_bounds", "C69_no_mixing"], ""),
"C70": ("partial", ["C70_optics", "C70_lookup", "C70_copies", "C70_edits", "C70_insert", "C70_lookup_in_copy", "C70_radii_partial", "C70_radii_violated"], "Proved over all histories of method calls (lookups, copies, edits, clearObscuration) on a memory of objects with caches, by refinement to optics as values. Radii hold in histories without clearObscuration only: after it R_inner, inRadius and outRadius keep the old values (violated)."),
"C71": ("partial", ["C71_methods", "C71_clear", "C71_copies_partial", "C71_shared_violated"], "No method but clearObscuration changes an existing optic; full copies are independent of everything older for ever after. Copies made by methods that change a named part share the other parts, so clearing one clears the other (violated)."),
"C72": ("proved", ["C72_optical_path", "C72_path_connected", "C72_time_origin"], ""),
"C73": ("proved", ["C73_cleared", "C73_idempotent", "C73_only_vignetting", "C73_all_clear"], ""),
"C74": ("proved", ["C74_chief", "C74_reference"], "for every grid size; reference point is the traced position of that ray alone"),
"C75": ("partial", ["C75_wavefront", "C75_perfect", "C75_small_violated", "C75_newtonian"], "holds for nx > 2 and rays inside the sphere; nx = 1 and nx = 2 never give a result (division by zero in the lattice step)"),
"C76": ("proved", ["C76_spot", "C76_count", "C76_mean", "C76_chief", "C76_newtonian"], "Numpy's mean is taken as sum over count in exact reals."),
"C77": ("proved", ["C77_intensity", "C77_time", "C77_bound", "C77_peak", "C77_psf", "C77_centre", "C77_newtonian"], "dx given (number or vectors). The waves are summed at z=0 of the last frame, which is the reference point only if that lies at z=0 (C77_centre)."),
"C78": ("proved", ["C78_conic", "C78_sphere", "C78_collimate", "C78_focus", "C78_twoMirrors"], "Exact reals. Rays whose first crossing is on the other sheet, and those parallel to the asymptotic cone, are outside the hypotheses; Quadric with conic -1 gives NaN (C30_quadric_parabolic_violated), so the parabolic case is about Paraboloid."),
"C79": ("proved", ["C79_keeps"], "Any arithmetic."),
"C80": ("partial", ["C80_medium", "C80_coating", "C80_transform", "C80_surface", "C80_obscuration", "C80_optic_partial", "C80_skip_violated"], "Proved in exact arithmetic for everything but optics; there == ignores skip (shown), and the theorem asks for equal skip flags. Signed zeros are not modelled."),
"C81": ("partial", ["C81_medium_symm", "C81_surface_symm", "C81_obscuration_symm", "C81_optic_symm", "C81_medium_refl", "C81_surface_refl", "C81_obscuration_refl", "C81_optic_refl", "C81_medium_trans", "C81_surface_trans", "C81_obscuration_trans_partial", "C81_optic_trans_partial", "C81_polygon_violated"], "Transitivity fails for polygons with one vertex (shown), and is proved for polygons with two or more."),
"C82": ("partial", ["C82_order_partial", "C82_contains", "C82_restore", "C82_tie_violated"], "Fails for items with equal repr (shown); proved when repr tells the items apart. repr itself is an arbitrary function to strings."),
"C83": ("partial", ["C83_items", "C83_names", "C83_interfaces", "C83_obscuration_violated", "C83_lens_violated", "C83_coatings"], "False for lenses with more than two items (dropped) and for the obscuration of plain Interfaces (ignored); proved otherwise. stopSurface and the extra attributes are not modelled."),
"C84": ("proved", ["C84_clear", "C84_unknown"], "Names in which Clear occurs only at the start; str.replace changes every occurrence."),
"C85": ("proved", ["C85_quadrature"], "numpy.polynomial.legendre.leggauss is a parameter whose contract is GaussRule; gaussRule_two shows the contract can be met"),
"C86": ("partial", ["C86_integral", "C86_recovers", "C86_newtonian", "C86_frame_violated"], "False for systems whose coordSys is not the global frame (the chief ray is launched without it, shown); otherwise proved for every polynomial wavefront and family of polynomials. leggauss and the Zernike family are parameters."),
"C87": ("proved", ["C87_zernike", "C87_zernike_recovers", "C87_transverse", "C87_transverse_recovers", "C87_xy"], "lstsq is a parameter satisfying the contract LeastSquares (exact rank, shortest minimiser of the sum of squares), the polynomials are any family."),
"C88": ("proved", ["C88_integral", "C88_recovers", "C88_wavefront"], "leggauss and the Zernike polynomials enter through their contracts (Gauss-Legendre rule, orthonormal polynomials)."),
"C89": ("partial", ["C89_differences", "C89_camera", "C89_gnomonic", "C89_focalLength", "C89_camera_focalLength", "C89_reversed_violated", "C89_inverse"], "Everything except focalLength of a system with negative determinant, which is NaN (C89_reversed_violated)."),
"C90": ("proved", ["C90_fit", "C90_recovers", "C90_newtonian"], "np.linalg.lstsq enters as an argument that solves least squares problems."),
"C91": ("partial", ["C91_pixels", "C91_energy", "C91_perfect", "C91_waves_partial", "C91_exact", "C91_newtonian", "C91_same_lattice", "C91_odd_violated", "C91_rotated_violated"], "Proved for even nx: every pixel as a sum over the lit pupil points, total and maximum, the position of the pixels when dkdu is diagonal, exactly those systems. Violated for turned detectors (wrong lattice) and odd nx (IndexError)."),
"C92": ("partial", ["C92_lines_partial", "C92_defaults", "C92_errors", "C92_position", "C92_straight", "C92_entry_violated", "C92_drawn_partial"], "Missing: the first vertex is drawn even if the ray arrives vignetted (C92_entry_violated), and interfaces that share a name overwrite each other's records (C51)."),
"C93": ("proved", ["C93_medium", "C93_coating", "C93_coordSys", "C93_transform", "C93_rays", "C93_surface", "C93_obscuration", "C93_optic", "C93_trace"], "Pickle protocol 2 or later; objects as the constructors make them (imin >= 1, sorted items)."),
"C94": ("partial", ["C94_interface", "C94_named_partial", "C94_order", "C94_zero", "C94_prefix_violated", "C94_wrong_optic_violated"], "Holds in every tree without prefix-related siblings. Where the name of an item is a prefix of that of a later one the call raises, or silently perturbs the wrong optic with the wrong surface (both violations proved)."),
"C95": ("partial", ["C95_lookup", "C95_traceFull", "C95_detector", "C95_media_partial", "C95_media_violated", "C95_edit_partial", "C95_hidden_violated"], "For every configuration with the types, names and media of one of the 39 files. False for 17 optics of five files (they cannot be edited: violation proved for each) and for the media of PFS.yaml. Rotations of the other optics: C49_withLocallyRotatedOptic_partial."),
"C96": ("partial", ["C96_plane", "C96_tilted", "C96_paraboloid", "C96_sphere", "C96_quadric", "C96_nearest", "C96_line", "C96_found", "C96_level_violated", "C96_start_violated"], "Missing: rays parallel to the vertex plane (C96_level_violated) and rays that start on the surface (C96_start_violated). Exact arithmetic."),
"C97": ("partial", ["C97_reversible", "C97_same_points", "C97_back", "C97_screen_violated"], "Missing: OPDScreen (C97_screen_violated). That the turned ray finds the same point of the surface is a condition of C97_reversible; C97_back gives it for the surfaces solved in closed form."),
"C98": ("partial", ["C98_malus", "C98_equal_times", "C98_parallel", "C98_point", "C98_beam", "C98_malus_chief", "C98_smooth_plane", "C98_smooth_paraboloid", "C98_smooth_sphere", "C98_smooth_quadric", "C98_smooth_asphere", "C98_smooth_zernike", "C98_smooth_sum", "C98_screen", "C98_tilted_violated", "C98_smooth_bicubic"], "Proved for all systems of mirrors, lenses, baffles and detectors. False for Tilted surfaces and for OPDScreen other than against the normal in vacuum (exact condition proved). For surfaces met by Newton iteration the hypothesis is that the point is exactly on the sag; Bicubic is smooth inside its cells (C98_smooth_bicubic), not on the edges between them."),
"C99": ("partial", ["C99_turn_partial", "C99_meridional_partial", "C99_axis_partial", "sym_polynomial", "poly_shape", "invariant_flipY", "invariant_half_turn", "invariant_round", "C99_bicubic_violated"], "For every axial symmetry of the system, both directions, including failed and undefined rays and phase screens. Planes, paraboloids, spheres, conics, aspheres, sums with a curved term, suitably tilted planes and polynomial (Zernike) surfaces with an invariant polynomial are shown to be symmetric. False for Bicubic tables over a symmetric range: the upper edge is outside (C99_bicubic_violated)."),
}
