# Axioms of the theorems in MANIFEST.json

Generated by `tools/axioms.py` from `#print axioms`.

## none

* `Batoid.Props.C41_concatenate_empty`
* `Batoid.Props.C61_rejected`

## propext

* `Batoid.Props.C06_only_position_velocity`
* `Batoid.Props.C38_keeps_the_rest`
* `Batoid.Props.C81_medium_symm`
* `Batoid.Props.C81_surface_symm`
* `Batoid.Props.C81_medium_trans`
* `Batoid.Props.C81_surface_trans`
* `Batoid.Props.C93_coating`
* `Batoid.Props.C93_coordSys`
* `Batoid.Props.C93_transform`
* `Batoid.Props.C127_toCoordSys`

## propext, Quot.sound

* `Batoid.Props.C12_failed_untouched`
* `Batoid.Props.C12_flags_monotone`
* `Batoid.Props.C13_failed_vignetted`
* `Batoid.Props.C13_new_failures_vignetted`
* `Batoid.Props.C15_refracted_is_refract`
* `Batoid.Props.C15_miss_fails_both`
* `Batoid.Props.C15_reflected_position`
* `Batoid.Props.C15_flux`
* `Batoid.Props.C16_any_schedule`
* `Batoid.Props.C16_any_schedule_split`
* `Batoid.Props.C16_schedule_implements_operation`
* `Batoid.Props.C16_batch_is_single_rays`
* `Batoid.Props.C16_batch_append`
* `Batoid.Props.C17_obscure`
* `Batoid.Props.C17_obscure_idem_comm`
* `Batoid.Props.C17_obscure_list`
* `Batoid.Props.C18_trace_frame_and_order`
* `Batoid.Props.C33_union`
* `Batoid.Props.C33_intersection`
* `Batoid.Props.C33_negation`
* `Batoid.Props.C33_order`
* `Batoid.Props.C33_constructors`
* `Batoid.Props.C33_obscure_union`
* `Batoid.Props.C39_ignored_rays`
* `Batoid.Props.C41_out_of_range`
* `Batoid.Props.C43_source_violated`
* `Batoid.Props.C46_fromStop_shared_violated`
* `Batoid.Props.C52_reverse_order`
* `Batoid.Props.C52_final_frame`
* `Batoid.Props.C54_returned_rays`
* `Batoid.Props.C55_trace_transparent`
* `Batoid.Props.C55_traceFull_transparent`
* `Batoid.Props.C56_coating_used_partial`
* `Batoid.Props.C56_coating_swapped_violated`
* `Batoid.Props.C59_unknown`
* `Batoid.Props.C64_host_build`
* `Batoid.Props.C64_device_partial`
* `Batoid.Props.C64_split_all_hit`
* `Batoid.Props.C64_wavelength_violated`
* `Batoid.Props.C64_split_violated`
* `Batoid.Props.C69_flux_unchanged_without_coating`
* `Batoid.Props.C69_no_mixing`
* `Batoid.Props.C73_cleared`
* `Batoid.Props.C73_idempotent`
* `Batoid.Props.C73_only_vignetting`
* `Batoid.Props.C73_all_clear`
* `Batoid.Props.C79_keeps`
* `Batoid.Props.C81_obscuration_symm`
* `Batoid.Props.C81_medium_refl`
* `Batoid.Props.C81_surface_refl`
* `Batoid.Props.C81_obscuration_refl`
* `Batoid.Props.C81_optic_refl`
* `Batoid.Props.C92_defaults`
* `Batoid.Props.C92_drawn_partial`
* `Batoid.Props.C93_rays`
* `Batoid.Props.C101_not_drawn`
* `Batoid.Props.C101_draws_all`
* `Batoid.Props.C101_only_partial`
* `Batoid.Props.C101_only_violated`
* `Batoid.Props.C101_only_lens`
* `Batoid.Props.C101_draws_all_3d`
* `Batoid.Props.C101_mesh_partial`
* `Batoid.Props.C101_mesh_violated`
* `Batoid.Props.C103_start_violated`
* `Batoid.Props.C117_medium`
* `Batoid.Props.C117_grid`
* `Batoid.Props.C117_polynomial`
* `Batoid.Props.C119_trace`
* `Batoid.Props.C119_closed`
* `Batoid.Props.C119_split`
* `Batoid.Props.C119_phase`
* `Batoid.Props.C119_amplitude`
* `Batoid.Props.C119_table`
* `Batoid.Props.C127_intersect`
* `Batoid.Props.C127_reflect`
* `Batoid.Props.C127_refract`
* `Batoid.Props.C127_refractScreen`
* `Batoid.Props.C127_rSplit`
* `Batoid.Props.C127_obscure`
* `Batoid.Props.C127_trace`
* `Batoid.Props.C127_interrupt_partial`
* `Batoid.Props.C127_path`
* `Batoid.Props.C127_path_known`
* `Batoid.Props.C127_path_partial`
* `Batoid.Props.C127_interrupt_violated`

## propext, Classical.choice, Quot.sound

* `Batoid.Props.C01_local_global_roundtrip`
* `Batoid.Props.C02_frames_stay_rotations`
* `Batoid.Props.C02_angle_constructors`
* `Batoid.Props.C03_shiftGlobal`
* `Batoid.Props.C03_shiftLocal`
* `Batoid.Props.C03_shiftLocal_origin`
* `Batoid.Props.C04_rotateGlobal_moves`
* `Batoid.Props.C04_rotateLocal_moves`
* `Batoid.Props.C04_rotations_rigid`
* `Batoid.Props.C04_centre_fixed`
* `Batoid.Props.C04_rotate_back`
* `Batoid.Props.C04_rotateLocal_default_origin`
* `Batoid.Props.C05_forward_reverse`
* `Batoid.Props.C05_path_independent`
* `Batoid.Props.C05_chain`
* `Batoid.Props.C05_velocity`
* `Batoid.Props.C06_isometry`
* `Batoid.Props.C07_toCoordSys_physical`
* `Batoid.Props.C07_apply`
* `Batoid.Props.C08_law_of_reflection`
* `Batoid.Props.C08_reversible`
* `Batoid.Props.C09_snell`
* `Batoid.Props.C10_speed`
* `Batoid.Props.C10_reversible`
* `Batoid.Props.C10_equal_index`
* `Batoid.Props.C11_along_line`
* `Batoid.Props.C11_intersect_keeps_velocity`
* `Batoid.Props.C11_along_line_screen`
* `Batoid.Props.C14_failed_ray_frame_violated`
* `Batoid.Props.C14_live_rays_partial`
* `Batoid.Props.C15_reflected_velocity`
* `Batoid.Props.C15_flux_conserved`
* `Batoid.Props.C18_physics`
* `Batoid.Props.C19_refractScreen`
* `Batoid.Props.C19_zero_screen`
* `Batoid.Props.C19_over_bent_ray_stays_live_violated`
* `Batoid.Props.C20_plane`
* `Batoid.Props.C20_tilted`
* `Batoid.Props.C20_paraboloid`
* `Batoid.Props.C20_sphere`
* `Batoid.Props.C20_quadric`
* `Batoid.Props.C20_sphere_near_cap`
* `Batoid.Props.C20_sphere_near_cap_violated`
* `Batoid.Props.C20_quadric_near_sheet`
* `Batoid.Props.C20_quadric_near_sheet_violated`
* `Batoid.Props.C21_paraboloid`
* `Batoid.Props.C21_sphere`
* `Batoid.Props.C21_quadric`
* `Batoid.Props.C21_plane`
* `Batoid.Props.C21_tilted`
* `Batoid.Props.C21_ray_inside_plane_violated`
* `Batoid.Props.C22_plane`
* `Batoid.Props.C22_paraboloid`
* `Batoid.Props.C22_sphere`
* `Batoid.Props.C22_quadric`
* `Batoid.Props.C22_asphere`
* `Batoid.Props.C22_bicubic`
* `Batoid.Props.C22_tilted_violated`
* `Batoid.Props.C22_tilted_flat`
* `Batoid.Props.C22_grad`
* `Batoid.Props.C22_grad_nan`
* `Batoid.Props.C23_residual`
* `Batoid.Props.C23_residual_real`
* `Batoid.Props.C23_planar_one_step`
* `Batoid.Props.C23_fixed_points`
* `Batoid.Props.C24_sag`
* `Batoid.Props.C24_imin`
* `Batoid.Props.C24_zero_coefs`
* `Batoid.Props.C24_zero_coefs_time`
* `Batoid.Props.C24_object`
* `Batoid.Props.C25_sag`
* `Batoid.Props.C25_no_term_lost`
* `Batoid.Props.C25_normal`
* `Batoid.Props.C25_zernike`
* `Batoid.Props.C25_lost_term_matters`
* `Batoid.Props.C26_finite_inside`
* `Batoid.Props.C26_nodes_partial`
* `Batoid.Props.C26_cross_derivative`
* `Batoid.Props.C26_smooth`
* `Batoid.Props.C26_gradient`
* `Batoid.Props.C26_outside`
* `Batoid.Props.C26_last_node_violated`
* `Batoid.Props.C27_bilinear`
* `Batoid.Props.C27_affine`
* `Batoid.Props.C28_order`
* `Batoid.Props.C28_sag`
* `Batoid.Props.C28_grouping_sag`
* `Batoid.Props.C28_normal`
* `Batoid.Props.C28_grouping_normal`
* `Batoid.Props.C28_single`
* `Batoid.Props.C28_intersection`
* `Batoid.Props.C29_sphere`
* `Batoid.Props.C29_paraboloid`
* `Batoid.Props.C29_conic_equation`
* `Batoid.Props.C30_plane`
* `Batoid.Props.C30_tilted`
* `Batoid.Props.C30_newton`
* `Batoid.Props.C30_newton_surfaces`
* `Batoid.Props.C30_sphere_exact`
* `Batoid.Props.C30_paraboloid_exact`
* `Batoid.Props.C30_quadric_partial`
* `Batoid.Props.C30_sphere_violated`
* `Batoid.Props.C30_paraboloid_violated`
* `Batoid.Props.C30_quadric_violated`
* `Batoid.Props.C30_quadric_parabolic_violated`
* `Batoid.Props.C31_interpolates`
* `Batoid.Props.C31_tabulated_partial`
* `Batoid.Props.C31_between`
* `Batoid.Props.C31_reads_inside`
* `Batoid.Props.C31_out_of_range`
* `Batoid.Props.C31_last_wavelength_violated`
* `Batoid.Props.C32_sellmeier`
* `Batoid.Props.C32_sumita`
* `Batoid.Props.C32_air`
* `Batoid.Props.C32_vacuum`
* `Batoid.Props.C33_not_union`
* `Batoid.Props.C33_not_intersection`
* `Batoid.Props.C33_double_negation`
* `Batoid.Props.C33_nested`
* `Batoid.Props.C33_deep`
* `Batoid.Props.C34_circle`
* `Batoid.Props.C34_annulus`
* `Batoid.Props.C34_partition`
* `Batoid.Props.C34_distance_only`
* `Batoid.Props.C34_rotation`
* `Batoid.Props.C34_translation`
* `Batoid.Props.C34_doc_example`
* `Batoid.Props.C35_crossing_number`
* `Batoid.Props.C35_start_vertex`
* `Batoid.Props.C35_orientation`
* `Batoid.Props.C35_translation`
* `Batoid.Props.C35_convex_inside`
* `Batoid.Props.C35_convex_outside`
* `Batoid.Props.C35_convex_clockwise`
* `Batoid.Props.C36_grid_partial`
* `Batoid.Props.C36_closing_edge_violated`
* `Batoid.Props.C36_stride_violated`
* `Batoid.Props.C36_coarse_grid_violated`
* `Batoid.Props.C37_rectangle`
* `Batoid.Props.C37_ray`
* `Batoid.Props.C37_turn`
* `Batoid.Props.C37_translation`
* `Batoid.Props.C37_quarter_turn`
* `Batoid.Props.C38_straight_line`
* `Batoid.Props.C38_last_target_counts`
* `Batoid.Props.C38_invertible`
* `Batoid.Props.C39_order`
* `Batoid.Props.C39_concatenation`
* `Batoid.Props.C39_sum`
* `Batoid.Props.C40_zero_on_wavefront`
* `Batoid.Props.C40_plane_wave`
* `Batoid.Props.C40_propagation_invariant`
* `Batoid.Props.C40_period`
* `Batoid.Props.C40_wave_vector`
* `Batoid.Props.C41_index_partial`
* `Batoid.Props.C41_negative_index`
* `Batoid.Props.C41_last_ray`
* `Batoid.Props.C41_negative_index_violated`
* `Batoid.Props.C41_slice`
* `Batoid.Props.C41_reverse`
* `Batoid.Props.C41_mask`
* `Batoid.Props.C41_fancy`
* `Batoid.Props.C41_concatenate_partial`
* `Batoid.Props.C41_concatenate_frames_violated`
* `Batoid.Props.C42_spacing_partial`
* `Batoid.Props.C42_length`
* `Batoid.Props.C42_pupil`
* `Batoid.Props.C42_odd_extent`
* `Batoid.Props.C42_even_extent`
* `Batoid.Props.C42_inferred`
* `Batoid.Props.C42_even_ratio_partial`
* `Batoid.Props.C42_two_rays_violated`
* `Batoid.Props.C42_adjusted_violated`
* `Batoid.Props.C42_exactly_two`
* `Batoid.Props.C42_exactly_two_error`
* `Batoid.Props.C43_fromStop_partial`
* `Batoid.Props.C43_asPolar_partial`
* `Batoid.Props.C43_forward`
* `Batoid.Props.C43_distance_partial`
* `Batoid.Props.C43_distance_violated`
* `Batoid.Props.C43_degenerate`
* `Batoid.Props.C43_fromFieldAngles`
* `Batoid.Props.C43_random_partial`
* `Batoid.Props.C43_polar_pupil_partial`
* `Batoid.Props.C44_transposed`
* `Batoid.Props.C44_symmetric_partial`
* `Batoid.Props.C44_vectors_violated`
* `Batoid.Props.C44_default_violated`
* `Batoid.Props.C44_sides_violated`
* `Batoid.Props.C45_uniform_partial`
* `Batoid.Props.C45_layout`
* `Batoid.Props.C45_quadrature_partial`
* `Batoid.Props.C45_rings_violated`
* `Batoid.Props.C46_init`
* `Batoid.Props.C46_init_values`
* `Batoid.Props.C46_asGrid_partial`
* `Batoid.Props.C46_asPolar_partial`
* `Batoid.Props.C46_fromStop_partial`
* `Batoid.Props.C46_fieldAngles_partial`
* `Batoid.Props.C46_fromStop_refines`
* `Batoid.Props.C46_asGrid_refines`
* `Batoid.Props.C46_asPolar_refines`
* `Batoid.Props.C46_fromStop_modified_violated`
* `Batoid.Props.C46_flux_violated`
* `Batoid.Props.C46_fieldAngles_violated`
* `Batoid.Props.C47_equality_partial`
* `Batoid.Props.C47_frame_ignored_violated`
* `Batoid.Props.C47_length_ignored_violated`
* `Batoid.Props.C48_lookup_partial`
* `Batoid.Props.C48_ambiguous_raises`
* `Batoid.Props.C48_same_name_siblings_violated`
* `Batoid.Props.C49_withGloballyShiftedOptic_partial`
* `Batoid.Props.C49_withLocallyShiftedOptic_partial`
* `Batoid.Props.C49_withLocallyRotatedOptic_partial`
* `Batoid.Props.C49_stop_of_rotated_interface_violated`
* `Batoid.Props.C50_withSurface_partial`
* `Batoid.Props.C50_prefix_sibling_violated`
* `Batoid.Props.C50_prefix_sibling_wrong_optic_violated`
* `Batoid.Props.C50_reached_partial`
* `Batoid.Props.C50_unreached_violated`
* `Batoid.Props.C51_traceFull_partial`
* `Batoid.Props.C51_same_name_violated`
* `Batoid.Props.C51_same_name_nested_violated`
* `Batoid.Props.C53_moved_tree`
* `Batoid.Props.C53_shift`
* `Batoid.Props.C53_rotation`
* `Batoid.Props.C53_skipped_violated`
* `Batoid.Props.C54_flux_not_created`
* `Batoid.Props.C54_traceSplit_ends`
* `Batoid.Props.C54_failed_ray_loops_violated`
* `Batoid.Props.C55_traceSplit_skip_violated`
* `Batoid.Props.C55_constructor_ignores_skip_violated`
* `Batoid.Props.C55_copies_lose_skip_violated`
* `Batoid.Props.C55_shift_unskips_violated`
* `Batoid.Props.C55_own_skip_violated`
* `Batoid.Props.C56_copies_keep_coatings_partial`
* `Batoid.Props.C56_copies_drop_coatings_violated`
* `Batoid.Props.C56_half_mirror_violated`
* `Batoid.Props.C56_forward_flux_violated`
* `Batoid.Props.C57_path_follows_walk_partial`
* `Batoid.Props.C57_nominal_path_partial`
* `Batoid.Props.C57_turn_reflects`
* `Batoid.Props.C57_traceFull_path`
* `Batoid.Props.C57_single_interface_violated`
* `Batoid.Props.C58_withInsertedOptic_partial`
* `Batoid.Props.C58_withRemovedOptic_partial`
* `Batoid.Props.C58_insert_then_remove_partial`
* `Batoid.Props.C58_nested_target_violated`
* `Batoid.Props.C58_nested_target_example_violated`
* `Batoid.Props.C58_ambiguous_short_name_violated`
* `Batoid.Props.C58_lens_removal_raises`
* `Batoid.Props.C50_withSurface_partial`
* `Batoid.Props.C59_there_and_back`
* `Batoid.Props.C59_back_and_there`
* `Batoid.Props.C59_centre`
* `Batoid.Props.C59_lambert_edge`
* `Batoid.Props.C60_polar`
* `Batoid.Props.C60_cartesian`
* `Batoid.Props.C60_rings`
* `Batoid.Props.C60_sizes`
* `Batoid.Props.C60_symmetry`
* `Batoid.Props.C60_no_rings`
* `Batoid.Props.C61_coords`
* `Batoid.Props.C61_size`
* `Batoid.Props.C61_origin`
* `Batoid.Props.C61_no_dimensions`
* `Batoid.Props.C62_tree`
* `Batoid.Props.C62_motion`
* `Batoid.Props.C62_nested`
* `Batoid.Props.C63_in_partial`
* `Batoid.Props.C63_out_partial`
* `Batoid.Props.C63_top_partial`
* `Batoid.Props.C63_lens`
* `Batoid.Props.C63_vacuum`
* `Batoid.Props.C63_interface_violated`
* `Batoid.Props.C65_closest`
* `Batoid.Props.C65_parallel`
* `Batoid.Props.C65_exitPupil`
* `Batoid.Props.C65_exitPupil_common`
* `Batoid.Props.C65_exitPupil_parallel`
* `Batoid.Props.C66_exact`
* `Batoid.Props.C66_partial`
* `Batoid.Props.C66_violated`
* `Batoid.Props.C67_even_partial`
* `Batoid.Props.C67_odd_violated`
* `Batoid.Props.C68_medium`
* `Batoid.Props.C68_coating`
* `Batoid.Props.C68_coordSys`
* `Batoid.Props.C68_transform`
* `Batoid.Props.C68_lattice`
* `Batoid.Props.C68_surface_partial`
* `Batoid.Props.C68_obscuration_partial`
* `Batoid.Props.C68_optic_partial`
* `Batoid.Props.C68_bicubic_violated`
* `Batoid.Props.C68_polygon_violated`
* `Batoid.Props.C69_flux_bounds`
* `Batoid.Props.C70_optics`
* `Batoid.Props.C70_lookup`
* `Batoid.Props.C70_copies`
* `Batoid.Props.C70_edits`
* `Batoid.Props.C70_insert`
* `Batoid.Props.C70_lookup_in_copy`
* `Batoid.Props.C70_radii_partial`
* `Batoid.Props.C70_radii_violated`
* `Batoid.Props.C71_methods`
* `Batoid.Props.C71_clear`
* `Batoid.Props.C71_copies_partial`
* `Batoid.Props.C71_shared_violated`
* `Batoid.Props.C72_optical_path`
* `Batoid.Props.C72_path_connected`
* `Batoid.Props.C72_time_origin`
* `Batoid.Props.C74_chief`
* `Batoid.Props.C74_reference`
* `Batoid.Props.C75_wavefront`
* `Batoid.Props.C75_perfect`
* `Batoid.Props.C75_small_violated`
* `Batoid.Props.C75_newtonian`
* `Batoid.Props.C76_spot`
* `Batoid.Props.C76_count`
* `Batoid.Props.C76_mean`
* `Batoid.Props.C76_chief`
* `Batoid.Props.C76_newtonian`
* `Batoid.Props.C77_intensity`
* `Batoid.Props.C77_time`
* `Batoid.Props.C77_bound`
* `Batoid.Props.C77_peak`
* `Batoid.Props.C77_psf`
* `Batoid.Props.C77_centre`
* `Batoid.Props.C77_newtonian`
* `Batoid.Props.C78_conic`
* `Batoid.Props.C78_sphere`
* `Batoid.Props.C78_collimate`
* `Batoid.Props.C78_focus`
* `Batoid.Props.C78_twoMirrors`
* `Batoid.Props.C80_medium`
* `Batoid.Props.C80_coating`
* `Batoid.Props.C80_transform`
* `Batoid.Props.C80_surface`
* `Batoid.Props.C80_obscuration`
* `Batoid.Props.C80_optic_partial`
* `Batoid.Props.C80_skip_violated`
* `Batoid.Props.C81_optic_symm`
* `Batoid.Props.C81_obscuration_trans_partial`
* `Batoid.Props.C81_optic_trans_partial`
* `Batoid.Props.C81_polygon_violated`
* `Batoid.Props.C82_order_partial`
* `Batoid.Props.C82_contains`
* `Batoid.Props.C82_restore`
* `Batoid.Props.C82_tie_violated`
* `Batoid.Props.C83_items`
* `Batoid.Props.C83_names`
* `Batoid.Props.C83_interfaces`
* `Batoid.Props.C83_obscuration_violated`
* `Batoid.Props.C83_lens_violated`
* `Batoid.Props.C83_coatings`
* `Batoid.Props.C84_clear`
* `Batoid.Props.C84_unknown`
* `Batoid.Props.C85_quadrature`
* `Batoid.Props.C86_integral`
* `Batoid.Props.C86_recovers`
* `Batoid.Props.C86_newtonian`
* `Batoid.Props.C86_frame_violated`
* `Batoid.Props.C87_zernike`
* `Batoid.Props.C87_zernike_recovers`
* `Batoid.Props.C87_transverse`
* `Batoid.Props.C87_transverse_recovers`
* `Batoid.Props.C87_xy`
* `Batoid.Props.C88_integral`
* `Batoid.Props.C88_recovers`
* `Batoid.Props.C88_wavefront`
* `Batoid.Props.C89_differences`
* `Batoid.Props.C89_camera`
* `Batoid.Props.C89_gnomonic`
* `Batoid.Props.C89_focalLength`
* `Batoid.Props.C89_camera_focalLength`
* `Batoid.Props.C89_reversed_violated`
* `Batoid.Props.C89_inverse`
* `Batoid.Props.C90_fit`
* `Batoid.Props.C90_recovers`
* `Batoid.Props.C90_newtonian`
* `Batoid.Props.C91_pixels`
* `Batoid.Props.C91_energy`
* `Batoid.Props.C91_perfect`
* `Batoid.Props.C91_waves_partial`
* `Batoid.Props.C91_exact`
* `Batoid.Props.C91_newtonian`
* `Batoid.Props.C91_same_lattice`
* `Batoid.Props.C91_odd_violated`
* `Batoid.Props.C91_rotated_violated`
* `Batoid.Props.C92_lines_partial`
* `Batoid.Props.C92_errors`
* `Batoid.Props.C92_position`
* `Batoid.Props.C92_straight`
* `Batoid.Props.C92_entry_violated`
* `Batoid.Props.C93_medium`
* `Batoid.Props.C93_surface`
* `Batoid.Props.C93_obscuration`
* `Batoid.Props.C93_optic`
* `Batoid.Props.C93_trace`
* `Batoid.Props.C94_interface`
* `Batoid.Props.C94_named_partial`
* `Batoid.Props.C94_order`
* `Batoid.Props.C94_zero`
* `Batoid.Props.C94_prefix_violated`
* `Batoid.Props.C94_wrong_optic_violated`
* `Batoid.Props.C95_lookup`
* `Batoid.Props.C95_traceFull`
* `Batoid.Props.C95_detector`
* `Batoid.Props.C95_media_partial`
* `Batoid.Props.C95_media_violated`
* `Batoid.Props.C95_edit_partial`
* `Batoid.Props.C95_hidden_violated`
* `Batoid.Props.C96_plane`
* `Batoid.Props.C96_tilted`
* `Batoid.Props.C96_paraboloid`
* `Batoid.Props.C96_sphere`
* `Batoid.Props.C96_quadric`
* `Batoid.Props.C96_nearest`
* `Batoid.Props.C96_line`
* `Batoid.Props.C96_found`
* `Batoid.Props.C96_level_violated`
* `Batoid.Props.C96_start_violated`
* `Batoid.Props.C97_reversible`
* `Batoid.Props.C97_same_points`
* `Batoid.Props.C97_back`
* `Batoid.Props.C97_screen_violated`
* `Batoid.Props.C98_malus`
* `Batoid.Props.C98_equal_times`
* `Batoid.Props.C98_parallel`
* `Batoid.Props.C98_point`
* `Batoid.Props.C98_beam`
* `Batoid.Props.C98_malus_chief`
* `Batoid.Props.C98_smooth_plane`
* `Batoid.Props.C98_smooth_paraboloid`
* `Batoid.Props.C98_smooth_sphere`
* `Batoid.Props.C98_smooth_quadric`
* `Batoid.Props.C98_smooth_asphere`
* `Batoid.Props.C98_smooth_zernike`
* `Batoid.Props.C98_smooth_sum`
* `Batoid.Props.C98_screen`
* `Batoid.Props.C98_tilted_violated`
* `Batoid.Props.C98_smooth_bicubic`
* `Batoid.Props.C99_turn_partial`
* `Batoid.Props.C99_meridional_partial`
* `Batoid.Props.C99_axis_partial`
* `Batoid.Props.sym_polynomial`
* `Batoid.Props.poly_shape`
* `Batoid.Props.invariant_flipY`
* `Batoid.Props.invariant_half_turn`
* `Batoid.Props.invariant_round`
* `Batoid.Props.C99_bicubic_violated`
* `Batoid.Props.C100_skew`
* `Batoid.Props.C100_ray`
* `Batoid.Props.C100_distance`
* `Batoid.Props.C101_slice_halves`
* `Batoid.Props.C101_slice_joined`
* `Batoid.Props.C101_slice_on_surface`
* `Batoid.Props.C101_one_point_violated`
* `Batoid.Props.C101_aperture_partial`
* `Batoid.Props.C101_aperture_violated`
* `Batoid.Props.C101_curves_3d`
* `Batoid.Props.C101_lens_whole`
* `Batoid.Props.C101_lens_holed`
* `Batoid.Props.C101_lens_violated`
* `Batoid.Props.C102_to_horizon`
* `Batoid.Props.C102_to_equator`
* `Batoid.Props.C102_there_and_back`
* `Batoid.Props.C102_back_and_there`
* `Batoid.Props.C102_zenith_violated`
* `Batoid.Props.C102_sidereal_partial`
* `Batoid.Props.C102_sidereal_violated`
* `Batoid.Props.C103_layout_partial`
* `Batoid.Props.C103_piston_violated`
* `Batoid.Props.C104_length_partial`
* `Batoid.Props.C104_spacing_partial`
* `Batoid.Props.C104_pupil`
* `Batoid.Props.C104_default_violated`
* `Batoid.Props.C104_single_violated`
* `Batoid.Props.C104_centre_violated`
* `Batoid.Props.C105_invariant`
* `Batoid.Props.C105_etendue`
* `Batoid.Props.C105_image`
* `Batoid.Props.C105_pencil`
* `Batoid.Props.C105_chief`
* `Batoid.Props.C105_screen`
* `Batoid.Props.C105_tilted_violated`
* `Batoid.Props.C106_fermat`
* `Batoid.Props.C106_sensitivity`
* `Batoid.Props.C106_mirror`
* `Batoid.Props.C106_tilted_violated`
* `Batoid.Props.C107_star`
* `Batoid.Props.C107_aim`
* `Batoid.Props.C107_pointing`
* `Batoid.Props.C107_frames`
* `Batoid.Props.C107_axes`
* `Batoid.Props.C107_grid`
* `Batoid.Props.C107_rays`
* `Batoid.Props.C108_event_partial`
* `Batoid.Props.C108_session_partial`
* `Batoid.Props.C108_initial`
* `Batoid.Props.C108_camera_frame_violated`
* `Batoid.Props.C108_zenith_violated`
* `Batoid.Props.C109_gauss`
* `Batoid.Props.C109_pencil`
* `Batoid.Props.C109_vertex`
* `Batoid.Props.C109_asphere`
* `Batoid.Props.C109_matrix`
* `Batoid.Props.C109_scale`
* `Batoid.Props.C109_mirror`
* `Batoid.Props.C109_lens`
* `Batoid.Props.C110_routes`
* `Batoid.Props.C110_nesting`
* `Batoid.Props.C110_distinct_paths`
* `Batoid.Props.C110_trace_path`
* `Batoid.Props.C110_returns`
* `Batoid.Props.C111_forward`
* `Batoid.Props.C111_velocity`
* `Batoid.Props.C111_reverse`
* `Batoid.Props.C111_round_trip`
* `Batoid.Props.C111_velocity_back`
* `Batoid.Props.C112_drift`
* `Batoid.Props.C113_contains`
* `Batoid.Props.C113_obscure`
* `Batoid.Props.C113_needs_margin`
* `Batoid.Props.C114_plane`
* `Batoid.Props.C114_quadric`
* `Batoid.Props.C114_asphere`
* `Batoid.Props.C114_sphere`
* `Batoid.Props.C114_paraboloid`
* `Batoid.Props.C114_polynomial`
* `Batoid.Props.C114_bicubic`
* `Batoid.Props.C114_sum`
* `Batoid.Props.C114_tilted`
* `Batoid.Props.C115_propagate`
* `Batoid.Props.C115_plane`
* `Batoid.Props.C115_reflect`
* `Batoid.Props.C115_speed`
* `Batoid.Props.C116_direction`
* `Batoid.Props.C116_refract`
* `Batoid.Props.C116_history`
* `Batoid.Props.C117_asphere`
* `Batoid.Props.C117_asphere_integers`
* `Batoid.Props.C117_asphere_violated`
* `Batoid.Props.C117_medium_lengths`
* `Batoid.Props.C117_medium_integers`
* `Batoid.Props.C117_medium_violated`
* `Batoid.Props.C117_polygon`
* `Batoid.Props.C117_polygon_violated`
* `Batoid.Props.C117_grid_violated`
* `Batoid.Props.C117_table`
* `Batoid.Props.C117_table_violated`
* `Batoid.Props.C117_polynomial_violated`
* `Batoid.Props.C117_normal`
* `Batoid.Props.C117_rays`
* `Batoid.Props.C117_rays_rows`
* `Batoid.Props.C117_rays_violated`
* `Batoid.Props.C117_stop`
* `Batoid.Props.C117_stop_violated`
* `Batoid.Props.C118_sphere`
* `Batoid.Props.C118_sphere_distance`
* `Batoid.Props.C118_sphere_miss`
* `Batoid.Props.C118_sphere_clear`
* `Batoid.Props.C118_paraboloid`
* `Batoid.Props.C118_quadric`
* `Batoid.Props.C118_tilted`
* `Batoid.Props.C118_iterated`
* `Batoid.Props.C119_exact`
* `Batoid.Props.C119_double`
* `Batoid.Props.C119_iterated_partial`
* `Batoid.Props.C119_newton_violated`
* `Batoid.Props.C119_glass_violated`
* `Batoid.Props.units_dbl`
* `Batoid.Props.units_flt`
* `Batoid.Props.units_rd53`
* `Batoid.Props.C120_converges`
* `Batoid.Props.C120_found`
* `Batoid.Props.C120_only`
* `Batoid.Props.C120_figure`
* `Batoid.Props.C120_near`
* `Batoid.Props.C120_parallel`
* `Batoid.Props.C120_parallel_polynomial`
* `Batoid.Props.C120_parallel_asphere`
* `Batoid.Props.C120_far_violated`
* `Batoid.Props.C121_straight`
* `Batoid.Props.C121_stack`
* `Batoid.Props.C121_plate`
* `Batoid.Props.C121_mirrors`
* `Batoid.Props.C121_corner`
* `Batoid.Props.C121_periscope`
* `Batoid.Props.C122_focus`
* `Batoid.Props.C122_collimate`
* `Batoid.Props.C122_aplanatic`
* `Batoid.Props.C122_arrives`
* `Batoid.Props.C122_singlet`
* `Batoid.Props.C123_safe_partial`
* `Batoid.Props.C123_once`
* `Batoid.Props.C123_freed`
* `Batoid.Props.C123_items_violated`
* `Batoid.Props.C123_attribute_violated`
* `Batoid.Props.C123_array_violated`
* `Batoid.Props.C123_leak_violated`
* `Batoid.Props.C123_violated`
* `Batoid.Props.C124_medium`
* `Batoid.Props.C124_coating`
* `Batoid.Props.C124_surface`
* `Batoid.Props.C124_obscuration`
* `Batoid.Props.C124_coordSys`
* `Batoid.Props.C124_coordTransform`
* `Batoid.Props.C124_lattice`
* `Batoid.Props.C124_rays`
* `Batoid.Props.C124_optic_partial`
* `Batoid.Props.C124_trace_partial`
* `Batoid.Props.C124_attributes_violated`
* `Batoid.Props.C124_empty_violated`
* `Batoid.Props.C124_long_violated`
* `Batoid.Props.C124_digits_violated`
* `Batoid.Props.C125_quadric_sag`
* `Batoid.Props.C125_quadric_normal`
* `Batoid.Props.C125_sphere_normal`
* `Batoid.Props.C125_sphere_sag_partial`
* `Batoid.Props.C125_paraboloid_sag`
* `Batoid.Props.C125_paraboloid_normal`
* `Batoid.Props.C125_tilted_sag`
* `Batoid.Props.C125_asphere_sag`
* `Batoid.Props.C125_asphere_normal`
* `Batoid.Props.C125_sum_sag`
* `Batoid.Props.C125_reflect`
* `Batoid.Props.C125_quadric_mirror`
* `Batoid.Props.C125_sphere_violated`
* `Batoid.Props.C126_parabola`
* `Batoid.Props.C126_conic`
* `Batoid.Props.C126_sphere`
* `Batoid.Props.C126_shift`
* `Batoid.Props.C126_spot`
* `Batoid.Props.C126_prime_focus`
* `Batoid.Props.C126_cassegrain`
* `Batoid.Props.C127_path_violated`
* `Batoid.Props.C127_relabel_violated`
* `Batoid.Props.C128_angle_split`
* `Batoid.Props.C128_angle_single`
* `Batoid.Props.C128_angle_violated`
* `Batoid.Props.C128_split_partial`
* `Batoid.Props.C128_total_reflection_violated`
* `Batoid.Props.C128_half_lost_violated`
* `Batoid.Props.C129_intersect`
* `Batoid.Props.C129_reflect`
* `Batoid.Props.C129_refract`
* `Batoid.Props.C129_parabola`
* `Batoid.Props.C129_prime_focus`
* `Batoid.Props.C129_conic`
* `Batoid.Props.C130_polynomial_sag`
* `Batoid.Props.C130_polynomial_normal`
* `Batoid.Props.C130_sum_normal`
* `Batoid.Props.C130_lands`
* `Batoid.Props.C130_polynomial_reflect`
* `Batoid.Props.C131_refract`
* `Batoid.Props.C131_enters`
* `Batoid.Props.C131_focus`
* `Batoid.Props.C131_spot`
* `Batoid.Props.C132_phase`
* `Batoid.Props.C132_amplitude`
* `Batoid.Props.C132_sum`
* `Batoid.Props.C132_threads`
* `Batoid.Props.C132_psf`
* `Batoid.Props.C132_wavevector`
* `Batoid.Props.C133_converges`
* `Batoid.Props.C133_found`
* `Batoid.Props.C133_lands`
* `Batoid.Props.C134_table`
* `Batoid.Props.C134_sellmeier`
* `Batoid.Props.C134_sumita`
* `Batoid.Props.C134_air`
* `Batoid.Props.C135_sag`
* `Batoid.Props.C135_normal`
* `Batoid.Props.C135_outside`
* `Batoid.Props.C136_direction`
* `Batoid.Props.C136_back`
* `Batoid.Props.C136_postel_back`
* `Batoid.Props.C136_orthographic`
* `Batoid.Props.C136_lambert`
* `Batoid.Props.C136_lambert_violated`
* `Batoid.Props.C136_postel_violated`
* `Batoid.Props.C136_stereographic_violated`
* `Batoid.Props.C137_finish`
* `Batoid.Props.C137_launch`
* `Batoid.Props.C137_fromFieldAngles`
* `Batoid.Props.C138_points`
* `Batoid.Props.C138_asGrid`
* `Batoid.Props.C138_asFan`
* `Batoid.Props.C139_points`
* `Batoid.Props.C139_asSpokes`
* `Batoid.Props.C139_quadrature`
* `Batoid.Props.C139_fromStop`
* `Batoid.Props.C139_asPolarRandom`
