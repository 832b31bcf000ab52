'Verif.C01_count' depends on axioms: [propext, Classical.choice, Quot.sound]
'Verif.C01_order' depends on axioms: [propext, Classical.choice, Quot.sound]
'Verif.C01_order_3d' depends on axioms: [propext, Classical.choice, Quot.sound]
'Verif.C01_unit' depends on axioms: [propext, Classical.choice, Quot.sound]
'Verif.C02_length' depends on axioms: [propext, Classical.choice, Quot.sound]
'Verif.C02_aligned' depends on axioms: [propext, Classical.choice, Quot.sound]
'Verif.C02_block' depends on axioms: [propext, Classical.choice, Quot.sound]
'Verif.C03_range' depends on axioms: [propext]
'Verif.C03_reconstruct' depends on axioms: [propext, Classical.choice, Quot.sound]
'Verif.C03_row' depends on axioms: [propext, Classical.choice, Quot.sound]
'Verif.C03_injective' depends on axioms: [propext, Classical.choice, Quot.sound]
'Verif.C03_decode' depends on axioms: [propext, Classical.choice, Quot.sound]
'Verif.C04_iff' depends on axioms: [propext, Classical.choice, Quot.sound]
'Verif.C04_partial' depends on axioms: [propext, Classical.choice, Quot.sound]
'Verif.C04_violated' depends on axioms: [propext, Classical.choice, Quot.sound]
'Verif.C04_diagflat' depends on axioms: [propext, Classical.choice, Quot.sound]
'Verif.C05_cart_scaled_cart' depends on axioms: [propext, Classical.choice, Quot.sound]
'Verif.C05_scaled_cart_scaled' depends on axioms: [propext, Classical.choice, Quot.sound]
'Verif.C05_supercell' depends on axioms: [propext, Classical.choice, Quot.sound]
'Verif.C06_rule' depends on axioms: [propext, Classical.choice, Quot.sound]
'Verif.C06_first_occurrence' depends on axioms: [propext, Classical.choice, Quot.sound]
'Verif.C06_labels' depends on axioms: [propext, Classical.choice, Quot.sound]
'Verif.C06_classes' depends on axioms: [propext, Classical.choice, Quot.sound]
'Verif.C06_object' depends on axioms: [propext, Classical.choice, Quot.sound]
'Verif.C07_partial' depends on axioms: [propext, Classical.choice, Quot.sound]
'Verif.C07_violated' depends on axioms: [propext, Classical.choice, Quot.sound]
'Verif.C08_set_cell_partial' depends on axioms: [propext, Classical.choice, Quot.sound]
'Verif.C08_primitive_partial' depends on axioms: [propext, Classical.choice, Quot.sound]
'Verif.C08_set_positions_violated' depends on axioms: [propext, Classical.choice, Quot.sound]
'Verif.C08_set_positions_partial' depends on axioms: [propext, Classical.choice, Quot.sound]
'Verif.C08_set_cell_violated' depends on axioms: [propext, Classical.choice, Quot.sound]
'Verif.C09_table' depends on axioms: [propext, Classical.choice, Quot.sound]
'Verif.C09_from_elements' depends on axioms: [propext, Classical.choice, Quot.sound]
'Verif.C09_from_masses' depends on axioms: [propext, Classical.choice, Quot.sound]
'Verif.C09_rounded_masses' depends on axioms: [propext, Classical.choice, Quot.sound]
'Verif.C09_explicit' depends on axioms: [propext, Classical.choice, Quot.sound]
'Verif.C09_unknown_mass_violated' depends on axioms: [propext, Classical.choice, Quot.sound]
'Verif.C09_zero_mass_violated' depends on axioms: [propext, Classical.choice, Quot.sound]
'Verif.C10_minimum_image' depends on axioms: [propext, Classical.choice, Quot.sound]
'Verif.C11_determinant' depends on axioms: [propext, Classical.choice, Quot.sound]
'Verif.C11_inverse_partial' depends on axioms: [propext, Classical.choice, Quot.sound]
'Verif.C11_inverse_one_violated' depends on axioms: [propext, Quot.sound]
'Verif.C12_periodic_images' depends on axioms: [propext, Classical.choice, Quot.sound]
'Verif.C12_tie' depends on axioms: [propext, Classical.choice, Quot.sound]
'Verif.C13_unknown_partial' depends on axioms: [propext, Classical.choice, Quot.sound]
'Verif.C13_noop' depends on axioms: [propext, Classical.choice, Quot.sound]
'Verif.C13_crop_partial' depends on axioms: [propext, Classical.choice, Quot.sound]
'Verif.C13_crop_twice_partial' depends on axioms: [propext, Classical.choice, Quot.sound]
'Verif.C13_velocity_violated' depends on axioms: [propext, Classical.choice, Quot.sound]
'Verif.C14_derived_partial' depends on axioms: [propext, Classical.choice, Quot.sound]
'Verif.C14_time_step_violated' depends on axioms: [propext, Classical.choice, Quot.sound]
'Verif.C14_mean_disp_violated' depends on axioms: [propext, Classical.choice, Quot.sound]
'Verif.C14_memmap_violated' depends on axioms: [propext, Classical.choice, Quot.sound]
'Verif.C15_exact' depends on axioms: [propext, Classical.choice, Quot.sound]
'Verif.C15_stop_partial' depends on axioms: [propext, Classical.choice, Quot.sound]
'Verif.C15_iff' depends on axioms: [propext, Classical.choice, Quot.sound]
'Verif.C15_violated' depends on axioms: [propext, Classical.choice, Quot.sound]
'Verif.C16_double' depends on axioms: [propext, Classical.choice, Quot.sound]
'Verif.C16_average' depends on axioms: [propext, Classical.choice, Quot.sound]
'Verif.C16_error' depends on axioms: [propext, Classical.choice, Quot.sound]
'Verif.C16_repeat' depends on axioms: [propext, Classical.choice, Quot.sound]
'Verif.C16_uniform' depends on axioms: [propext, Classical.choice, Quot.sound]
'Verif.C17_uniform_partial' depends on axioms: [propext, Classical.choice, Quot.sound]
'Verif.C17_static' depends on axioms: [propext, Classical.choice, Quot.sound]
'Verif.C17_wrapping' depends on axioms: [propext, Classical.choice, Quot.sound]
'Verif.C17_short' depends on axioms: [propext, Classical.choice, Quot.sound]
'Verif.C17_drift_violated' depends on axioms: [propext, Classical.choice, Quot.sound]
'Verif.C17_accuracy' depends on axioms: [propext, Classical.choice, Quot.sound]
'Verif.C17_harmonic' depends on axioms: [propext, Classical.choice, Quot.sound]
'Verif.C18_entry' depends on axioms: [propext, Classical.choice, Quot.sound]
'Verif.C18_kinetic' depends on axioms: [propext, Classical.choice, Quot.sound]
'Verif.C19_average' depends on axioms: [propext, Classical.choice, Quot.sound]
'Verif.C19_unit_cell_partial' depends on axioms: [propext, Classical.choice, Quot.sound]
'Verif.C19_unit_cell_violated' depends on axioms: [propext, Classical.choice, Quot.sound]
'Verif.C20_average' depends on axioms: [propext, Classical.choice, Quot.sound]
'Verif.C20_covariance' depends on axioms: [propext, Classical.choice, Quot.sound]
'Verif.C20_posSemidef' depends on axioms: [propext, Classical.choice, Quot.sound]
'Verif.C20_first_call_partial' depends on axioms: [propext, Quot.sound]
'Verif.C20_cache_violated' depends on axioms: [propext, Quot.sound]
'Verif.C21_separate_partial' depends on axioms: [propext, Quot.sound]
'Verif.C21_cleanup' depends on axioms: [propext, Quot.sound]
'Verif.C21_violated' depends on axioms: [propext, Classical.choice, Quot.sound]
'Verif.C22_agree' depends on axioms: [propext, Classical.choice, Quot.sound]
'Verif.C23_power' depends on axioms: [propext, Classical.choice, Quot.sound]
'Verif.C24_power' depends on axioms: [propext, Classical.choice, Quot.sound]
'Verif.C24_linear' depends on axioms: [propext, Classical.choice, Quot.sound]
'Verif.C24_origin' depends on axioms: [propext, Classical.choice, Quot.sound]
'Verif.C24_power_primitive' depends on axioms: [propext, Classical.choice, Quot.sound]
'Verif.C25_restricted' depends on axioms: [propext, Classical.choice, Quot.sound]
'Verif.C25_sum' depends on axioms: [propext, Classical.choice, Quot.sound]
'Verif.C26_double' depends on axioms: [propext, Classical.choice, Quot.sound]
'Verif.C26_accepted_near' depends on axioms: [propext, Classical.choice, Quot.sound]
'Verif.C26_reciprocal' depends on axioms: [propext, Classical.choice, Quot.sound]
'Verif.C26_phase_iff' depends on axioms: [propext, Classical.choice, Quot.sound]
'Verif.C26_accepts' depends on axioms: [propext, Classical.choice, Quot.sound]
'Verif.C27_division' depends on axioms: [propext, Classical.choice, Quot.sound]
'Verif.C27_returns' depends on axioms: [propext, Classical.choice, Quot.sound]
'Verif.C27_double' depends on axioms: [propext, Classical.choice, Quot.sound]
'Verif.C27_double_one' depends on axioms: [propext, Classical.choice, Quot.sound]
'Verif.C27_double_size' depends on axioms: [propext, Classical.choice, Quot.sound]
'Verif.C27_double_violated' depends on axioms: [propext, Classical.choice, Quot.sound]
'Verif.C27_ragged_violated' depends on axioms: [propext, Classical.choice, Quot.sound]
'Verif.C27_average_exact' depends on axioms: [propext, Classical.choice, Quot.sound]
'Verif.C27_length' depends on axioms: [propext, Classical.choice, Quot.sound]
'Verif.C28_partial' depends on axioms: [propext, Classical.choice, Quot.sound]
'Verif.C28_returns' depends on axioms: [propext, Classical.choice, Quot.sound]
'Verif.C28_method' depends on axioms: [propext, Classical.choice, Quot.sound]
'Verif.C28_step_zero' depends on axioms: [propext, Classical.choice, Quot.sound]
'Verif.C28_violated' depends on axioms: [propext, Classical.choice, Quot.sound]
'Verif.C28_scale' depends on axioms: [propext, Classical.choice, Quot.sound]
'Verif.C29_coefficients' depends on axioms: [propext, Classical.choice, Quot.sound]
'Verif.C29_monotone' depends on axioms: [propext, Classical.choice, Quot.sound]
'Verif.C29_nonneg' depends on axioms: [propext, Classical.choice, Quot.sound]
'Verif.C30_violated' depends on axioms: [propext, Classical.choice, Quot.sound]
'Verif.C30_bounds_partial' depends on axioms: [propext, Classical.choice, Quot.sound]
'Verif.C30_garbage_violated' depends on axioms: [propext, Classical.choice, Quot.sound]
'Verif.C30_first_violated' depends on axioms: [propext, Classical.choice, Quot.sound]
'Verif.C31_scale' depends on axioms: [propext, Classical.choice, Quot.sound]
'Verif.C31_phase' depends on axioms: [propext, Classical.choice, Quot.sound]
'Verif.C31_nonneg' depends on axioms: [propext, Classical.choice, Quot.sound]
'Verif.C31_no_overshoot' depends on axioms: [propext, Classical.choice, Quot.sound]
'Verif.C31_grid' depends on axioms: [propext, Classical.choice, Quot.sound]
'Verif.C31_correlogram' depends on axioms: [propext, Classical.choice, Quot.sound]
'Verif.C31_total' depends on axioms: [propext, Classical.choice, Quot.sound]
'Verif.C32_selected' depends on axioms: [propext, Classical.choice, Quot.sound]
'Verif.C32_silent' depends on axioms: [propext, Classical.choice, Quot.sound]
'Verif.C32_partials' depends on axioms: [propext, Classical.choice, Quot.sound]
'Verif.C32_projected' depends on axioms: [propext, Classical.choice, Quot.sound]
'Verif.C33_partial' depends on axioms: [propext, Classical.choice, Quot.sound]
'Verif.C33_values' depends on axioms: [propext, Classical.choice, Quot.sound]
'Verif.C33_settings' depends on axioms: [propext, Classical.choice, Quot.sound]
'Verif.C33_projection_violated' depends on axioms: [propext, Classical.choice, Quot.sound]
'Verif.C33_partials_violated' depends on axioms: [propext, Classical.choice, Quot.sound]
'Verif.C33_coordinate_violated' depends on axioms: [propext, Classical.choice, Quot.sound]
'Verif.C34_getters' depends on axioms: [propext, Quot.sound]
'Verif.C34_commensurate' depends on axioms: [propext, Quot.sound]
'Verif.C34_range_violated' depends on axioms: [propext, Classical.choice, Quot.sound]
'Verif.C35_process_shared_violated' depends on axioms: [propext, Quot.sound]
'Verif.C35_process_default_violated' depends on axioms: [propext, Quot.sound]
'Verif.C35_process_assign_violated' depends on axioms: [propext, Quot.sound]
'Verif.C35_process_single_partial' depends on axioms: [propext, Quot.sound]
'Verif.C35_defaults_violated' depends on axioms: [propext, Classical.choice, Quot.sound]
'Verif.C35_shared_violated' depends on axioms: [propext, Classical.choice, Quot.sound]
'Verif.C35_single_partial' depends on axioms: [propext]
'Verif.C35_all_share' depends on axioms: [propext]
'Verif.C36_entries' depends on axioms: [propext, Classical.choice, Quot.sound]
'Verif.C36_gamma' depends on axioms: [propext, Classical.choice, Quot.sound]
'Verif.C37_cover' depends on axioms: [propext, Quot.sound]
'Verif.C37_partition' depends on axioms: [propext, Classical.choice, Quot.sound]
'Verif.C37_linked' depends on axioms: [propext, Classical.choice, Quot.sound]
'Verif.C37_unsorted_violated' depends on axioms: [propext, Classical.choice, Quot.sound]
'Verif.C38_average' depends on axioms: [propext, Quot.sound]
'Verif.C38_equal' depends on axioms: [propext, Quot.sound]
'Verif.C38_single' depends on axioms: [propext, Classical.choice, Quot.sound]
'Verif.C38_sum' depends on axioms: [propext, Classical.choice, Quot.sound]
'Verif.C38_unsorted_violated' depends on axioms: [propext, Classical.choice, Quot.sound]
'Verif.C39_double' depends on axioms: [propext, Classical.choice, Quot.sound]
'Verif.C39_double_resolution' depends on axioms: [propext, Classical.choice, Quot.sound]
'Verif.C39_double_repeat_violated' depends on axioms: [propext, Classical.choice, Quot.sound]
'Verif.C39_double_count_violated' depends on axioms: [propext, Classical.choice, Quot.sound]
'Verif.C39_limits' depends on axioms: [propext, Classical.choice, Quot.sound]
'Verif.C39_resolution' depends on axioms: [propext, Classical.choice, Quot.sound]
'Verif.C39_repeat' depends on axioms: [propext, Classical.choice, Quot.sound]
'Verif.C39_empty_violated' depends on axioms: [propext, Classical.choice, Quot.sound]
'Verif.C40_general' depends on axioms: [propext, Classical.choice, Quot.sound]
'Verif.C40_partial' depends on axioms: [propext, Classical.choice, Quot.sound]
'Verif.C40_violated' depends on axioms: [propext, Classical.choice, Quot.sound]
'Verif.C41_cv' depends on axioms: [propext, Classical.choice, Quot.sound]
'Verif.C41_entropy' depends on axioms: [propext, Classical.choice, Quot.sound]
'Verif.C42_bounds' depends on axioms: [propext, Classical.choice, Quot.sound]
'Verif.C42_modes' depends on axioms: [propext, Classical.choice, Quot.sound]
'Verif.C42_entropy2' depends on axioms: [propext, Classical.choice, Quot.sound]
'Verif.C43_correction' depends on axioms: [propext, Classical.choice, Quot.sound]
'Verif.C43_energy' depends on axioms: [propext, Classical.choice, Quot.sound]
'Verif.C43_shift' depends on axioms: [propext, Classical.choice, Quot.sound]
'Verif.C43_shift_energy' depends on axioms: [propext, Classical.choice, Quot.sound]
'Verif.C44_maximum' depends on axioms: [propext, Classical.choice, Quot.sound]
'Verif.C44_width' depends on axioms: [propext, Classical.choice, Quot.sound]
'Verif.C44_area' depends on axioms: [propext, Classical.choice, Quot.sound]
'Verif.C45_symmetric' depends on axioms: [propext, Classical.choice, Quot.sound]
'Verif.C45_width' depends on axioms: [propext, Classical.choice, Quot.sound]
'Verif.C45_fit' depends on axioms: [propext, Classical.choice, Quot.sound]
'Verif.C45_report' depends on axioms: [propext, Classical.choice, Quot.sound]
'Verif.C46_width_partial' depends on axioms: [propext, Classical.choice, Quot.sound]
'Verif.C46_violated' depends on axioms: [propext, Classical.choice, Quot.sound]
'Verif.C46_failed' depends on axioms: [propext, Classical.choice, Quot.sound]
'Verif.C46_lists' depends on axioms: [propext, Classical.choice, Quot.sound]
'Verif.C47_damped' depends on axioms: [propext, Classical.choice, Quot.sound]
'Verif.C47_damped_peak' depends on axioms: [propext, Classical.choice, Quot.sound]
'Verif.C47_damped_width' depends on axioms: [propext, Classical.choice, Quot.sound]
'Verif.C47_gaussian_value' depends on axioms: [propext, Classical.choice, Quot.sound]
'Verif.C47_gaussian_violated' depends on axioms: [propext, Classical.choice, Quot.sound]
'Verif.C48_window' depends on axioms: [propext, Classical.choice, Quot.sound]
'Verif.C48_to_end' depends on axioms: [propext, Classical.choice, Quot.sound]
'Verif.C48_last_steps' depends on axioms: [propext, Classical.choice, Quot.sound]
'Verif.C48_last_zero_violated' depends on axioms: [propext, Classical.choice, Quot.sound]
'Verif.C48_memmap_partial' depends on axioms: [propext, Classical.choice, Quot.sound]
'Verif.C48_memmap_violated' depends on axioms: [propext, Classical.choice, Quot.sound]
'Verif.C48_memmap_empty' depends on axioms: [propext, Classical.choice, Quot.sound]
'Verif.C48_truncated_violated' depends on axioms: [propext, Classical.choice, Quot.sound]
'Verif.C48_text' depends on axioms: [propext, Classical.choice, Quot.sound]
'Verif.C49_partial' depends on axioms: [propext, Classical.choice, Quot.sound]
'Verif.C49_frames_partial' depends on axioms: [propext, Classical.choice, Quot.sound]
'Verif.C49_time_violated' depends on axioms: [propext, Classical.choice, Quot.sound]
'Verif.C49_memmap_violated' depends on axioms: [propext, Classical.choice, Quot.sound]
'Verif.C49_memmap_empty' depends on axioms: [propext, Classical.choice, Quot.sound]
'Verif.C49_text_partial' depends on axioms: [propext, Classical.choice, Quot.sound]
'Verif.C50_text_partial' depends on axioms: [propext, Classical.choice, Quot.sound]
'Verif.C50_text_violated' depends on axioms: [propext, Classical.choice, Quot.sound]
'Verif.C50_partial' depends on axioms: [propext, Classical.choice, Quot.sound]
'Verif.C50_violated' depends on axioms: [propext, Classical.choice, Quot.sound]
'Verif.C50_example_violated' depends on axioms: [propext, Classical.choice, Quot.sound]
'Verif.C51_lammps_count' depends on axioms: [propext, Classical.choice, Quot.sound]
'Verif.C51_violated' depends on axioms: [propext, Classical.choice, Quot.sound]
'Verif.C52_roundtrip' depends on axioms: [propext, Classical.choice, Quot.sound]
'Verif.C52_velocity_only' depends on axioms: [propext, Classical.choice, Quot.sound]
'Verif.C52_window_partial' depends on axioms: [propext, Classical.choice, Quot.sound]
'Verif.C52_zero' depends on axioms: [propext, Classical.choice, Quot.sound]
'Verif.C52_time_violated' depends on axioms: [propext, Classical.choice, Quot.sound]
'Verif.C52_rotation_violated' depends on axioms: [propext, Classical.choice, Quot.sound]
'Verif.C53_concat_partial' depends on axioms: [propext, Quot.sound]
'Verif.C53_success' depends on axioms: [propext]
'Verif.C53_time_violated' depends on axioms: [propext, Quot.sound]
'Verif.C53_example_violated' does not depend on any axioms
'Verif.C54_permutation' depends on axioms: [propext, Classical.choice, Quot.sound]
'Verif.C54_nearest' depends on axioms: [propext, Classical.choice, Quot.sound]
'Verif.C54_order_partial' depends on axioms: [propext, Classical.choice, Quot.sound]
'Verif.C54_violated' depends on axioms: [propext, Classical.choice, Quot.sound]
'Verif.C55_roundtrip_partial' depends on axioms: [propext, Classical.choice, Quot.sound]
'Verif.C55_elements_iff' depends on axioms: [propext, Classical.choice, Quot.sound]
'Verif.C55_violated' depends on axioms: [propext, Classical.choice, Quot.sound]
'Verif.C55_supercell_partial' depends on axioms: [propext, Classical.choice, Quot.sound]
'Verif.C55_text_partial' depends on axioms: [propext, Classical.choice, Quot.sound]
'Verif.C55_text_stable' depends on axioms: [propext, Classical.choice, Quot.sound]
'Verif.C56_types' depends on axioms: [propext, Classical.choice, Quot.sound]
'Verif.C56_isotopes_violated' depends on axioms: [propext, Classical.choice, Quot.sound]
'Verif.C57_gram' depends on axioms: [propext, Classical.choice, Quot.sound]
'Verif.C57_rotation' depends on axioms: [propext, Classical.choice, Quot.sound]
'Verif.C57_box' depends on axioms: [propext, Classical.choice, Quot.sound]
'Verif.C57_supercell_violated' depends on axioms: [propext, Classical.choice, Quot.sound]
'Verif.C57_supercell_partial' depends on axioms: [propext, Classical.choice, Quot.sound]
'Verif.C58_triclinic' depends on axioms: [propext, Classical.choice, Quot.sound]
'Verif.C58_orthogonal' depends on axioms: [propext, Classical.choice, Quot.sound]
'Verif.C58_lines' depends on axioms: [propext, Classical.choice, Quot.sound]
'Verif.C59_geometry' depends on axioms: [propext, Classical.choice, Quot.sound]
'Verif.C59_trajectory' depends on axioms: [propext, Classical.choice, Quot.sound]
'Verif.C59_text' depends on axioms: [propext, Classical.choice, Quot.sound]
'Verif.C60_first' depends on axioms: [propext, Classical.choice, Quot.sound]
'Verif.C60_lammps' depends on axioms: [propext, Classical.choice, Quot.sound]
'Verif.C60_default' depends on axioms: [propext, Classical.choice, Quot.sound]
'Verif.C61_last' depends on axioms: [propext, Classical.choice, Quot.sound]
'Verif.C61_matrix' depends on axioms: [propext, Classical.choice, Quot.sound]
'Verif.C61_comment_violated' depends on axioms: [propext, Classical.choice, Quot.sound]
'Verif.C61_comment_example_violated' depends on axioms: [propext, Classical.choice, Quot.sound]
'Verif.C62_set_partial' depends on axioms: [propext, Quot.sound]
'Verif.C62_save_violated' depends on axioms: [propext, Quot.sound]
'Verif.C62_default' does not depend on any axioms
'Verif.C62_dict' depends on axioms: [propext]
'Verif.C63_ends_iff' depends on axioms: [propext, Classical.choice, Quot.sound]
'Verif.C63_computed' depends on axioms: [propext, Classical.choice, Quot.sound]
'Verif.C63_user_types_violated' depends on axioms: [propext, Classical.choice, Quot.sound]
'Verif.C64_roundtrip' depends on axioms: [propext, Classical.choice, Quot.sound]
'Verif.C65_points' depends on axioms: [propext, Classical.choice, Quot.sound]
'Verif.C65_gamma' depends on axioms: [propext, Classical.choice, Quot.sound]
'Verif.C66_double' depends on axioms: [propext, Classical.choice, Quot.sound]
'Verif.C66_double_violated' depends on axioms: [propext, Classical.choice, Quot.sound]
'Verif.C66_points' depends on axioms: [propext, Classical.choice, Quot.sound]
'Verif.C67_fractional' depends on axioms: [propext, Classical.choice, Quot.sound]
'Verif.C67_posSemidef' depends on axioms: [propext, Classical.choice, Quot.sound]
'Verif.C67_orthogonal' depends on axioms: [propext, Classical.choice, Quot.sound]
'Verif.C67_scale' depends on axioms: [propext, Classical.choice, Quot.sound]
'Verif.C67_trajectory' depends on axioms: [propext, Classical.choice, Quot.sound]
'Verif.C68_permutation_partial' depends on axioms: [propext, Classical.choice, Quot.sound]
'Verif.C68_violated' depends on axioms: [propext, Classical.choice, Quot.sound]
'Verif.C69_groups_defined' depends on axioms: [propext, Classical.choice, Quot.sound]
'Verif.C69_columns_defined' depends on axioms: [propext, Classical.choice, Quot.sound]
'Verif.C69_groups_partial' depends on axioms: [propext, Quot.sound]
'Verif.C69_first_row_violated' depends on axioms: [propext, Classical.choice, Quot.sound]
'Verif.C70_scaled_violated' depends on axioms: [propext, Classical.choice, Quot.sound]
'Verif.C70_amplitude_violated' depends on axioms: [propext, Classical.choice, Quot.sound]
'Verif.C70_harmonic_partial' depends on axioms: [propext, Classical.choice, Quot.sound]
'Verif.C70_periodic_partial' depends on axioms: [propext, Classical.choice, Quot.sound]
'Verif.C70_equipartition_violated' depends on axioms: [propext, Classical.choice, Quot.sound]
'Verif.C71_values' depends on axioms: [propext, Classical.choice, Quot.sound]
'Verif.C71_count' depends on axioms: [propext, Classical.choice, Quot.sound]
'Verif.C71_scale' depends on axioms: [propext, Classical.choice, Quot.sound]
'Verif.C72_partial' depends on axioms: [propext, Classical.choice, Quot.sound]
'Verif.C72_iff' depends on axioms: [propext, Classical.choice, Quot.sound]
'Verif.C72_violated' depends on axioms: [propext, Classical.choice, Quot.sound]
'Verif.C73_crop_violated' depends on axioms: [propext, Quot.sound]
'Verif.C73_qha_violated' depends on axioms: [propext, Classical.choice, Quot.sound]
'Verif.C74_bose_einstein' depends on axioms: [propext, Classical.choice, Quot.sound]
'Verif.C74_energy' depends on axioms: [propext, Classical.choice, Quot.sound]
'Verif.C74_quantum_violated' depends on axioms: [propext, Classical.choice, Quot.sound]
'Verif.C75_projected' depends on axioms: [propext, Classical.choice, Quot.sound]
'Verif.C75_identity' depends on axioms: [propext, Classical.choice, Quot.sound]
'Verif.C75_normalized' depends on axioms: [propext, Classical.choice, Quot.sound]
'Verif.C75_harmonic_partial' depends on axioms: [propext, Classical.choice, Quot.sound]
'Verif.C75_violated' depends on axioms: [propext, Classical.choice, Quot.sound]
'Verif.C76_partial' depends on axioms: [propext, Classical.choice, Quot.sound]
'Verif.C76_id_violated' depends on axioms: [propext, Classical.choice, Quot.sound]
'Verif.C76_iff' depends on axioms: [propext, Classical.choice, Quot.sound]
'Verif.C76_velocity_violated' depends on axioms: [propext, Classical.choice, Quot.sound]
'Verif.C77_lines' depends on axioms: [propext]
'Verif.C77_violated' depends on axioms: [propext]
'Verif.C78_poscar_partial' depends on axioms: [propext, Classical.choice, Quot.sound]
'Verif.C78_truncated' depends on axioms: [propext, Classical.choice, Quot.sound]
'Verif.C78_cartesian_violated' depends on axioms: [propext, Classical.choice, Quot.sound]
'Verif.C78_text_partial' depends on axioms: [propext, Classical.choice, Quot.sound]
'Verif.C79_distances_partial' depends on axioms: [propext, Classical.choice, Quot.sound]
'Verif.C79_iff' depends on axioms: [propext, Classical.choice, Quot.sound]
'Verif.C79_sheared_violated' depends on axioms: [propext, Classical.choice, Quot.sound]
'Verif.C80_bands_partial' depends on axioms: [propext, Classical.choice, Quot.sound]
'Verif.C80_labels_partial' depends on axioms: [propext, Classical.choice, Quot.sound]
'Verif.C80_labels_violated' depends on axioms: [propext, Classical.choice, Quot.sound]
'Verif.C80_mesh_violated' depends on axioms: [propext, Classical.choice, Quot.sound]
'Verif.C80_example_violated' depends on axioms: [propext, Classical.choice, Quot.sound]
'Verif.C81_options_partial' depends on axioms: [propext]
'Verif.C81_ignored_violated' depends on axioms: [propext]
'Verif.C82_element_partial' depends on axioms: [propext, Classical.choice, Quot.sound]
'Verif.C82_violated' depends on axioms: [propext, Classical.choice, Quot.sound]
'Verif.C83_frequencies' depends on axioms: [propext, Classical.choice, Quot.sound]
'Verif.C83_harmonic' depends on axioms: [propext, Classical.choice, Quot.sound]
'Verif.C84_line' depends on axioms: [propext, Classical.choice, Quot.sound]
'Verif.C84_local' depends on axioms: [propext, Classical.choice, Quot.sound]
'Verif.C84_window' depends on axioms: [propext, Classical.choice, Quot.sound]
'Verif.C84_undefined' depends on axioms: [propext, Classical.choice, Quot.sound]
'Verif.C84_defined' depends on axioms: [propext, Classical.choice, Quot.sound]
'Verif.C84_least_squares' depends on axioms: [propext, Classical.choice, Quot.sound]
'Verif.C84_even' depends on axioms: [propext, Classical.choice, Quot.sound]
'Verif.C85_runs' depends on axioms: [propext, Classical.choice, Quot.sound]
'Verif.C85_double' depends on axioms: [propext, Classical.choice, Quot.sound]
'Verif.C85_double_violated' depends on axioms: [propext, Classical.choice, Quot.sound]
'Verif.C85_frames_partial' depends on axioms: [propext, Classical.choice, Quot.sound]
'Verif.C85_reordered_iff' depends on axioms: [propext, Classical.choice, Quot.sound]
'Verif.C85_order_partial' depends on axioms: [propext, Classical.choice, Quot.sound]
'Verif.C85_total_time' depends on axioms: [propext, Classical.choice, Quot.sound]
'Verif.C85_setup' depends on axioms: [propext, Classical.choice, Quot.sound]
'Verif.C85_cell' depends on axioms: [propext, Classical.choice, Quot.sound]
'Verif.C85_reordered_violated' depends on axioms: [propext, Classical.choice, Quot.sound]
'Verif.C86_fit' depends on axioms: [propext, Classical.choice, Quot.sound]
'Verif.C86_equipartition' depends on axioms: [propext, Classical.choice, Quot.sound]
'Verif.C86_printed' depends on axioms: [propext, Classical.choice, Quot.sound]
'Verif.C86_cache' depends on axioms: [propext]
'Verif.C86_zero_violated' depends on axioms: [propext, Classical.choice, Quot.sound]
'Verif.C87_best' depends on axioms: [propext, Classical.choice, Quot.sound]
'Verif.C87_width' depends on axioms: [propext, Classical.choice, Quot.sound]
'Verif.C88_density_partial' depends on axioms: [propext, Classical.choice, Quot.sound]
'Verif.C88_plot_centres' depends on axioms: [propext, Classical.choice, Quot.sound]
'Verif.C88_file_violated' depends on axioms: [propext, Classical.choice, Quot.sound]
'Verif.C88_file_defined' depends on axioms: [propext, Classical.choice, Quot.sound]
'Verif.C88_text' depends on axioms: [propext, Classical.choice, Quot.sound]
'Verif.C89_arrow_partial' depends on axioms: [propext, Classical.choice, Quot.sound]
'Verif.C89_iff' depends on axioms: [propext, Classical.choice, Quot.sound]
'Verif.C89_mass_violated' depends on axioms: [propext, Classical.choice, Quot.sound]
'Verif.C90_given' depends on axioms: [propext, Quot.sound]
'Verif.C90_consistent' depends on axioms: [propext, Classical.choice, Quot.sound]
'Verif.C90_latest_constants' depends on axioms: [propext, Quot.sound]
'Verif.C90_force_sets' depends on axioms: [propext, Classical.choice, Quot.sound]
'Verif.C90_stale_violated' depends on axioms: [propext, Quot.sound]
'Verif.C90_latest_sets_false' depends on axioms: [propext, Quot.sound]
'Verif.C90_no_forces' depends on axioms: [propext, Classical.choice, Quot.sound]
'Verif.C90_supercell_none' depends on axioms: [propext, Classical.choice, Quot.sound]
'Verif.C90_repeat' depends on axioms: [propext, Classical.choice, Quot.sound]
'Verif.C90_supercell' depends on axioms: [propext, Classical.choice, Quot.sound]
'Verif.C90_check' depends on axioms: [propext, Classical.choice, Quot.sound]
'Verif.C90_check_false' depends on axioms: [propext, Classical.choice, Quot.sound]
'Verif.C90_qha' depends on axioms: [propext, Quot.sound]
'Verif.C91_total' depends on axioms: [propext, Classical.choice, Quot.sound]
'Verif.C91_projected' depends on axioms: [propext, Quot.sound]
'Verif.C91_projected_sum' depends on axioms: [propext, Classical.choice, Quot.sound]
'Verif.C91_thermal' depends on axioms: [propext, Classical.choice, Quot.sound]
'Verif.C91_extensive' depends on axioms: [propext, Classical.choice, Quot.sound]
'Verif.C92_sound' depends on axioms: [propext, Classical.choice, Quot.sound]
'Verif.C92_double' depends on axioms: [propext, Classical.choice, Quot.sound]
'Verif.C92_violated' depends on axioms: [propext, Classical.choice, Quot.sound]
'Verif.C93_connected' depends on axioms: [propext, Classical.choice, Quot.sound]
'Verif.C93_dictionary' depends on axioms: [propext, Classical.choice, Quot.sound]
'Verif.C93_print_violated' depends on axioms: [propext, Classical.choice, Quot.sound]
'Verif.C94_rows_partial' depends on axioms: [propext, Quot.sound]
'Verif.C94_extra_violated' depends on axioms: [propext, Quot.sound]
'Verif.C94_switch_violated' depends on axioms: [propext]
'Verif.C94_mesh' depends on axioms: [propext, Quot.sound]
'Verif.C95_list_violated' depends on axioms: [propext, Quot.sound]
'Verif.C95_decimals' depends on axioms: [propext, Classical.choice, Quot.sound]
'Verif.C95_file' depends on axioms: [propext, Classical.choice, Quot.sound]
'Verif.C95_dict_partial' depends on axioms: [propext, Classical.choice, Quot.sound]
'Verif.C95_thirds_violated' depends on axioms: [propext, Classical.choice, Quot.sound]
'Verif.C96_pressure_all' depends on axioms: [propext, Classical.choice, Quot.sound]
'Verif.C96_gradient_all' depends on axioms: [propext, Classical.choice, Quot.sound]
'Verif.C96_range_defined' depends on axioms: [propext, Classical.choice, Quot.sound]
'Verif.C96_reference' depends on axioms: [propext, Classical.choice, Quot.sound]
'Verif.C96_polynomial' depends on axioms: [propext, Classical.choice, Quot.sound]
'Verif.C96_default_volume' depends on axioms: [propext, Classical.choice, Quot.sound]
'Verif.C96_interpolate_violated' depends on axioms: [propext, Classical.choice, Quot.sound]
'Verif.C96_no_reference_violated' depends on axioms: [propext, Classical.choice, Quot.sound]
'Verif.C96_wave_vectors_violated' depends on axioms: [propext, Classical.choice, Quot.sound]
'Verif.C96_range' depends on axioms: [propext, Classical.choice, Quot.sound]
'Verif.C96_bands_violated' depends on axioms: [propext, Classical.choice, Quot.sound]
'Verif.C96_bands' does not depend on any axioms
'Verif.C96_pressure_pairs' depends on axioms: [propext, Classical.choice, Quot.sound]
'Verif.C96_gradient_violated' depends on axioms: [propext, Classical.choice, Quot.sound]
'Verif.C96_index' depends on axioms: [propext, Classical.choice, Quot.sound]
'Verif.C97_aligned' depends on axioms: [propext, Classical.choice, Quot.sound]
'Verif.C97_force_constants_iff' depends on axioms: [propext, Classical.choice, Quot.sound]
'Verif.C97_force_constants_violated' depends on axioms: [propext, Classical.choice, Quot.sound]
'Verif.C97_temperatures_violated' depends on axioms: [propext, Quot.sound]
'Verif.C98_consistent_partial' depends on axioms: [propext, Classical.choice, Quot.sound]
'Verif.C98_choice' depends on axioms: [propext, Quot.sound]
'Verif.C98_select' depends on axioms: [propext, Classical.choice, Quot.sound]
'Verif.C98_other_keys' depends on axioms: [propext, Quot.sound]
'Verif.C98_long_line' depends on axioms: [propext, Quot.sound]
'Verif.C98_prompts' depends on axioms: [propext, Classical.choice, Quot.sound]
'Verif.C98_keys' depends on axioms: [propext, Quot.sound]
'Verif.C98_exit' depends on axioms: [propext, Quot.sound]
'Verif.C98_mem_violated' depends on axioms: [propext, Quot.sound]
'Verif.C98_wave_violated' depends on axioms: [propext, Quot.sound]
'Verif.C98_nac_violated' depends on axioms: [propext, Classical.choice, Quot.sound]
'Verif.C98_thermal_violated' depends on axioms: [propext, Classical.choice, Quot.sound]
'Verif.C98_list' depends on axioms: [propext, Quot.sound]
'Verif.C98_list_fails' depends on axioms: [propext, Quot.sound]
'Verif.C98_list_violated' depends on axioms: [propext, Quot.sound]
'Verif.C99_read' depends on axioms: [propext, Classical.choice, Quot.sound]
'Verif.C99_masses' depends on axioms: [propext, Classical.choice, Quot.sound]
'Verif.C99_missing_violated' depends on axioms: [propext, Classical.choice, Quot.sound]
'Verif.C99_text' depends on axioms: [propext, Classical.choice, Quot.sound]
'Verif.C100_guess_defined' depends on axioms: [propext, Classical.choice, Quot.sound]
'Verif.C100_history' depends on axioms: [propext, Classical.choice, Quot.sound]
'Verif.C100_once' depends on axioms: [propext, Classical.choice, Quot.sound]
'Verif.C100_retry' depends on axioms: [propext, Classical.choice, Quot.sound]
'Verif.C100_failure' depends on axioms: [propext, Classical.choice, Quot.sound]
'Verif.C100_start' depends on axioms: [propext, Classical.choice, Quot.sound]
'Verif.C100_lorentzian_curve' depends on axioms: [propext, Classical.choice, Quot.sound]
'Verif.C100_damped_curve' depends on axioms: [propext, Classical.choice, Quot.sound]
'Verif.C100_gaussian_curve' depends on axioms: [propext, Classical.choice, Quot.sound]
'Verif.C100_maximum' depends on axioms: [propext, Classical.choice, Quot.sound]
'Verif.C100_maximum_violated' depends on axioms: [propext, Classical.choice, Quot.sound]
'Verif.C100_area' depends on axioms: [propext, Classical.choice, Quot.sound]
'Verif.C100_error' depends on axioms: [propext, Classical.choice, Quot.sound]
'Verif.C100_drawn' depends on axioms: [propext, Classical.choice, Quot.sound]
'Verif.C100_guess' depends on axioms: [propext, Classical.choice, Quot.sound]
'Verif.C101_asymmetric_violated' depends on axioms: [propext, Classical.choice, Quot.sound]
'Verif.C101_asymmetric_iff' depends on axioms: [propext, Classical.choice, Quot.sound]
'Verif.C101_asymmetric_factor' depends on axioms: [propext, Classical.choice, Quot.sound]
'Verif.C101_lorentzian' depends on axioms: [propext, Classical.choice, Quot.sound]
'Verif.C101_damped_partial' depends on axioms: [propext, Classical.choice, Quot.sound]
'Verif.C101_damped_violated' depends on axioms: [propext, Classical.choice, Quot.sound]
'Verif.C101_gaussian' depends on axioms: [propext, Classical.choice, Quot.sound]
'Verif.C101_asymmetric_partial' depends on axioms: [propext, Classical.choice, Quot.sound]
'Verif.C102_options' depends on axioms: [propext, Classical.choice, Quot.sound]
'Verif.C102_results' depends on axioms: [propext, Classical.choice, Quot.sound]
'Verif.C102_renormalized' depends on axioms: [propext, Classical.choice, Quot.sound]
'Verif.C102_independent_partial' depends on axioms: [propext, Classical.choice, Quot.sound]
'Verif.C102_range_violated' depends on axioms: [propext, Classical.choice, Quot.sound]
'Verif.C102_plot' depends on axioms: [propext, Classical.choice, Quot.sound]
'Verif.C102_thermal_violated' depends on axioms: [propext, Classical.choice, Quot.sound]
'Verif.C102_runs' depends on axioms: [propext, Classical.choice, Quot.sound]
'Verif.C103_amplitudes' depends on axioms: [propext, Classical.choice, Quot.sound]
'Verif.C103_complete' depends on axioms: [propext, Classical.choice, Quot.sound]
'Verif.C103_energy' depends on axioms: [propext, Classical.choice, Quot.sound]
'Verif.C104_chain' depends on axioms: [propext, Classical.choice, Quot.sound]
'Verif.C104_sum' depends on axioms: [propext, Classical.choice, Quot.sound]
'Verif.C105_shape' depends on axioms: [propext, Classical.choice, Quot.sound]
'Verif.C105_independent' depends on axioms: [propext, Classical.choice, Quot.sound]
'Verif.C105_values' depends on axioms: [propext, Classical.choice, Quot.sound]
'Verif.C105_coefficients' depends on axioms: [propext, Classical.choice, Quot.sound]
'Verif.C105_fourier_returns' depends on axioms: [propext, Classical.choice, Quot.sound]
'Verif.C105_fft_returns' depends on axioms: [propext, Classical.choice, Quot.sound]
'Verif.C105_algorithm' depends on axioms: [propext, Classical.choice, Quot.sound]
'Verif.C105_nonneg' depends on axioms: [propext, Classical.choice, Quot.sound]
'Verif.C106_scale' depends on axioms: [propext, Classical.choice, Quot.sound]
'Verif.C106_phase' depends on axioms: [propext, Classical.choice, Quot.sound]
'Verif.C106_mixing' depends on axioms: [propext, Classical.choice, Quot.sound]
'Verif.C106_mem_scale_partial' depends on axioms: [propext, Classical.choice, Quot.sound]
'Verif.C106_mem_small_violated' depends on axioms: [propext, Classical.choice, Quot.sound]
'Verif.C106_mem_phase_violated' depends on axioms: [propext, Classical.choice, Quot.sound]
'Verif.C106_fft_mixing_violated' depends on axioms: [propext, Classical.choice, Quot.sound]
'Verif.C107_padding_violated' depends on axioms: [propext, Classical.choice, Quot.sound]
'Verif.C108_line' depends on axioms: [propext, Classical.choice, Quot.sound]
'Verif.C108_peak' depends on axioms: [propext, Classical.choice, Quot.sound]
'Verif.C108_absent' depends on axioms: [propext, Classical.choice, Quot.sound]
'Verif.C108_fourier_violated' depends on axioms: [propext, Classical.choice, Quot.sound]
'Verif.C108_mem_even' depends on axioms: [propext, Classical.choice, Quot.sound]
'Verif.C108_normal_modes' depends on axioms: [propext, Classical.choice, Quot.sound]
'Verif.C108_other_modes' depends on axioms: [propext, Classical.choice, Quot.sound]
'Verif.C109_plain' depends on axioms: [propext]
'Verif.C109_gamma' depends on axioms: [propext]
'Verif.C109_ticks' depends on axioms: [propext, Classical.choice, Quot.sound]
'Verif.C109_missing' depends on axioms: [propext, Quot.sound]
'Verif.C109_element' depends on axioms: [propext, Classical.choice, Quot.sound]
'Verif.C110_curves_defined' depends on axioms: [propext, Classical.choice, Quot.sound]
'Verif.C110_times_violated' depends on axioms: [propext, Classical.choice, Quot.sound]
'Verif.C110_curves' depends on axioms: [propext, Classical.choice, Quot.sound]
'Verif.C110_save_vc' depends on axioms: [propext, Classical.choice, Quot.sound]
'Verif.C110_save_vq' depends on axioms: [propext]
'Verif.C110_vq' depends on axioms: [propext, Classical.choice, Quot.sound]
'Verif.C110_default' depends on axioms: [propext, Quot.sound]
'Verif.C110_trajectory' depends on axioms: [propext, Classical.choice, Quot.sound]
'Verif.C110_empty_violated' depends on axioms: [propext, Quot.sound]
'Verif.C111_words' depends on axioms: [propext]
'Verif.C111_nat' depends on axioms: [propext, Classical.choice, Quot.sound]
'Verif.C111_fixed_eq' depends on axioms: [propext, Classical.choice, Quot.sound]
'Verif.C111_fixed' depends on axioms: [propext, Classical.choice, Quot.sound]
'Verif.C111_exp' depends on axioms: [propext, Classical.choice, Quot.sound]
'Verif.C111_exp_stable' depends on axioms: [propext, Classical.choice, Quot.sound]
'Verif.C111_fixed_stable' depends on axioms: [propext, Classical.choice, Quot.sound]
'Verif.C111_int' depends on axioms: [propext, Classical.choice, Quot.sound]
'Verif.C111_float' depends on axioms: [propext, Classical.choice, Quot.sound]
'Verif.C112_read' depends on axioms: [propext, Classical.choice, Quot.sound]
'Verif.C112_fine_violated' depends on axioms: [propext, Classical.choice, Quot.sound]
'Verif.C112_first_row_violated' depends on axioms: [propext, Classical.choice, Quot.sound]
'Verif.C112_short' depends on axioms: [propext, Classical.choice, Quot.sound]
'Verif.C112_groups' depends on axioms: [propext, Classical.choice, Quot.sound]
'Verif.C112_columns' depends on axioms: [propext, Quot.sound]
'Verif.C113_document' depends on axioms: [propext, Classical.choice, Quot.sound]
'Verif.C113_text' depends on axioms: [propext, Classical.choice, Quot.sound]
'Verif.C114_file' depends on axioms: [propext, Classical.choice, Quot.sound]
'Verif.C115_schedule' depends on axioms: [propext, Classical.choice, Quot.sound]
'Verif.C115_race_free' depends on axioms: [propext, Classical.choice, Quot.sound]
'Verif.C115_progress' depends on axioms: [propext, Classical.choice, Quot.sound]
'Verif.C115_ends' depends on axioms: [propext, Classical.choice, Quot.sound]
'Verif.C115_finishes' depends on axioms: [propext, Classical.choice, Quot.sound]
'Verif.C115_fourier' depends on axioms: [propext, Classical.choice, Quot.sound]
'Verif.C115_mem' depends on axioms: [propext, Classical.choice, Quot.sound]
'Verif.C116_results' depends on axioms: [propext, Classical.choice, Quot.sound]
'Verif.C116_roundtrip' depends on axioms: [propext, Classical.choice, Quot.sound]
'Verif.C116_last_steps' depends on axioms: [propext, Quot.sound]
'Verif.C117_displacements' depends on axioms: [propext, Classical.choice, Quot.sound]
'Verif.C117_relative_violated' depends on axioms: [propext, Classical.choice, Quot.sound]
'Verif.C117_correlation' depends on axioms: [propext, Classical.choice, Quot.sound]
'Verif.C117_correlation_null' depends on axioms: [propext, Classical.choice, Quot.sound]
'Verif.C117_mem' depends on axioms: [propext, Classical.choice, Quot.sound]
'Verif.C118_positions' depends on axioms: [propext, Classical.choice, Quot.sound]
'Verif.C118_adp_partial' depends on axioms: [propext, Classical.choice, Quot.sound]
'Verif.C118_adp_order_violated' depends on axioms: [propext, Classical.choice, Quot.sound]
'Verif.C118_thermal' depends on axioms: [propext, Classical.choice, Quot.sound]
'Verif.C118_phonopy' depends on axioms: [propext, Classical.choice, Quot.sound]
'Verif.C118_peaks' depends on axioms: [propext, Classical.choice, Quot.sound]
'Verif.C118_lists' depends on axioms: [propext, Classical.choice, Quot.sound]
'Verif.C119_pressure_defined' depends on axioms: [propext, Classical.choice, Quot.sound]
'Verif.C119_history' depends on axioms: [propext, Classical.choice, Quot.sound]
'Verif.C119_values' depends on axioms: [propext, Classical.choice, Quot.sound]
'Verif.C119_reference_violated' depends on axioms: [propext, Classical.choice, Quot.sound]
'Verif.C119_script' depends on axioms: [propext, Classical.choice, Quot.sound]
'Verif.C119_runs' depends on axioms: [propext, Classical.choice, Quot.sound]
'Verif.C119_reload' depends on axioms: [propext, Classical.choice, Quot.sound]
'Verif.C119_options_violated' depends on axioms: [propext, Classical.choice, Quot.sound]
'Verif.C119_volume' depends on axioms: [propext, Classical.choice, Quot.sound]
'Verif.C119_pressure' depends on axioms: [propext, Classical.choice, Quot.sound]
'Verif.C120_other_files' depends on axioms: [propext, Classical.choice, Quot.sound]
'Verif.C120_any_moment' depends on axioms: [propext, Classical.choice, Quot.sound]
'Verif.C120_history' depends on axioms: [propext, Classical.choice, Quot.sound]
'Verif.C120_repeat' depends on axioms: [propext, Classical.choice, Quot.sound]
'Verif.C120_simultaneous' depends on axioms: [propext, Classical.choice, Quot.sound]
'Verif.C120_contents' depends on axioms: [propext, Quot.sound]
'Verif.C120_frequencies' depends on axioms: [propext, Classical.choice, Quot.sound]
'Verif.C120_overwrite_violated' depends on axioms: [propext, Classical.choice, Quot.sound]
'Verif.C120_fixed_names_violated' depends on axioms: [propext, Classical.choice, Quot.sound]
'Verif.C121_column' depends on axioms: [propext, Classical.choice, Quot.sound]
'Verif.C121_same' depends on axioms: [propext, Classical.choice, Quot.sound]
'Verif.C121_shape' depends on axioms: [propext, Classical.choice, Quot.sound]
'Verif.C121_ends' depends on axioms: [propext, Classical.choice, Quot.sound]
'Verif.C121_warning' depends on axioms: [propext, Classical.choice, Quot.sound]
'Verif.C121_warning_violated' depends on axioms: [propext, Classical.choice, Quot.sound]
'Verif.C122_bose' depends on axioms: [propext, Classical.choice, Quot.sound]
'Verif.C122_gas' depends on axioms: [propext, Classical.choice, Quot.sound]
'Verif.C122_energy_violated' depends on axioms: [propext, Classical.choice, Quot.sound]
'Verif.C122_fft_violated' depends on axioms: [propext, Classical.choice, Quot.sound]
'Verif.C122_classical' depends on axioms: [propext, Classical.choice, Quot.sound]
'Verif.C122_temperature_violated' depends on axioms: [propext, Classical.choice, Quot.sound]
'Verif.C123_frame' depends on axioms: [propext, Classical.choice, Quot.sound]
'Verif.C123_colours' depends on axioms: [propext, Classical.choice, Quot.sound]
'Verif.C123_radii' depends on axioms: [propext, Classical.choice, Quot.sound]
'Verif.C123_heavy_violated' depends on axioms: [propext, Classical.choice, Quot.sound]
'Verif.C123_invisible_violated' does not depend on any axioms
'Verif.C123_many_violated' depends on axioms: [propext, Classical.choice, Quot.sound]
'Verif.C123_types_violated' depends on axioms: [propext, Classical.choice, Quot.sound]
'Verif.C124_frames' depends on axioms: [propext, Classical.choice, Quot.sound]
'Verif.C124_motion' depends on axioms: [propext, Classical.choice, Quot.sound]
'Verif.C124_energy' depends on axioms: [propext, Classical.choice, Quot.sound]
'Verif.C124_projection' depends on axioms: [propext, Classical.choice, Quot.sound]
'Verif.C124_reported' depends on axioms: [propext, Classical.choice, Quot.sound]
'Verif.C124_energy_violated' depends on axioms: [propext, Classical.choice, Quot.sound]
'Verif.C124_double' depends on axioms: [propext, Classical.choice, Quot.sound]
'Verif.C124_double_violated' depends on axioms: [propext, Classical.choice, Quot.sound]
'Verif.C124_velocity' depends on axioms: [propext, Classical.choice, Quot.sound]
'Verif.C125_rows' depends on axioms: [propext, Classical.choice, Quot.sound]
'Verif.C125_pairs_partial' depends on axioms: [propext, Classical.choice, Quot.sound]
'Verif.C125_plot' depends on axioms: [propext, Classical.choice, Quot.sound]
'Verif.C125_pairs_violated' depends on axioms: [propext, Classical.choice, Quot.sound]
'Verif.C126_weights' depends on axioms: [propext, Classical.choice, Quot.sound]
'Verif.C126_nonneg' depends on axioms: [propext, Classical.choice, Quot.sound]
'Verif.C126_weights_nonneg' depends on axioms: [propext, Classical.choice, Quot.sound]
'Verif.C126_parabola' depends on axioms: [propext, Classical.choice, Quot.sound]
'Verif.C126_line' depends on axioms: [propext, Classical.choice, Quot.sound]
'Verif.C126_parabola_violated' depends on axioms: [propext, Classical.choice, Quot.sound]
'Verif.C126_thermal' depends on axioms: [propext, Classical.choice, Quot.sound]
'Verif.C127_integration' depends on axioms: [propext, Classical.choice, Quot.sound]
'Verif.C127_scale' depends on axioms: [propext, Classical.choice, Quot.sound]
'Verif.C127_normalized' depends on axioms: [propext, Classical.choice, Quot.sound]
'Verif.C127_dulong_petit' depends on axioms: [propext, Classical.choice, Quot.sound]
'Verif.C127_integration_violated' depends on axioms: [propext, Classical.choice, Quot.sound]
'Verif.C127_bose' depends on axioms: [propext, Classical.choice, Quot.sound]
'Verif.C128_full_defined' depends on axioms: [propext, Quot.sound]
'Verif.C128_full' depends on axioms: [propext, Classical.choice, Quot.sound]
'Verif.C128_phonon' depends on axioms: [propext, Quot.sound]
'Verif.C129_star' depends on axioms: [propext, Classical.choice, Quot.sound]
'Verif.C129_average' depends on axioms: [propext, Classical.choice, Quot.sound]
'Verif.C129_choice' depends on axioms: [propext, Classical.choice, Quot.sound]
'Verif.C129_negative_violated' depends on axioms: [propext, Classical.choice, Quot.sound]
'Verif.C129_missing_violated' depends on axioms: [propext, Classical.choice, Quot.sound]
'Verif.C129_double_violated' depends on axioms: [propext, Classical.choice, Quot.sound]
'Verif.C129_double' depends on axioms: [propext, Classical.choice, Quot.sound]
'Verif.C130_total_defined' depends on axioms: [propext, Classical.choice, Quot.sound]
'Verif.C130_temperature_defined' depends on axioms: [propext, Classical.choice, Quot.sound]
'Verif.C130_temperature' depends on axioms: [propext, Classical.choice, Quot.sound]
'Verif.C130_volume' depends on axioms: [propext, Classical.choice, Quot.sound]
'Verif.C130_files' depends on axioms: [propext, Classical.choice, Quot.sound]
'Verif.C130_drawn' depends on axioms: [propext, Classical.choice, Quot.sound]
'Verif.C130_total' depends on axioms: [propext, Classical.choice, Quot.sound]
'Verif.C130_title_violated' depends on axioms: [propext, Classical.choice, Quot.sound]
'Verif.C130_order_violated' depends on axioms: [propext, Classical.choice, Quot.sound]
'Verif.C131_modes_partial' depends on axioms: [propext, Classical.choice, Quot.sound]
'Verif.C131_sorted_partial' depends on axioms: [propext, Classical.choice, Quot.sound]
'Verif.C131_unconnected_violated' depends on axioms: [propext, Classical.choice, Quot.sound]
'Verif.C131_figures' depends on axioms: [propext, Classical.choice, Quot.sound]
'Verif.C131_areas' depends on axioms: [propext, Classical.choice, Quot.sound]
'Verif.C131_legend' depends on axioms: [propext, Classical.choice, Quot.sound]
'Verif.C131_drawn' depends on axioms: [propext, Classical.choice, Quot.sound]
'Verif.C132_species' depends on axioms: [propext, Classical.choice, Quot.sound]
'Verif.C132_path' depends on axioms: [propext, Classical.choice, Quot.sound]
'Verif.C132_fallback' depends on axioms: [propext, Classical.choice, Quot.sound]
'Verif.C132_primitive_partial' depends on axioms: [propext, Classical.choice, Quot.sound]
'Verif.C132_primitive_violated' depends on axioms: [propext, Classical.choice, Quot.sound]
'Verif.C133_screen' depends on axioms: [propext, Classical.choice, Quot.sound]
'Verif.C133_spectra' depends on axioms: [propext, Classical.choice, Quot.sound]
'Verif.C133_test' depends on axioms: [propext, Classical.choice, Quot.sound]
'Verif.C133_double' depends on axioms: [propext, Classical.choice, Quot.sound]
'Verif.C134_lammps_partial' depends on axioms: [propext, Classical.choice, Quot.sound]
'Verif.C134_scan_partial' depends on axioms: [propext, Classical.choice, Quot.sound]
'Verif.C134_lammps_violated' depends on axioms: [propext, Classical.choice, Quot.sound]
'Verif.C134_scan_violated' depends on axioms: [propext, Classical.choice, Quot.sound]
'Verif.C135_points' depends on axioms: [propext, Classical.choice, Quot.sound]
'Verif.C135_saved_partial' depends on axioms: [propext, Classical.choice, Quot.sound]
'Verif.C135_bands_violated' depends on axioms: [propext, Classical.choice, Quot.sound]
'Verif.C135_dim_violated' depends on axioms: [propext, Classical.choice, Quot.sound]
'Verif.C136_density_defined' depends on axioms: [propext, Classical.choice, Quot.sound]
'Verif.C136_thermal_defined' depends on axioms: [propext, Classical.choice, Quot.sound]
'Verif.C136_pressure_defined' depends on axioms: [propext, Classical.choice, Quot.sound]
'Verif.C136_state' depends on axioms: [propext, Classical.choice, Quot.sound]
'Verif.C136_density' depends on axioms: [propext, Classical.choice, Quot.sound]
'Verif.C136_thermal' depends on axioms: [propext, Classical.choice, Quot.sound]
'Verif.C136_gradient_partial' depends on axioms: [propext, Classical.choice, Quot.sound]
'Verif.C136_gradient_shown' depends on axioms: [propext, Classical.choice, Quot.sound]
'Verif.C136_pressure_partial' depends on axioms: [propext, Classical.choice, Quot.sound]
'Verif.C136_labels_violated' depends on axioms: [propext, Classical.choice, Quot.sound]
'Verif.C136_external_violated' depends on axioms: [propext, Classical.choice, Quot.sound]
'Verif.C137_axes' depends on axioms: [propext, Classical.choice, Quot.sound]
'Verif.C137_origin' depends on axioms: [propext, Classical.choice, Quot.sound]
'Verif.C137_mem_origin_violated' depends on axioms: [propext, Classical.choice, Quot.sound]
'Verif.C137_numbering' depends on axioms: [propext, Classical.choice, Quot.sound]
'Verif.C138_reciprocal' depends on axioms: [propext, Classical.choice, Quot.sound]
'Verif.C138_opposite_mem' depends on axioms: [propext, Classical.choice, Quot.sound]
'Verif.C138_opposite_fft_violated' depends on axioms: [propext, Classical.choice, Quot.sound]
'Verif.C139_orthonormal' depends on axioms: [propext, Classical.choice, Quot.sound]
'Verif.C139_components' depends on axioms: [propext, Classical.choice, Quot.sound]
'Verif.C139_trace' depends on axioms: [propext, Classical.choice, Quot.sound]
'Verif.C139_real' depends on axioms: [propext, Classical.choice, Quot.sound]
'Verif.C139_scaled_violated' depends on axioms: [propext, Classical.choice, Quot.sound]
'Verif.C139_phase_violated' depends on axioms: [propext, Classical.choice, Quot.sound]
'Verif.C140_all' depends on axioms: [propext, Classical.choice, Quot.sound]
'Verif.C140_samples' depends on axioms: [propext, Classical.choice, Quot.sound]
'Verif.C140_static' depends on axioms: [propext, Classical.choice, Quot.sound]
'Verif.C140_unbiased' depends on axioms: [propext, Classical.choice, Quot.sound]
'Verif.C140_exhaustive_violated' depends on axioms: [propext, Classical.choice, Quot.sound]
'Verif.C141_highest' depends on axioms: [propext, Classical.choice, Quot.sound]
'Verif.C141_none_violated' depends on axioms: [propext, Classical.choice, Quot.sound]
'Verif.C142_link_partial' depends on axioms: [propext, Classical.choice, Quot.sound]
'Verif.C142_units_violated' depends on axioms: [propext]
'Verif.C142_simps' depends on axioms: [propext, Quot.sound]
'Verif.C143_fft_axes_violated' depends on axioms: [propext, Classical.choice, Quot.sound]
'Verif.C143_images' depends on axioms: [propext, Classical.choice, Quot.sound]
'Verif.C143_origin_full' depends on axioms: [propext, Classical.choice, Quot.sound]
'Verif.C143_axes_fourier' depends on axioms: [propext, Classical.choice, Quot.sound]
'Verif.C143_origin_wave' depends on axioms: [propext, Classical.choice, Quot.sound]
'Verif.C143_numbering_full' depends on axioms: [propext, Classical.choice, Quot.sound]
'Verif.C144_late_masses' depends on axioms: [propext, Classical.choice, Quot.sound]
'Verif.C144_after_crop' depends on axioms: [propext, Classical.choice, Quot.sound]
'Verif.C144_velocity_violated' depends on axioms: [propext, Classical.choice, Quot.sound]
'Verif.C144_structure_violated' depends on axioms: [propext, Quot.sound]
'Verif.C144_masses' depends on axioms: [propext, Classical.choice, Quot.sound]
'Verif.C144_types_refreshed' depends on axioms: [propext, Classical.choice, Quot.sound]
'Verif.C144_types_stale_violated' depends on axioms: [propext, Classical.choice, Quot.sound]
'Verif.C144_types_example_violated' depends on axioms: [propext, Classical.choice, Quot.sound]
'Verif.C144_set_time' depends on axioms: [propext, Classical.choice, Quot.sound]
'Verif.C144_set_time_violated' depends on axioms: [propext, Classical.choice, Quot.sound]
'Verif.C145_coordinate' depends on axioms: [propext, Classical.choice, Quot.sound]
'Verif.C145_negative' depends on axioms: [propext, Quot.sound]
'Verif.C145_complete' depends on axioms: [propext, Classical.choice, Quot.sound]
'Verif.C145_ignored_violated' depends on axioms: [propext, Classical.choice, Quot.sound]
'Verif.C146_save_vc' depends on axioms: [propext, Classical.choice, Quot.sound]
'Verif.C146_save_vq' depends on axioms: [propext, Classical.choice, Quot.sound]
'Verif.C147_saved' depends on axioms: [propext, Classical.choice, Quot.sound]
'Verif.C147_smoothed' depends on axioms: [propext, Classical.choice, Quot.sound]
'Verif.C147_repeat' depends on axioms: [propext, Classical.choice, Quot.sound]
'Verif.C147_again_violated' depends on axioms: [propext, Classical.choice, Quot.sound]
'Verif.C148_file' depends on axioms: [propext, Classical.choice, Quot.sound]
'Verif.C149_area' depends on axioms: [propext, Classical.choice, Quot.sound]
'Verif.C149_kinetic' depends on axioms: [propext, Classical.choice, Quot.sound]
'Verif.C150_areas' depends on axioms: [propext, Classical.choice, Quot.sound]
'Verif.C150_modes' depends on axioms: [propext, Classical.choice, Quot.sound]
'Verif.C150_temperature' depends on axioms: [propext, Classical.choice, Quot.sound]
'Verif.C151_backwards' depends on axioms: [propext, Classical.choice, Quot.sound]
'Verif.C151_trajectory' depends on axioms: [propext, Classical.choice, Quot.sound]
'Verif.C151_phonons' depends on axioms: [propext, Classical.choice, Quot.sound]
'Verif.C151_mem_violated' depends on axioms: [propext, Classical.choice, Quot.sound]
'Verif.C151_fourier_violated' depends on axioms: [propext, Classical.choice, Quot.sound]
'Verif.C151_windows_violated' depends on axioms: [propext, Classical.choice, Quot.sound]
