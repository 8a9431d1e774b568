'Pyl.C01_set_site_state' depends on axioms: [propext, Quot.sound]
'Pyl.C02_site_ids' depends on axioms: [propext, Classical.choice, Quot.sound]
'Pyl.C02_append_only' depends on axioms: [propext, Quot.sound]
'Pyl.C03_site_knows_id' depends on axioms: [propext, Quot.sound]
'Pyl.C03_all_site_states' depends on axioms: [propext, Quot.sound]
'Pyl.C04_total' depends on axioms: [propext, Quot.sound]
'Pyl.C04_flat' depends on axioms: [propext, Quot.sound]
'Pyl.C04_raises' depends on axioms: [propext, Quot.sound]
'Pyl.C04_sites_without_general' depends on axioms: [propext, Classical.choice, Quot.sound]
'Pyl.C05_batch_order' depends on axioms: [propext, Quot.sound]
'Pyl.C05_permuted_batch' depends on axioms: [propext, Quot.sound]
'Pyl.C06_batch_idempotent' depends on axioms: [propext, Classical.choice, Quot.sound]
'Pyl.C07_general_merge' depends on axioms: [propext, Quot.sound]
'Pyl.C07_general_missing' does not depend on any axioms
'Pyl.C07_site_keeps_general' depends on axioms: [propext, Quot.sound]
'Pyl.C08_equivalence' depends on axioms: [propext]
'Pyl.C08_order_irrelevant' depends on axioms: [propext, Quot.sound]
'Pyl.C08_get_site_state' depends on axioms: [propext]
'Pyl.C08_congruence' depends on axioms: [propext, Quot.sound]
'Pyl.Heap.C09_as_values' depends on axioms: [propext, Classical.choice, Quot.sound]
'Pyl.Heap.C09_copy_equal' depends on axioms: [propext, Classical.choice, Quot.sound]
'Pyl.Heap.C09_independent' depends on axioms: [propext, Classical.choice, Quot.sound]
'Pyl.Heap.C09_isolated' depends on axioms: [propext, Classical.choice, Quot.sound]
'Pyl.C10_round_trip' depends on axioms: [propext, Classical.choice, Quot.sound]
'Pyl.C10_ids_are_ints' depends on axioms: [propext, Classical.choice, Quot.sound]
'Pyl.C11_none' depends on axioms: [propext]
'Pyl.C11_total' depends on axioms: [propext, Classical.choice, Quot.sound]
'Pyl.C11_per_site' depends on axioms: [propext, Classical.choice, Quot.sound]
'Pyl.C11_visited_site' depends on axioms: [propext, Classical.choice, Quot.sound]
'Pyl.C11_exhaustive' depends on axioms: [propext, Classical.choice, Quot.sound]
'Pyl.C12_value_error' depends on axioms: [propext, Classical.choice, Quot.sound]
'Pyl.C13_step' depends on axioms: [propext, Classical.choice, Quot.sound]
'Pyl.C13_WF' depends on axioms: [propext, Classical.choice, Quot.sound]
'Pyl.C13_run' depends on axioms: [propext, Classical.choice, Quot.sound]
'Pyl.C13_run_succeeds' depends on axioms: [propext, Classical.choice, Quot.sound]
'Pyl.C13_shown' depends on axioms: [propext]
'Pyl.C14_one_step' depends on axioms: [propext, Classical.choice, Quot.sound]
'Pyl.C14_order_independent' depends on axioms: [propext, Classical.choice, Quot.sound]
'Pyl.C15_async' depends on axioms: [propext, Quot.sound]
'Pyl.C15_async_any' depends on axioms: [propext, Quot.sound]
'Pyl.C15_serial_any' depends on axioms: [propext, Quot.sound]
'Pyl.C15_async_hook' depends on axioms: [propext, Quot.sound]
'Pyl.C15_serial_hook' depends on axioms: [propext, Quot.sound]
'Pyl.C15_parallel_hook' depends on axioms: [propext, Quot.sound]
'Pyl.C15_async_hook_eq' depends on axioms: [propext, Classical.choice, Quot.sound]
'Pyl.C15_serial_hook_eq' depends on axioms: [propext, Quot.sound]
'Pyl.C15_parallel_hook_eq' depends on axioms: [propext, Quot.sound]
'Pyl.C15_serial' depends on axioms: [propext, Quot.sound]
'Pyl.C15_pre_run_mutation' depends on axioms: [propext, Quot.sound]
'Pyl.Heap.C16_caller_state' depends on axioms: [propext, Classical.choice, Quot.sound]
'Pyl.Heap.C16_result_fixed' depends on axioms: [propext, Classical.choice, Quot.sound]
'Pyl.C17_partition' depends on axioms: [propext, Quot.sound]
'Pyl.C17_at_most_workers' depends on axioms: [propext, Quot.sound]
'Pyl.C17_batch_sizes' depends on axioms: [propext, Classical.choice, Quot.sound]
'Pyl.C18_parallel_eq_serial_partial' depends on axioms: [propext, Classical.choice, Quot.sound]
'Pyl.C18_false' depends on axioms: [propext, Classical.choice, Quot.sound]
'Pyl.C18_one_worker' depends on axioms: [propext, Classical.choice, Quot.sound]
'Pyl.C18_one_worker_any' depends on axioms: [propext, Classical.choice, Quot.sound]
'Pyl.C19_parallel_eq_serial' depends on axioms: [propext, Classical.choice, Quot.sound]
'Pyl.C19_serial_total' depends on axioms: [propext, Classical.choice, Quot.sound]
'Pyl.C20_output_partial' depends on axioms: [propext, Quot.sound]
'Pyl.C20_parallel_output' depends on axioms: [propext, Quot.sound]
'Pyl.C20_false' depends on axioms: [propext, Classical.choice, Quot.sound]
'Pyl.C20_parallel_output_any' depends on axioms: [propext, Quot.sound]
'Pyl.C21_false' depends on axioms: [propext, Classical.choice, Quot.sound]
'Pyl.C21_one_worker_partial' depends on axioms: [propext, Classical.choice, Quot.sound]
'Pyl.C21_parallel_rule' depends on axioms: [propext, Classical.choice, Quot.sound]
'Pyl.C22_conflicts' depends on axioms: [propext, Classical.choice, Quot.sound]
'Pyl.C23_sites_constant' depends on axioms: [propext, Classical.choice, Quot.sound]
'Pyl.C24_some_answer' depends on axioms: [propext, Classical.choice, Quot.sound]
'Pyl.C24_all_none' depends on axioms: [propext, Quot.sound]
'Pyl.C24_no_sites' depends on axioms: [propext, Quot.sound]
'Pyl.C24_run' depends on axioms: [propext, Classical.choice, Quot.sound]
'Pyl.C25_fifo' depends on axioms: [propext, Quot.sound]
'Pyl.C25_ask_only_when_empty' depends on axioms: [propext]
'Pyl.C26_runtime_error' depends on axioms: [propext, Quot.sound]
'Pyl.C26_never_pops_empty' depends on axioms: [propext, Quot.sound]
'Pyl.C26_length' depends on axioms: [propext, Quot.sound]
'Pyl.C27_frame' depends on axioms: [propext, Classical.choice, Quot.sound]
'Pyl.C27_recorded' depends on axioms: [propext, Classical.choice, Quot.sound]
'Pyl.C28_conservation' depends on axioms: [propext, Classical.choice, Quot.sound]
'Pyl.C28_conservation_any' depends on axioms: [propext, Classical.choice, Quot.sound]
'Pyl.C29_random_site' depends on axioms: [propext, Quot.sound]
'Pyl.C29_every_site' depends on axioms: [propext, Quot.sound]
'Pyl.C29_false_for_gaps' depends on axioms: [propext]
'Pyl.C29_empty' depends on axioms: [propext]
'Pyl.SimResult.C30_get_step' depends on axioms: [propext, Classical.choice, Quot.sound]
'Pyl.SimResult.C30_len' depends on axioms: [propext, Quot.sound]
'Pyl.SimResult.C30_first_last' depends on axioms: [propext, Classical.choice, Quot.sound]
'Pyl.SimResult.C31_too_large_partial' depends on axioms: [propext, Classical.choice, Quot.sound]
'Pyl.SimResult.C31_index_error' depends on axioms: [propext, Classical.choice, Quot.sound]
'Pyl.SimResult.C31_negative' depends on axioms: [propext, Classical.choice, Quot.sound]
'Pyl.SimResult.C31_false' depends on axioms: [propext, Classical.choice, Quot.sound]
'Pyl.SimResult.C32_steps_partial' depends on axioms: [propext, Classical.choice, Quot.sound]
'Pyl.SimResult.C32_false' depends on axioms: [propext, Quot.sound]
'Pyl.Heap.C33_get_step_stays_partial' depends on axioms: [propext, Classical.choice, Quot.sound]
'Pyl.Heap.C33_no_effect_partial' depends on axioms: [propext, Classical.choice, Quot.sound]
'Pyl.Heap.C33_steps_false' depends on axioms: [propext, Quot.sound]
'Pyl.Heap.C33_stored_false' depends on axioms: [propext, Quot.sound]
'Pyl.Heap.C33_nested_false' depends on axioms: [propext, Quot.sound]
'Pyl.SimResult.C34_loaded' depends on axioms: [propext, Classical.choice, Quot.sound]
'Pyl.SimResult.C34_loaded_again' depends on axioms: [propext, Classical.choice, Quot.sound]
'Pyl.SimResult.C34_succeeds' depends on axioms: [propext, Quot.sound]
'Pyl.SimResult.C34_zero_interval' depends on axioms: [propext, Quot.sound]
'Pyl.C35_flat_partial' depends on axioms: [propext, Classical.choice, Quot.sound]
'Pyl.C35_runner_false' depends on axioms: [propext, Classical.choice, Quot.sound]
'Pyl.C35_parallel_false' depends on axioms: [propext, Classical.choice, Quot.sound]
'Pyl.C35_general_false' depends on axioms: [propext, Classical.choice, Quot.sound]
'Pyl.Lattice.C36_inverse' depends on axioms: [propext, Classical.choice, Quot.sound]
'Pyl.Lattice.C37_periodized' depends on axioms: [propext, Classical.choice, Quot.sound]
'Pyl.Lattice.C37_injective' depends on axioms: [propext, Classical.choice, Quot.sound]
'Pyl.Lattice.C38_scaled' depends on axioms: [propext, Classical.choice, Quot.sound]
'Pyl.Lattice.C38_sublattice' depends on axioms: [propext, Classical.choice, Quot.sound]
'Pyl.Lattice.C39_distance' depends on axioms: [propext, Classical.choice, Quot.sound]
'Pyl.Lattice.C39_zero' depends on axioms: [propext, Classical.choice, Quot.sound]
'Pyl.Lattice.C40_short_partial' depends on axioms: [propext, Classical.choice, Quot.sound]
'Pyl.Lattice.C40_image_invariant_partial' depends on axioms: [propext, Classical.choice, Quot.sound]
'Pyl.Lattice.C40_even' depends on axioms: [propext, Classical.choice, Quot.sound]
'Pyl.Lattice.C40_false' depends on axioms: [propext, Classical.choice, Quot.sound]
'Pyl.Lattice.C41_short_partial' depends on axioms: [propext, Classical.choice, Quot.sound]
'Pyl.Lattice.C41_minimum_image_partial' depends on axioms: [propext, Classical.choice, Quot.sound]
'Pyl.Lattice.C41_real_partial' depends on axioms: [propext, Classical.choice, Quot.sound]
'Pyl.Lattice.C41_attained' depends on axioms: [propext, Classical.choice, Quot.sound]
'Pyl.Lattice.C41_false' depends on axioms: [propext, Classical.choice, Quot.sound]
'Pyl.C42_tuples' depends on axioms: [propext, Quot.sound]
'Pyl.Lattice.C42_round_trip' depends on axioms: [propext, Classical.choice, Quot.sound]
'Pyl.Structure.C43_ids' depends on axioms: [propext, Classical.choice, Quot.sound]
'Pyl.Structure.C44_occupied' depends on axioms: [propext, Classical.choice, Quot.sound]
'Pyl.Structure.C44_unchanged' depends on axioms: [propext, Classical.choice, Quot.sound]
'Pyl.Structure.C44_distinct' depends on axioms: [propext, Classical.choice, Quot.sound]
'Pyl.Structure.C44_stored_partial' depends on axioms: [propext, Classical.choice, Quot.sound]
'Pyl.Structure.C44_false' depends on axioms: [propext, Classical.choice, Quot.sound]
'Pyl.Structure.C45_site_at' depends on axioms: [propext, Classical.choice, Quot.sound]
'Pyl.Structure.C45_images' depends on axioms: [propext, Classical.choice, Quot.sound]
'Pyl.Structure.C46_exact' depends on axioms: [propext, Classical.choice, Quot.sound]
'Pyl.Structure.C46_stored_partial' depends on axioms: [propext, Classical.choice, Quot.sound]
'Pyl.Structure.C46_aligned_partial' depends on axioms: [propext, Classical.choice, Quot.sound]
'Pyl.Structure.C46_false' depends on axioms: [propext, Classical.choice, Quot.sound]
'Pyl.Structure.C47_loads' depends on axioms: [propext, Classical.choice, Quot.sound]
'Pyl.Structure.C47_same' depends on axioms: [propext, Classical.choice, Quot.sound]
'Pyl.Structure.C47_round_trip_partial' depends on axioms: [propext, Classical.choice, Quot.sound]
'Pyl.Structure.C47_aligned_partial' depends on axioms: [propext, Classical.choice, Quot.sound]
'Pyl.Structure.C47_classes' depends on axioms: [propext, Classical.choice, Quot.sound]
'Pyl.Structure.C47_written' depends on axioms: [propext, Classical.choice, Quot.sound]
'Pyl.Structure.C47_false' depends on axioms: [propext, Classical.choice, Quot.sound]
'Pyl.Structure.C48_classes' depends on axioms: [propext, Classical.choice, Quot.sound]
'Pyl.Structure.C49_tiling_partial' depends on axioms: [propext, Classical.choice, Quot.sound]
'Pyl.Structure.C49_distinct' depends on axioms: [propext, Classical.choice, Quot.sound]
'Pyl.Structure.C49_false' depends on axioms: [propext, Classical.choice, Quot.sound]
'Pyl.Structure.C50_size' depends on axioms: [propext, Classical.choice, Quot.sound]
'Pyl.C50_size_double' depends on axioms: [propext, Classical.choice, Quot.sound]
'Pyl.C51_points_in_box' depends on axioms: [propext, Classical.choice, Quot.sound]
'Pyl.C51_points_in_cube' depends on axioms: [propext, Classical.choice, Quot.sound]
'Pyl.C52_square2' depends on axioms: [propext, Classical.choice, Quot.sound]
'Pyl.C52_square3' depends on axioms: [propext, Classical.choice, Quot.sound]
'Pyl.C53_moore' depends on axioms: [propext, Classical.choice, Quot.sound]
'Pyl.C53_count' depends on axioms: [propext, Classical.choice, Quot.sound]
'Pyl.C54_von_neumann' depends on axioms: [propext, Classical.choice, Quot.sound]
'Pyl.C55_known_and_other' depends on axioms: [propext, Classical.choice, Quot.sound]
'Pyl.C55_weighted' depends on axioms: [propext, Quot.sound]
'Pyl.C56_distance' depends on axioms: [propext, Classical.choice, Quot.sound]
'Pyl.C56_symmetric' depends on axioms: [propext, Classical.choice, Quot.sound]
'Pyl.C57_motif' depends on axioms: [propext, Classical.choice, Quot.sound]
'Pyl.C57_symmetric' depends on axioms: [propext, Classical.choice, Quot.sound]
'Pyl.C58_open_boundary' depends on axioms: [propext, Classical.choice, Quot.sound]
'Pyl.C59_site_class' depends on axioms: [propext, Classical.choice, Quot.sound]
'Pyl.C59_site_class_builds' depends on axioms: [propext, Classical.choice, Quot.sound]
'Pyl.C59_stochastic' depends on axioms: [propext, Classical.choice, Quot.sound]
'Pyl.C60_life' depends on axioms: [propext, Classical.choice, Quot.sound]
'Pyl.C60_class_variant' depends on axioms: [propext, Classical.choice, Quot.sound]
'Pyl.C60_eight' depends on axioms: [propext, Classical.choice, Quot.sound]
'Pyl.C61_variant' depends on axioms: [propext, Classical.choice, Quot.sound]
'Pyl.C61_named' depends on axioms: [propext, Classical.choice, Quot.sound]
'Pyl.C61_no_slash' depends on axioms: [propext, Classical.choice, Quot.sound]
'Pyl.C62_growth' depends on axioms: [propext, Classical.choice, Quot.sound]
'Pyl.C62_never_overwritten' depends on axioms: [propext, Classical.choice, Quot.sound]
'Pyl.C62_builder' depends on axioms: [propext, Classical.choice, Quot.sound]
'Pyl.C62_stochastic' depends on axioms: [propext, Classical.choice, Quot.sound]
'Pyl.C63_front' depends on axioms: [propext, Classical.choice, Quot.sound]
'Pyl.C63_completion' depends on axioms: [propext, Classical.choice, Quot.sound]
'Pyl.C64_interface' depends on axioms: [propext, Classical.choice, Quot.sound]
'Pyl.C65_particle' depends on axioms: [propext, Classical.choice, Quot.sound]
'Pyl.C65_real' depends on axioms: [propext, Classical.choice, Quot.sound]
'Pyl.C66_coords' depends on axioms: [propext, Classical.choice, Quot.sound]
'Pyl.C66_off_grid' depends on axioms: [propext, Classical.choice, Quot.sound]
'Pyl.C67_random_sites' depends on axioms: [propext, Classical.choice, Quot.sound]
'Pyl.C67_reachable' depends on axioms: [propext, Classical.choice, Quot.sound]
'Pyl.C68_quotas' depends on axioms: [propext, Classical.choice, Quot.sound]
'Pyl.C68_terminates' depends on axioms: [propext, Classical.choice, Quot.sound]
'Pyl.C68_fuel' depends on axioms: [propext, Classical.choice, Quot.sound]
'Pyl.C68_attempts' depends on axioms: [propext, Classical.choice, Quot.sound]
'Pyl.C68_too_many' depends on axioms: [propext, Classical.choice, Quot.sound]
'Pyl.C68_zero_amounts' depends on axioms: [propext, Classical.choice, Quot.sound]
'Pyl.C69_noise' depends on axioms: [propext, Classical.choice, Quot.sound]
'Pyl.C69_every_filling' depends on axioms: [propext, Classical.choice, Quot.sound]
'Pyl.C70_get_sites' depends on axioms: [propext, Classical.choice, Quot.sound]
'Pyl.C70_structure' depends on axioms: [propext, Classical.choice, Quot.sound]
'Pyl.C70_missing_site' depends on axioms: [propext, Classical.choice, Quot.sound]
'Pyl.C70_count' depends on axioms: [propext, Classical.choice, Quot.sound]
'Pyl.C70_where_equal_partial' depends on axioms: [propext, Classical.choice, Quot.sound]
'Pyl.C70_where_equal_structure_partial' depends on axioms: [propext, Classical.choice, Quot.sound]
'Pyl.C70_none_matches_absent' depends on axioms: [propext, Classical.choice, Quot.sound]
'Pyl.C70_class_ignored' depends on axioms: [propext, Quot.sound]
'Pyl.C71_phase_set' depends on axioms: [propext, Classical.choice, Quot.sound]
'Pyl.C71_count' depends on axioms: [propext, Classical.choice, Quot.sound]
'Pyl.C71_empty' depends on axioms: [propext, Classical.choice, Quot.sound]
'Pyl.C71_partition' depends on axioms: [propext, Classical.choice, Quot.sound]
'Pyl.C71_ratio' depends on axioms: [propext, Classical.choice, Quot.sound]
'Pyl.C72_fraction_at' depends on axioms: [propext, Classical.choice, Quot.sound]
'Pyl.C72_all_phases_partial' depends on axioms: [propext, Classical.choice, Quot.sound]
'Pyl.C72_final_partial' depends on axioms: [propext, Classical.choice, Quot.sound]
'Pyl.C72_false' depends on axioms: [propext, Classical.choice, Quot.sound]
'Pyl.C72_stale' depends on axioms: [propext, Classical.choice, Quot.sound]
'Pyl.C73_steps' depends on axioms: [propext, Classical.choice, Quot.sound]
'Pyl.C73_states' depends on axioms: [propext, Classical.choice, Quot.sound]
'Pyl.C74_map' depends on axioms: [propext, Classical.choice, Quot.sound]
'Pyl.C74_helper' depends on axioms: [propext, Classical.choice, Quot.sound]
'Pyl.C74_unhashable' depends on axioms: [propext, Classical.choice, Quot.sound]
'Pyl.C74_distinct_partial' depends on axioms: [propext, Classical.choice, Quot.sound]
'Pyl.C74_collision' depends on axioms: [propext, Classical.choice, Quot.sound]
'Pyl.C75_legend' depends on axioms: [propext, Classical.choice, Quot.sound]
'Pyl.C75_given' depends on axioms: [propext]
'Pyl.C75_state_key' depends on axioms: [propext, Classical.choice, Quot.sound]
'Pyl.C76_draw_partial' depends on axioms: [propext, Classical.choice, Quot.sound]
'Pyl.C76_label' depends on axioms: [propext, Classical.choice, Quot.sound]
'Pyl.C76_wide' depends on axioms: [propext, Classical.choice, Quot.sound]
'Pyl.C76_false' depends on axioms: [propext, Classical.choice, Quot.sound]
'Pyl.C76_state_partial' depends on axioms: [propext, Classical.choice, Quot.sound]
'Pyl.C77_images' depends on axioms: [propext, Classical.choice, Quot.sound]
'Pyl.C77_frequency' depends on axioms: [propext, Quot.sound]
'Pyl.C77_gif_partial' depends on axioms: [propext, Classical.choice, Quot.sound]
'Pyl.C77_save_error' depends on axioms: [propext, Classical.choice, Quot.sound]
'Pyl.C77_draw_error' depends on axioms: [propext, Quot.sound]
'Pyl.C77_false' depends on axioms: [propext, Classical.choice, Quot.sound]
'Pyl.C78_honeycomb' depends on axioms: [propext, Classical.choice, Quot.sound]
'Pyl.C78_honeycomb_int' depends on axioms: [propext, Classical.choice, Quot.sound]
'Pyl.C79_round_trip' depends on axioms: [propext, Classical.choice, Quot.sound]
'Pyl.C79_same_place' depends on axioms: [propext, Classical.choice, Quot.sound]
'Pyl.C79_exact' depends on axioms: [propext, Classical.choice, Quot.sound]
'Pyl.C79_pbc' depends on axioms: [propext, Classical.choice, Quot.sound]
'Pyl.C80_maps' depends on axioms: [propext, Classical.choice, Quot.sound]
'Pyl.C80_real' depends on axioms: [propext, Classical.choice, Quot.sound]
'Pyl.C81_from_struct' depends on axioms: [propext, Quot.sound]
'Pyl.C82_pseudohexagonal_2d' depends on axioms: [propext, Classical.choice, Quot.sound]
'Pyl.C82_pseudohexagonal_3d' depends on axioms: [propext, Classical.choice, Quot.sound]
'Pyl.C82_pseudopentagonal' depends on axioms: [propext, Classical.choice, Quot.sound]
'Pyl.C83_particles_partial' depends on axioms: [propext, Classical.choice, Quot.sound]
'Pyl.C83_false' depends on axioms: [propext, Classical.choice, Quot.sound]
'Pyl.C84_traces_partial' depends on axioms: [propext, Classical.choice, Quot.sound]
'Pyl.C84_false' depends on axioms: [propext, Classical.choice, Quot.sound]
'Pyl.C85_state' depends on axioms: [propext, Classical.choice, Quot.sound]
'Pyl.C85_result_partial' depends on axioms: [propext, Classical.choice, Quot.sound]
'Pyl.C85_false' depends on axioms: [propext, Classical.choice, Quot.sound]
'Pyl.C86_voxels' depends on axioms: [propext, Classical.choice, Quot.sound]
'Pyl.C86_not_cubic' depends on axioms: [propext, Classical.choice, Quot.sound]
'Pyl.C87_shell_partial' depends on axioms: [propext, Classical.choice, Quot.sound]
'Pyl.C87_false' depends on axioms: [propext, Classical.choice, Quot.sound]
'Pyl.C88_round_trip_partial' depends on axioms: [propext, Classical.choice, Quot.sound]
'Pyl.C88_collision' depends on axioms: [propext, Classical.choice, Quot.sound]
'Pyl.C88_false' depends on axioms: [propext, Classical.choice, Quot.sound]
'Pyl.C89_views' depends on axioms: [propext, Classical.choice, Quot.sound]
'Pyl.C90_growth' depends on axioms: [propext, Classical.choice, Quot.sound]
'Pyl.C90_same_sites' depends on axioms: [propext, Classical.choice, Quot.sound]
'Pyl.C91_no_absence_partial' depends on axioms: [propext, Classical.choice, Quot.sound]
'Pyl.C91_false' depends on axioms: [propext, Classical.choice, Quot.sound]
'Pyl.C91_false_grid' depends on axioms: [propext, Classical.choice, Quot.sound]
'Pyl.C92_grow' depends on axioms: [propext, Classical.choice, Quot.sound]
'Pyl.C92_fills' depends on axioms: [propext, Classical.choice, Quot.sound]
'Pyl.C93_exact' depends on axioms: [propext, Classical.choice, Quot.sound]
'Pyl.C93_round_trip_partial' depends on axioms: [propext, Classical.choice, Quot.sound]
'Pyl.C93_grid' depends on axioms: [propext, Classical.choice, Quot.sound]
'Pyl.C93_false' depends on axioms: [propext, Classical.choice, Quot.sound]
'Pyl.C94_state_at' depends on axioms: [propext, Classical.choice, Quot.sound]
'Pyl.C94_grid' depends on axioms: [propext, Classical.choice, Quot.sound]
'Pyl.C94_off_grid' depends on axioms: [propext, Classical.choice, Quot.sound]
'Pyl.C95_life' depends on axioms: [propext, Classical.choice, Quot.sound]
'Pyl.C96_life' depends on axioms: [propext, Classical.choice, Quot.sound]
'Pyl.C96_cells' depends on axioms: [propext, Classical.choice, Quot.sound]
'Pyl.C97_growth' depends on axioms: [propext, Classical.choice, Quot.sound]
'Pyl.C97_never_overwritten' depends on axioms: [propext, Classical.choice, Quot.sound]
'Pyl.C98_orthogonal_partial' depends on axioms: [propext, Classical.choice, Quot.sound]
'Pyl.C98_short_partial' depends on axioms: [propext, Classical.choice, Quot.sound]
'Pyl.C98_false' depends on axioms: [propext, Classical.choice, Quot.sound]
'Pyl.C99_square2' depends on axioms: [propext, Classical.choice, Quot.sound]
'Pyl.C99_square3' depends on axioms: [propext, Classical.choice, Quot.sound]
'Pyl.C99_rounding' depends on axioms: [propext, Classical.choice, Quot.sound]
'Pyl.C100_site_at_partial' depends on axioms: [propext, Classical.choice, Quot.sound]
'Pyl.C100_moore_partial' depends on axioms: [propext, Classical.choice, Quot.sound]
'Pyl.C100_von_neumann_partial' depends on axioms: [propext, Classical.choice, Quot.sound]
'Pyl.C100_sizes' depends on axioms: [propext, Classical.choice, Quot.sound]
'Pyl.C100_false' depends on axioms: [propext, Classical.choice, Quot.sound]
'Pyl.C100_motif_partial' depends on axioms: [propext, Classical.choice, Quot.sound]
'Pyl.C101_life_partial' depends on axioms: [propext, Classical.choice, Quot.sound]
'Pyl.C101_false' depends on axioms: [propext, Classical.choice, Quot.sound]
'Pyl.C102_distance' depends on axioms: [propext, Classical.choice, Quot.sound]
'Pyl.C102_metric' depends on axioms: [propext, Classical.choice, Quot.sound]
'Pyl.C102_torus' depends on axioms: [propext, Classical.choice, Quot.sound]
'Pyl.C102_root' depends on axioms: [propext, Classical.choice, Quot.sound]
'Pyl.C102_left_to_right' depends on axioms: [propext, Classical.choice, Quot.sound]
'Pyl.C102_any_order' depends on axioms: [propext, Classical.choice, Quot.sound]
'Pyl.C103_weights' depends on axioms: [propext, Classical.choice, Quot.sound]
'Pyl.C103_cutoff' depends on axioms: [propext, Classical.choice, Quot.sound]
'Pyl.C103_annulus' depends on axioms: [propext, Classical.choice, Quot.sound]
'Pyl.C104_random_sites_partial' depends on axioms: [propext, Classical.choice, Quot.sound]
'Pyl.C104_type_error' depends on axioms: [propext, Classical.choice, Quot.sound]
'Pyl.C104_false' depends on axioms: [propext, Classical.choice, Quot.sound]
'Pyl.C104_terminates' depends on axioms: [propext, Classical.choice, Quot.sound]
'Pyl.C104_reachable' depends on axioms: [propext, Classical.choice, Quot.sound]
'Pyl.C105_quotas_partial' depends on axioms: [propext, Classical.choice, Quot.sound]
'Pyl.C105_false' depends on axioms: [propext, Classical.choice, Quot.sound]
'Pyl.C105_left_to_right' depends on axioms: [propext, Classical.choice, Quot.sound]
'Pyl.C106_interface' depends on axioms: [propext, Classical.choice, Quot.sound]
'Pyl.C106_particle_partial' depends on axioms: [propext, Classical.choice, Quot.sound]
'Pyl.C106_any_radius_partial' depends on axioms: [propext, Classical.choice, Quot.sound]
'Pyl.C106_false' depends on axioms: [propext, Classical.choice, Quot.sound]
'Pyl.C107_particles_partial' depends on axioms: [propext, Classical.choice, Quot.sound]
'Pyl.C107_noise' depends on axioms: [propext, Classical.choice, Quot.sound]
'Pyl.C108_coords_partial' depends on axioms: [propext, Classical.choice, Quot.sound]
'Pyl.C108_false' depends on axioms: [propext, Classical.choice, Quot.sound]
'Pyl.C109_grow_partial' depends on axioms: [propext, Classical.choice, Quot.sound]
'Pyl.C109_type_error' depends on axioms: [propext, Classical.choice, Quot.sound]
'Pyl.C109_false' depends on axioms: [propext, Classical.choice, Quot.sound]
'Pyl.C110_no_id' depends on axioms: [propext, Classical.choice, Quot.sound]
'Pyl.C110_wrong_id' depends on axioms: [propext, Classical.choice, Quot.sound]
'Pyl.C110_unhashable_id' depends on axioms: [propext, Classical.choice, Quot.sound]
'Pyl.C110_phases' depends on axioms: [propext, Classical.choice, Quot.sound]
'Pyl.C110_life' depends on axioms: [propext, Classical.choice, Quot.sound]
'Pyl.C110_life_missing' depends on axioms: [propext, Classical.choice, Quot.sound]
'Pyl.C110_growth' depends on axioms: [propext, Quot.sound]
'Pyl.C111_sites' depends on axioms: [propext, Classical.choice, Quot.sound]
'Pyl.C111_lookup' depends on axioms: [propext, Classical.choice, Quot.sound]
'Pyl.C111_neighbours' depends on axioms: [propext, Classical.choice, Quot.sound]
'Pyl.C111_inverse' depends on axioms: [propext, Classical.choice, Quot.sound]
'Pyl.C111_plain' depends on axioms: [propext, Classical.choice, Quot.sound]
'Pyl.C112_fraction' depends on axioms: [propext, Classical.choice, Quot.sound]
'Pyl.C112_empty' depends on axioms: [propext, Classical.choice, Quot.sound]
'Pyl.C112_order' depends on axioms: [propext, Classical.choice, Quot.sound]
'Pyl.C112_ratio' depends on axioms: [propext, Classical.choice, Quot.sound]
'Pyl.C112_sum' depends on axioms: [propext, Classical.choice, Quot.sound]
'Pyl.C112_at' depends on axioms: [propext, Classical.choice, Quot.sound]
'Pyl.C112_final' depends on axioms: [propext, Classical.choice, Quot.sound]
'Pyl.C112_plot' depends on axioms: [propext, Classical.choice, Quot.sound]
'Pyl.C112_sum_inexact' depends on axioms: [propext, Classical.choice, Quot.sound]
'Pyl.C113_steps' depends on axioms: [propext, Classical.choice, Quot.sound]
'Pyl.C113_batch' depends on axioms: [propext, Classical.choice, Quot.sound]
'Pyl.C113_run' depends on axioms: [propext, Classical.choice, Quot.sound]
'Pyl.C114_grid' depends on axioms: [propext, Classical.choice, Quot.sound]
'Pyl.C114_honeycomb' depends on axioms: [propext, Classical.choice, Quot.sound]
'Pyl.C114_classes' depends on axioms: [propext, Classical.choice, Quot.sound]
'Pyl.C114_false' depends on axioms: [propext, Classical.choice, Quot.sound]
'Pyl.C114_simulation' depends on axioms: [propext, Classical.choice, Quot.sound]
'Pyl.C115_inverse' depends on axioms: [propext, Classical.choice, Quot.sound]
'Pyl.C115_square2' depends on axioms: [propext, Classical.choice, Quot.sound]
'Pyl.C115_square3' depends on axioms: [propext, Classical.choice, Quot.sound]
'Pyl.C115_lookup' depends on axioms: [propext, Classical.choice, Quot.sound]
'Pyl.C115_neighbours' depends on axioms: [propext, Classical.choice, Quot.sound]
'Pyl.C115_reload' depends on axioms: [propext, Classical.choice, Quot.sound]
'Pyl.C116_builds' depends on axioms: [propext, Classical.choice, Quot.sound]
'Pyl.C116_compound_in_class' depends on axioms: [propext, Classical.choice, Quot.sound]
'Pyl.C116_answers' depends on axioms: [propext, Classical.choice, Quot.sound]
'Pyl.C116_ids' depends on axioms: [propext, Quot.sound]
'Pyl.C116_total' depends on axioms: [propext, Classical.choice, Quot.sound]
'Pyl.C116_empty' depends on axioms: [propext, Classical.choice, Quot.sound]
'Pyl.C116_known' depends on axioms: [propext, Classical.choice, Quot.sound]
'Pyl.C117_serial' depends on axioms: [propext, Classical.choice, Quot.sound]
'Pyl.C117_grow' depends on axioms: [propext, Classical.choice, Quot.sound]
'Pyl.C117_hexagonal_fills' depends on axioms: [propext, Classical.choice, Quot.sound]
'Pyl.C117_hexagonal3' depends on axioms: [propext, Classical.choice, Quot.sound]
'Pyl.C117_pentagonal_stalls' depends on axioms: [propext, Classical.choice, Quot.sound]
'Pyl.C117_hexagonal3_unfilled' depends on axioms: [propext, Classical.choice, Quot.sound]
'Pyl.Heap.C118_as_values' depends on axioms: [propext, Classical.choice, Quot.sound]
'Pyl.Heap.C118_reload' depends on axioms: [propext, Classical.choice, Quot.sound]
'Pyl.Heap.C118_unreadable' depends on axioms: [propext, Classical.choice, Quot.sound]
'Pyl.Heap.C118_int_ids' depends on axioms: [propext, Classical.choice, Quot.sound]
'Pyl.Heap.C118_independent' depends on axioms: [propext, Classical.choice, Quot.sound]
'Pyl.Heap.C118_isolated' depends on axioms: [propext, Classical.choice, Quot.sound]
'Pyl.Heap.C118_live' depends on axioms: [propext, Classical.choice, Quot.sound]
'Pyl.Heap.C118_result_readable' depends on axioms: [propext, Classical.choice, Quot.sound]
'Pyl.Heap.C118_result' depends on axioms: [propext, Classical.choice, Quot.sound]
'Pyl.Heap.C118_false' depends on axioms: [propext, Classical.choice, Quot.sound]
'Pyl.Heap.C118_result_false' depends on axioms: [propext, Classical.choice, Quot.sound]
'Pyl.C119_controller_partial' depends on axioms: [propext, Classical.choice, Quot.sound]
'Pyl.C119_every_motif' depends on axioms: [propext, Classical.choice, Quot.sound]
'Pyl.C119_grow_partial' depends on axioms: [propext, Classical.choice, Quot.sound]
'Pyl.C119_type_error' depends on axioms: [propext, Classical.choice, Quot.sound]
'Pyl.C119_hexagonal_fills_partial' depends on axioms: [propext, Classical.choice, Quot.sound]
'Pyl.C119_hexagonal3_partial' depends on axioms: [propext, Classical.choice, Quot.sound]
'Pyl.C119_pentagonal_stalls' depends on axioms: [propext, Classical.choice, Quot.sound]
'Pyl.C119_hexagonal3_unfilled' depends on axioms: [propext, Classical.choice, Quot.sound]
'Pyl.C119_false' depends on axioms: [propext, Classical.choice, Quot.sound]
'Pyl.C120_continued' depends on axioms: [propext, Quot.sound]
'Pyl.C120_prefix' depends on axioms: [propext, Quot.sound]
'Pyl.C120_life' depends on axioms: [propext, Classical.choice, Quot.sound]
'Pyl.C120_async_forgets' depends on axioms: [propext, Classical.choice, Quot.sound]
'Pyl.C120_async_prefix' depends on axioms: [propext, Classical.choice, Quot.sound]
'Pyl.C120_parallel_prefix' depends on axioms: [propext, Quot.sound]
'Pyl.C120_prefix_any' depends on axioms: [propext, Classical.choice, Quot.sound]
'Pyl.C121_symmetry' depends on axioms: [propext, Classical.choice, Quot.sound]
'Pyl.C121_local' depends on axioms: [propext, Classical.choice, Quot.sound]
'Pyl.C122_plane' depends on axioms: [propext, Classical.choice, Quot.sound]
'Pyl.C122_margin' depends on axioms: [propext, Classical.choice, Quot.sound]
'Pyl.C122_block' depends on axioms: [propext, Classical.choice, Quot.sound]
'Pyl.C122_blinker' depends on axioms: [propext, Classical.choice, Quot.sound]
'Pyl.C122_glider' depends on axioms: [propext, Classical.choice, Quot.sound]
'Pyl.C122_glider_returns' depends on axioms: [propext, Classical.choice, Quot.sound]
'Pyl.Heap.C123_serial' depends on axioms: [propext, Classical.choice, Quot.sound]
'Pyl.Heap.C123_async' depends on axioms: [propext, Classical.choice, Quot.sound]
'Pyl.Heap.C123_reports' depends on axioms: [propext, Classical.choice, Quot.sound]
'Pyl.Heap.C123_reports_async' depends on axioms: [propext, Classical.choice, Quot.sound]
'Pyl.Heap.C123_fresh' depends on axioms: [propext, Classical.choice, Quot.sound]
'Pyl.Heap.C123_reused_false' depends on axioms: [propext, Quot.sound]
'Pyl.C124_chain' depends on axioms: [propext, Classical.choice, Quot.sound]
'Pyl.C124_output' depends on axioms: [propext, Classical.choice, Quot.sound]
'Pyl.C124_visits' depends on axioms: [propext, Classical.choice, Quot.sound]
'Pyl.C124_life' depends on axioms: [propext, Classical.choice, Quot.sound]
'Pyl.C125_fills' depends on axioms: [propext, Classical.choice, Quot.sound]
'Pyl.C125_limit' depends on axioms: [propext, Classical.choice, Quot.sound]
'Pyl.C125_grid' depends on axioms: [propext, Classical.choice, Quot.sound]
'Pyl.C126_noise' depends on axioms: [propext, Classical.choice, Quot.sound]
'Pyl.C126_uniform' depends on axioms: [propext, Classical.choice, Quot.sound]
'Pyl.C127_draws' depends on axioms: [propext, Classical.choice, Quot.sound]
'Pyl.C127_symmetric' depends on axioms: [propext, Classical.choice, Quot.sound]
'Pyl.C127_subsets' depends on axioms: [propext, Classical.choice, Quot.sound]
'Pyl.C127_fails' depends on axioms: [propext, Classical.choice, Quot.sound]
'Pyl.C127_rarely_fails' depends on axioms: [propext, Classical.choice, Quot.sound]
'Pyl.C127_cell' depends on axioms: [propext, Classical.choice, Quot.sound]
'Pyl.C128_int' depends on axioms: [propext, Classical.choice, Quot.sound]
'Pyl.C128_state' depends on axioms: [propext, Classical.choice, Quot.sound]
'Pyl.C128_state_errors' depends on axioms: [propext, Classical.choice, Quot.sound]
'Pyl.C128_result' depends on axioms: [propext, Classical.choice, Quot.sound]
'Pyl.C128_result_errors' depends on axioms: [propext, Classical.choice, Quot.sound]
'Pyl.C128_structure' depends on axioms: [propext, Classical.choice, Quot.sound]
'Pyl.C128_structure_double' depends on axioms: [propext, Classical.choice, Quot.sound]
'Pyl.C128_structure_errors' depends on axioms: [propext, Classical.choice, Quot.sound]
'Pyl.C128_simulation' depends on axioms: [propext, Classical.choice, Quot.sound]
'Pyl.C128_simulation_exact' depends on axioms: [propext, Classical.choice, Quot.sound]
'Pyl.C128_simulation_errors' depends on axioms: [propext, Classical.choice, Quot.sound]
'Pyl.C128_file' depends on axioms: [propext, Classical.choice, Quot.sound]
'Pyl.Raw.C129_reads' depends on axioms: [propext]
'Pyl.Raw.C129_set' depends on axioms: [propext, Quot.sound]
'Pyl.Raw.C129_batch' depends on axioms: [propext, Quot.sound]
'Pyl.Raw.C129_init' depends on axioms: [propext]
'Pyl.Raw.C129_malformed' depends on axioms: [propext, Quot.sound]
'Pyl.Raw.C129_odd_site' depends on axioms: [propext, Quot.sound]
'Pyl.Raw.C129_from_dict' depends on axioms: [propext, Classical.choice, Quot.sound]
'Pyl.Raw.C129_agrees' depends on axioms: [propext, Classical.choice, Quot.sound]
'Pyl.Raw.C129_eq' depends on axioms: [propext, Quot.sound]
'Pyl.C130_only_reads' depends on axioms: [propext, Quot.sound]
'Pyl.C130_async_carries_out' depends on axioms: [propext, Classical.choice, Quot.sound]
'Pyl.C130_serial_carries_out' depends on axioms: [propext, Classical.choice, Quot.sound]
'Pyl.C130_unrecorded' depends on axioms: [propext, Classical.choice, Quot.sound]
'Pyl.C130_not_simultaneous' depends on axioms: [propext, Classical.choice, Quot.sound]
'Pyl.C130_order_dependent' depends on axioms: [propext, Classical.choice, Quot.sound]
'Pyl.C130_history_false' depends on axioms: [propext, Classical.choice, Quot.sound]
'Pyl.C130_async_exact' depends on axioms: [propext, Classical.choice, Quot.sound]
'Pyl.C130_parallel_only_reads' depends on axioms: [propext, Quot.sound]
'Pyl.C130_parallel_output' depends on axioms: [propext, Quot.sound]
'Pyl.C130_parallel_unrecorded' depends on axioms: [propext, Classical.choice, Quot.sound]
'Pyl.C130_parallel_differs' depends on axioms: [propext, Classical.choice, Quot.sound]
'Pyl.C130_parallel_schedule' depends on axioms: [propext, Classical.choice, Quot.sound]
'Pyl.C131_moore' depends on axioms: [propext, Classical.choice, Quot.sound]
'Pyl.C131_von_neumann' depends on axioms: [propext, Classical.choice, Quot.sound]
'Pyl.C131_diamond_2' depends on axioms: [propext, Classical.choice, Quot.sound]
'Pyl.C131_diamond_3' depends on axioms: [propext, Classical.choice, Quot.sound]
'Pyl.C132_interface' depends on axioms: [propext, Classical.choice, Quot.sound]
'Pyl.C132_coords' depends on axioms: [propext, Classical.choice, Quot.sound]
'Pyl.C133_light_cone' depends on axioms: [propext, Classical.choice, Quot.sound]
'Pyl.C133_closed' depends on axioms: [propext, Classical.choice, Quot.sound]
'Pyl.C134_repeats' depends on axioms: [propext, Classical.choice, Quot.sound]
'Pyl.C134_eventually_periodic' depends on axioms: [propext, Classical.choice, Quot.sound]
'Pyl.C134_finite_rule' depends on axioms: [propext, Classical.choice, Quot.sound]
'Pyl.C134_life' depends on axioms: [propext, Classical.choice, Quot.sound]
'Pyl.C135_fills' depends on axioms: [propext, Classical.choice, Quot.sound]
'Pyl.C135_stochastic' depends on axioms: [propext, Classical.choice, Quot.sound]
'Pyl.C135_limit' depends on axioms: [propext, Classical.choice, Quot.sound]
'Pyl.C135_pentagonal' depends on axioms: [propext, Classical.choice, Quot.sound]
'Pyl.C135_between' depends on axioms: [propext, Classical.choice, Quot.sound]
'Pyl.C135_hexagonal3' depends on axioms: [propext, Classical.choice, Quot.sound]
'Pyl.C136_grains' depends on axioms: [propext, Classical.choice, Quot.sound]
'Pyl.C136_voronoi' depends on axioms: [propext, Classical.choice, Quot.sound]
'Pyl.C136_moore' depends on axioms: [propext, Classical.choice, Quot.sound]
'Pyl.C136_parallel' depends on axioms: [propext, Classical.choice, Quot.sound]
'Pyl.C136_grow' depends on axioms: [propext, Classical.choice, Quot.sound]
'Pyl.C136_parallel_false' depends on axioms: [propext, Classical.choice, Quot.sound]
'Pyl.C136_parallel_false_grid' depends on axioms: [propext, Classical.choice, Quot.sound]
'Pyl.C137_serial' depends on axioms: [propext, Classical.choice, Quot.sound]
'Pyl.C137_parallel' depends on axioms: [propext, Classical.choice, Quot.sound]
'Pyl.C137_asynchronous' depends on axioms: [propext, Classical.choice, Quot.sound]
'Pyl.C137_steps' depends on axioms: [propext, Quot.sound]
'Pyl.C137_phases' depends on axioms: [propext, Quot.sound]
'Pyl.C137_growth' depends on axioms: [propext, Classical.choice, Quot.sound]
'Pyl.C138_law' depends on axioms: [propext, Classical.choice, Quot.sound]
'Pyl.C138_bulk' depends on axioms: [propext, Classical.choice, Quot.sound]
'Pyl.C138_covered' depends on axioms: [propext, Classical.choice, Quot.sound]
'Pyl.C138_border' depends on axioms: [propext, Classical.choice, Quot.sound]
'Pyl.C139_hashable' depends on axioms: [propext, Classical.choice, Quot.sound]
'Pyl.C139_call' depends on axioms: [propext, Classical.choice, Quot.sound]
'Pyl.C139_unhashable' depends on axioms: [propext, Classical.choice, Quot.sound]
'Pyl.C139_walled' depends on axioms: [propext, Classical.choice, Quot.sound]
'Pyl.C139_parallel' depends on axioms: [propext, Classical.choice, Quot.sound]
'Pyl.C140_same' depends on axioms: [propext, Classical.choice, Quot.sound]
'Pyl.C140_in_turn' depends on axioms: [propext, Classical.choice, Quot.sound]
'Pyl.C140_returns' depends on axioms: [propext, Classical.choice, Quot.sound]
'Pyl.C140_close' depends on axioms: [propext, Classical.choice, Quot.sound]
'Pyl.C140_off' depends on axioms: [propext, Classical.choice, Quot.sound]
'Pyl.RawLattice.C141_accepts' depends on axioms: [propext, Classical.choice, Quot.sound]
'Pyl.RawLattice.C141_square' depends on axioms: [propext, Classical.choice, Quot.sound]
'Pyl.RawLattice.C141_one_flag' depends on axioms: [propext, Classical.choice, Quot.sound]
'Pyl.RawLattice.C141_flags' depends on axioms: [propext, Classical.choice, Quot.sound]
'Pyl.RawLattice.C141_any_shape' depends on axioms: [propext, Classical.choice, Quot.sound]
'Pyl.RawLattice.C141_misshapen' depends on axioms: [propext, Classical.choice, Quot.sound]
'Pyl.RawLattice.C141_four_numbers' depends on axioms: [propext, Classical.choice, Quot.sound]
'Pyl.RawStructure.C142_add' depends on axioms: [propext, Classical.choice, Quot.sound]
'Pyl.RawStructure.C142_refuses' depends on axioms: [propext, Classical.choice, Quot.sound]
'Pyl.RawStructure.C142_at' depends on axioms: [propext, Classical.choice, Quot.sound]
'Pyl.RawStructure.C142_shape' depends on axioms: [propext, Classical.choice, Quot.sound]
'Pyl.RawStructure.C142_first' depends on axioms: [propext, Classical.choice, Quot.sound]
'Pyl.RawStructure.C142_build' depends on axioms: [propext, Classical.choice, Quot.sound]
'Pyl.RawStructure.C142_builder' depends on axioms: [propext, Classical.choice, Quot.sound]
'Pyl.RawStructure.C142_few_counts' depends on axioms: [propext, Classical.choice, Quot.sound]
'Pyl.RawStructure.C142_bad_position' depends on axioms: [propext, Classical.choice, Quot.sound]
'Pyl.RawStructure.C143_long' depends on axioms: [propext, Classical.choice, Quot.sound]
'Pyl.RawStructure.C143_neighbours' depends on axioms: [propext, Classical.choice, Quot.sound]
'Pyl.RawStructure.C143_short' depends on axioms: [propext, Classical.choice, Quot.sound]
'Pyl.RawStructure.C143_moore' depends on axioms: [propext, Classical.choice, Quot.sound]
'Pyl.RawStructure.C143_vonNeumann' depends on axioms: [propext, Classical.choice, Quot.sound]
'Pyl.RawStructure.C143_too_few' depends on axioms: [propext, Classical.choice, Quot.sound]
'Pyl.RawStructure.C143_weight' depends on axioms: [propext, Classical.choice, Quot.sound]
'Pyl.RawStructure.C143_moore_weight' depends on axioms: [propext, Classical.choice, Quot.sound]
'Pyl.Lattice.C144_right' depends on axioms: [propext, Classical.choice, Quot.sound]
'Pyl.Lattice.C144_exactly' depends on axioms: [propext, Classical.choice, Quot.sound]
'Pyl.Lattice.C144_images' depends on axioms: [propext, Classical.choice, Quot.sound]
'Pyl.Lattice.C144_neighbours' depends on axioms: [propext, Classical.choice, Quot.sound]
'Pyl.Lattice.C144_honeycomb' depends on axioms: [propext, Classical.choice, Quot.sound]
'Pyl.C145_light_cone' depends on axioms: [propext, Classical.choice, Quot.sound]
'Pyl.C145_steps' depends on axioms: [propext, Classical.choice, Quot.sound]
'Pyl.C145_closed' depends on axioms: [propext, Classical.choice, Quot.sound]
'Pyl.C146_cone' depends on axioms: [propext, Classical.choice, Quot.sound]
'Pyl.C146_within' depends on axioms: [propext]
'Pyl.C146_unvisited' depends on axioms: [propext, Classical.choice, Quot.sound]
'Pyl.C147_reorder' depends on axioms: [propext, Classical.choice, Quot.sound]
'Pyl.C147_at_once' depends on axioms: [propext, Classical.choice, Quot.sound]
'Pyl.C148_serial' depends on axioms: [propext, Classical.choice, Quot.sound]
'Pyl.C148_returns' depends on axioms: [propext, Classical.choice, Quot.sound]
'Pyl.C148_symmetric' depends on axioms: [propext, Classical.choice, Quot.sound]
'Pyl.C148_async' depends on axioms: [propext, Classical.choice, Quot.sound]
'Pyl.C149_interface' depends on axioms: [propext, Classical.choice, Quot.sound]
'Pyl.C149_no_interface' depends on axioms: [propext, Classical.choice, Quot.sound]
'Pyl.C149_particle' depends on axioms: [propext, Classical.choice, Quot.sound]
'Pyl.C149_no_particle' depends on axioms: [propext, Classical.choice, Quot.sound]
'Pyl.C149_random_particles' depends on axioms: [propext, Classical.choice, Quot.sound]
'Pyl.C149_coords' depends on axioms: [propext, Classical.choice, Quot.sound]
'Pyl.C149_noise' depends on axioms: [propext, Classical.choice, Quot.sound]
'Pyl.C149_random_sites' depends on axioms: [propext, Classical.choice, Quot.sound]
'Pyl.C149_reachable' depends on axioms: [propext, Classical.choice, Quot.sound]
'Pyl.C150_opposite' depends on axioms: [propext, Classical.choice, Quot.sound]
'Pyl.C150_anneal' depends on axioms: [propext, Classical.choice, Quot.sound]
'Pyl.C150_no_deaths' depends on axioms: [propext, Classical.choice, Quot.sound]
'Pyl.C150_no_births' depends on axioms: [propext, Classical.choice, Quot.sound]
'Pyl.C150_rest' depends on axioms: [propext, Classical.choice, Quot.sound]
'Pyl.C150_no_survival' depends on axioms: [propext, Classical.choice, Quot.sound]
'Pyl.C150_seeds' depends on axioms: [propext, Classical.choice, Quot.sound]
'Pyl.C150_empty' depends on axioms: [propext, Classical.choice, Quot.sound]
'Pyl.C151_opposite' depends on axioms: [propext, Classical.choice, Quot.sound]
'Pyl.C151_one_way' depends on axioms: [propext, Classical.choice, Quot.sound]
'Pyl.C151_stays' depends on axioms: [propext, Classical.choice, Quot.sound]
'Pyl.C151_same_rest' depends on axioms: [propext, Classical.choice, Quot.sound]
'Pyl.C151_order' depends on axioms: [propext, Classical.choice, Quot.sound]
'Pyl.C151_settles_no_deaths' depends on axioms: [propext, Classical.choice, Quot.sound]
'Pyl.C151_settles_no_births' depends on axioms: [propext, Classical.choice, Quot.sound]
'Pyl.C151_settles_limit' depends on axioms: [propext, Classical.choice, Quot.sound]
'Pyl.C151_order_limit' depends on axioms: [propext, Classical.choice, Quot.sound]
'Pyl.C151_order_needed' depends on axioms: [propext, Classical.choice, Quot.sound]
'Pyl.C152_connected' depends on axioms: [propext, Classical.choice, Quot.sound]
'Pyl.C152_reachable' depends on axioms: [propext, Classical.choice, Quot.sound]
'Pyl.C152_grid' depends on axioms: [propext, Classical.choice, Quot.sound]
'Pyl.C153_copies' depends on axioms: [propext, Classical.choice, Quot.sound]
'Pyl.C153_nine_copies' depends on axioms: [propext, Classical.choice, Quot.sound]
'Pyl.C153_overlay' depends on axioms: [propext, Classical.choice, Quot.sound]
'Pyl.C153_dies_out' depends on axioms: [propext, Classical.choice, Quot.sound]
'Pyl.C153_returns' depends on axioms: [propext, Classical.choice, Quot.sound]
'Pyl.C154_exists_iff' depends on axioms: [propext, Classical.choice, Quot.sound]
'Pyl.C154_exists' depends on axioms: [propext, Classical.choice, Quot.sound]
'Pyl.C154_named' depends on axioms: [propext, Classical.choice, Quot.sound]
'Pyl.C154_none' depends on axioms: [propext, Classical.choice, Quot.sound]
'Pyl.C155_confined' depends on axioms: [propext, Classical.choice, Quot.sound]
'Pyl.C155_confined_async' depends on axioms: [propext, Classical.choice, Quot.sound]
'Pyl.C155_anneal' depends on axioms: [propext, Classical.choice, Quot.sound]
'Pyl.C155_exact' depends on axioms: [propext, Classical.choice, Quot.sound]
'Pyl.C155_population' depends on axioms: [propext, Classical.choice, Quot.sound]
'Pyl.C156_front' depends on axioms: [propext, Classical.choice, Quot.sound]
'Pyl.C156_count' depends on axioms: [propext, Classical.choice, Quot.sound]
'Pyl.C156_filled' depends on axioms: [propext, Classical.choice, Quot.sound]
'Pyl.C157_front' depends on axioms: [propext, Classical.choice, Quot.sound]
'Pyl.C157_count' depends on axioms: [propext, Classical.choice, Quot.sound]
'Pyl.C158_master' depends on axioms: [propext, Classical.choice, Quot.sound]
'Pyl.C158_wait' depends on axioms: [propext, Classical.choice, Quot.sound]
'Pyl.C158_first' depends on axioms: [propext, Classical.choice, Quot.sound]
'Pyl.C158_grid' depends on axioms: [propext, Classical.choice, Quot.sound]
'Pyl.C159_cell' depends on axioms: [propext, Classical.choice, Quot.sound]
'Pyl.C159_population' depends on axioms: [propext, Classical.choice, Quot.sound]
'Pyl.C159_life' depends on axioms: [propext, Classical.choice, Quot.sound]
'Pyl.C160_everywhere' depends on axioms: [propext, Classical.choice, Quot.sound]
'Pyl.C160_independent' depends on axioms: [propext, Classical.choice, Quot.sound]
'Pyl.C160_concentrates' depends on axioms: [propext, Classical.choice, Quot.sound]
'Pyl.C160_life' depends on axioms: [propext, Classical.choice, Quot.sound]
'Pyl.C161_first' depends on axioms: [propext, Quot.sound]
'Pyl.C161_stale' depends on axioms: [propext, Classical.choice, Quot.sound]
'Pyl.C161_refresh' depends on axioms: [propext, Classical.choice, Quot.sound]
'Pyl.C161_object' depends on axioms: [propext, Classical.choice, Quot.sound]
'Pyl.C161_example' depends on axioms: [propext, Classical.choice, Quot.sound]
'Pyl.C161_in_turn' depends on axioms: [propext, Classical.choice, Quot.sound]
'Pyl.C162_fraction_at' depends on axioms: [propext, Classical.choice, Quot.sound]
'Pyl.C162_phases' depends on axioms: [propext, Classical.choice, Quot.sound]
'Pyl.C162_misses' depends on axioms: [propext, Classical.choice, Quot.sound]
'Pyl.C162_noise' depends on axioms: [propext, Classical.choice, Quot.sound]
'Pyl.C162_misses_example' depends on axioms: [propext, Classical.choice, Quot.sound]
'Pyl.C163_frames' depends on axioms: [propext, Classical.choice, Quot.sound]
'Pyl.C163_black' depends on axioms: [propext, Classical.choice, Quot.sound]
'Pyl.C163_gif' depends on axioms: [propext, Classical.choice, Quot.sound]
'Pyl.C164_phases' depends on axioms: [propext, Classical.choice, Quot.sound]
'Pyl.C164_monotone' depends on axioms: [propext, Classical.choice, Quot.sound]
'Pyl.C164_one_by_one' depends on axioms: [propext, Classical.choice, Quot.sound]
'Pyl.C164_parallel_falls' depends on axioms: [propext, Classical.choice, Quot.sound]
'Pyl.C164_colors' depends on axioms: [propext, Classical.choice, Quot.sound]
'Pyl.C164_parallel_falls_grid' depends on axioms: [propext, Classical.choice, Quot.sound]
'Pyl.C165_fraction_at' depends on axioms: [propext, Classical.choice, Quot.sound]
'Pyl.C165_one_by_one' depends on axioms: [propext, Classical.choice, Quot.sound]
'Pyl.C165_exists' depends on axioms: [propext, Classical.choice, Quot.sound]
'Pyl.C165_at_rest' depends on axioms: [propext, Classical.choice, Quot.sound]
'Pyl.C166_frames' depends on axioms: [propext, Classical.choice, Quot.sound]
'Pyl.C166_gif' depends on axioms: [propext, Classical.choice, Quot.sound]
'Pyl.C167_play' depends on axioms: [propext, Classical.choice, Quot.sound]
'Pyl.C167_step_range' depends on axioms: [propext, Classical.choice, Quot.sound]
'Pyl.C167_play_error' depends on axioms: [propext, Quot.sound]
'Pyl.C167_windows' depends on axioms: [propext, Quot.sound]
'Pyl.C167_save' depends on axioms: [propext, Quot.sound]
'Pyl.C167_life' depends on axioms: [propext, Classical.choice, Quot.sound]
'Pyl.C168_file' depends on axioms: [propext, Classical.choice, Quot.sound]
'Pyl.C168_two_partial' depends on axioms: [propext, Classical.choice, Quot.sound]
'Pyl.C168_overwrites' depends on axioms: [propext, Classical.choice, Quot.sound]
'Pyl.C168_false' depends on axioms: [propext, Classical.choice, Quot.sound]
'Pyl.C169_step' depends on axioms: [propext, Classical.choice, Quot.sound]
'Pyl.C169_upper' depends on axioms: [propext, Classical.choice, Quot.sound]
'Pyl.C169_sum' depends on axioms: [propext, Classical.choice, Quot.sound]
'Pyl.C169_time' depends on axioms: [propext, Classical.choice, Quot.sound]
'Pyl.C169_coupons' depends on axioms: [propext, Classical.choice, Quot.sound]
'Pyl.C169_lower' depends on axioms: [propext, Classical.choice, Quot.sound]
'Pyl.C169_grid' depends on axioms: [propext, Classical.choice, Quot.sound]
'Pyl.C170_drift' depends on axioms: [propext, Classical.choice, Quot.sound]
'Pyl.C170_bounds' depends on axioms: [propext, Classical.choice, Quot.sound]
'Pyl.C170_change' depends on axioms: [propext, Classical.choice, Quot.sound]
'Pyl.C170_fade' depends on axioms: [propext, Classical.choice, Quot.sound]
'Pyl.C171_exact' depends on axioms: [propext, Classical.choice, Quot.sound]
'Pyl.C171_complete' depends on axioms: [propext, Classical.choice, Quot.sound]
'Pyl.C171_oneWay' depends on axioms: [propext, Classical.choice, Quot.sound]
'Pyl.C171_ring' depends on axioms: [propext, Classical.choice, Quot.sound]
'Pyl.C171_grid' depends on axioms: [propext, Classical.choice, Quot.sound]
'Pyl.C171_motif' depends on axioms: [propext, Classical.choice, Quot.sound]
'Pyl.C172_wait' depends on axioms: [propext, Classical.choice, Quot.sound]
'Pyl.C172_chance' depends on axioms: [propext, Classical.choice, Quot.sound]
'Pyl.C172_covered' depends on axioms: [propext, Classical.choice, Quot.sound]
'Pyl.C172_time' depends on axioms: [propext, Classical.choice, Quot.sound]
'Pyl.C172_grid' depends on axioms: [propext, Classical.choice, Quot.sound]
'Pyl.C173_reported' depends on axioms: [propext, Classical.choice, Quot.sound]
'Pyl.C173_step' depends on axioms: [propext, Classical.choice, Quot.sound]
'Pyl.C173_lower' depends on axioms: [propext, Classical.choice, Quot.sound]
'Pyl.C173_upper' depends on axioms: [propext, Classical.choice, Quot.sound]
'Pyl.C173_grid' depends on axioms: [propext, Classical.choice, Quot.sound]
'Pyl.C174_reported' depends on axioms: [propext, Classical.choice, Quot.sound]
'Pyl.C174_drift' depends on axioms: [propext, Classical.choice, Quot.sound]
'Pyl.C174_bounds' depends on axioms: [propext, Classical.choice, Quot.sound]
'Pyl.C174_fade' depends on axioms: [propext, Classical.choice, Quot.sound]
'Pyl.C175_moore' depends on axioms: [propext, Classical.choice, Quot.sound]
'Pyl.C175_von_neumann' depends on axioms: [propext, Classical.choice, Quot.sound]
'Pyl.C175_one' depends on axioms: [propext, Classical.choice, Quot.sound]
'Pyl.C175_bounds' depends on axioms: [propext, Classical.choice, Quot.sound]
'Pyl.C175_diamond' depends on axioms: [propext, Classical.choice, Quot.sound]
'Pyl.C175_setups' depends on axioms: [propext, Classical.choice, Quot.sound]
'Pyl.C175_layers' depends on axioms: [propext, Classical.choice, Quot.sound]
