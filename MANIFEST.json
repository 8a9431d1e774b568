{
 "claims": [
  {
   "property": "C01",
   "status": "proved",
   "theorems": [
    "Pyl.C01_set_site_state"
   ],
   "note": ""
  },
  {
   "property": "C02",
   "status": "proved",
   "theorems": [
    "Pyl.C02_site_ids",
    "Pyl.C02_append_only"
   ],
   "note": ""
  },
  {
   "property": "C03",
   "status": "proved",
   "theorems": [
    "Pyl.C03_site_knows_id",
    "Pyl.C03_all_site_states"
   ],
   "note": ""
  },
  {
   "property": "C04",
   "status": "proved",
   "theorems": [
    "Pyl.C04_total",
    "Pyl.C04_flat",
    "Pyl.C04_raises",
    "Pyl.C04_sites_without_general"
   ],
   "note": ""
  },
  {
   "property": "C05",
   "status": "proved",
   "theorems": [
    "Pyl.C05_batch_order",
    "Pyl.C05_permuted_batch"
   ],
   "note": ""
  },
  {
   "property": "C06",
   "status": "proved",
   "theorems": [
    "Pyl.C06_batch_idempotent"
   ],
   "note": ""
  },
  {
   "property": "C07",
   "status": "proved",
   "theorems": [
    "Pyl.C07_general_merge",
    "Pyl.C07_general_missing",
    "Pyl.C07_site_keeps_general"
   ],
   "note": ""
  },
  {
   "property": "C08",
   "status": "proved",
   "theorems": [
    "Pyl.C08_equivalence",
    "Pyl.C08_order_irrelevant",
    "Pyl.C08_get_site_state",
    "Pyl.C08_congruence"
   ],
   "note": ""
  },
  {
   "property": "C09",
   "status": "proved",
   "theorems": [
    "Pyl.Heap.C09_as_values",
    "Pyl.Heap.C09_copy_equal",
    "Pyl.Heap.C09_independent",
    "Pyl.Heap.C09_isolated"
   ],
   "note": ""
  },
  {
   "property": "C10",
   "status": "proved",
   "theorems": [
    "Pyl.C10_round_trip",
    "Pyl.C10_ids_are_ints"
   ],
   "note": ""
  },
  {
   "property": "C11",
   "status": "proved",
   "theorems": [
    "Pyl.C11_none",
    "Pyl.C11_total",
    "Pyl.C11_per_site",
    "Pyl.C11_visited_site",
    "Pyl.C11_exhaustive"
   ],
   "note": ""
  },
  {
   "property": "C12",
   "status": "proved",
   "theorems": [
    "Pyl.C12_value_error"
   ],
   "note": ""
  },
  {
   "property": "C13",
   "status": "proved",
   "theorems": [
    "Pyl.C13_step",
    "Pyl.C13_WF",
    "Pyl.C13_run",
    "Pyl.C13_run_succeeds",
    "Pyl.C13_shown"
   ],
   "note": ""
  },
  {
   "property": "C14",
   "status": "proved",
   "theorems": [
    "Pyl.C14_one_step",
    "Pyl.C14_order_independent"
   ],
   "note": ""
  },
  {
   "property": "C15",
   "status": "proved",
   "theorems": [
    "Pyl.C15_async",
    "Pyl.C15_async_any",
    "Pyl.C15_serial_any",
    "Pyl.C15_async_hook",
    "Pyl.C15_serial_hook",
    "Pyl.C15_parallel_hook",
    "Pyl.C15_async_hook_eq",
    "Pyl.C15_serial_hook_eq",
    "Pyl.C15_parallel_hook_eq",
    "Pyl.C15_serial",
    "Pyl.C15_pre_run_mutation"
   ],
   "note": ""
  },
  {
   "property": "C16",
   "status": "proved",
   "theorems": [
    "Pyl.Heap.C16_caller_state",
    "Pyl.Heap.C16_result_fixed"
   ],
   "note": ""
  },
  {
   "property": "C17",
   "status": "proved",
   "theorems": [
    "Pyl.C17_partition",
    "Pyl.C17_at_most_workers",
    "Pyl.C17_batch_sizes"
   ],
   "note": ""
  },
  {
   "property": "C18",
   "status": "partial",
   "theorems": [
    "Pyl.C18_parallel_eq_serial_partial",
    "Pyl.C18_false",
    "Pyl.C18_one_worker",
    "Pyl.C18_one_worker_any"
   ],
   "note": "False as stated: C18_false gives a site-local rule, two workers and a possible pool schedule where a worker that sat out two steps computes from a stale state. Proved: equality for all schedules in which no worker skips a step (C18_parallel_eq_serial_partial), and for one worker with any controller (C18_one_worker; C18_one_worker_any also when pre_run changes the state). See C19 for rules where all schedules agree."
  },
  {
   "property": "C19",
   "status": "proved",
   "theorems": [
    "Pyl.C19_parallel_eq_serial",
    "Pyl.C19_serial_total"
   ],
   "note": ""
  },
  {
   "property": "C20",
   "status": "partial",
   "theorems": [
    "Pyl.C20_output_partial",
    "Pyl.C20_parallel_output",
    "Pyl.C20_false",
    "Pyl.C20_parallel_output_any"
   ],
   "note": "False for parallel runs: their output is always the initial state (C20_parallel_output, C20_false). Proved for serial and asynchronous runs (C20_output_partial, C15)."
  },
  {
   "property": "C21",
   "status": "partial",
   "theorems": [
    "Pyl.C21_false",
    "Pyl.C21_one_worker_partial",
    "Pyl.C21_parallel_rule"
   ],
   "note": "False for more than one worker (C21_false): serial keeps the last writer, parallel the first batch. Proved for one worker; C21_parallel_rule says exactly what a parallel step keeps."
  },
  {
   "property": "C22",
   "status": "proved",
   "theorems": [
    "Pyl.C22_conflicts"
   ],
   "note": ""
  },
  {
   "property": "C23",
   "status": "proved",
   "theorems": [
    "Pyl.C23_sites_constant"
   ],
   "note": ""
  },
  {
   "property": "C24",
   "status": "proved",
   "theorems": [
    "Pyl.C24_some_answer",
    "Pyl.C24_all_none",
    "Pyl.C24_no_sites",
    "Pyl.C24_run"
   ],
   "note": ""
  },
  {
   "property": "C25",
   "status": "proved",
   "theorems": [
    "Pyl.C25_fifo",
    "Pyl.C25_ask_only_when_empty"
   ],
   "note": ""
  },
  {
   "property": "C26",
   "status": "proved",
   "theorems": [
    "Pyl.C26_runtime_error",
    "Pyl.C26_never_pops_empty",
    "Pyl.C26_length"
   ],
   "note": ""
  },
  {
   "property": "C27",
   "status": "proved",
   "theorems": [
    "Pyl.C27_frame",
    "Pyl.C27_recorded"
   ],
   "note": ""
  },
  {
   "property": "C28",
   "status": "proved",
   "theorems": [
    "Pyl.C28_conservation",
    "Pyl.C28_conservation_any"
   ],
   "note": ""
  },
  {
   "property": "C29",
   "status": "proved",
   "theorems": [
    "Pyl.C29_random_site",
    "Pyl.C29_every_site",
    "Pyl.C29_false_for_gaps",
    "Pyl.C29_empty"
   ],
   "note": ""
  },
  {
   "property": "C30",
   "status": "proved",
   "theorems": [
    "Pyl.SimResult.C30_get_step",
    "Pyl.SimResult.C30_len",
    "Pyl.SimResult.C30_first_last"
   ],
   "note": ""
  },
  {
   "property": "C31",
   "status": "partial",
   "theorems": [
    "Pyl.SimResult.C31_too_large_partial",
    "Pyl.SimResult.C31_index_error",
    "Pyl.SimResult.C31_negative",
    "Pyl.SimResult.C31_false"
   ],
   "note": "False for negative step numbers, which silently give the initial state (C31_false, C31_negative). Proved for numbers >= len."
  },
  {
   "property": "C32",
   "status": "partial",
   "theorems": [
    "Pyl.SimResult.C32_steps_partial",
    "Pyl.SimResult.C32_false"
   ],
   "note": "False: the last step is never yielded (C32_false). Proved: steps 0..len-2 are yielded in order."
  },
  {
   "property": "C33",
   "status": "partial",
   "theorems": [
    "Pyl.Heap.C33_get_step_stays_partial",
    "Pyl.Heap.C33_no_effect_partial",
    "Pyl.Heap.C33_steps_false",
    "Pyl.Heap.C33_stored_false",
    "Pyl.Heap.C33_nested_false"
   ],
   "note": "False for steps() (one live object is yielded again and again, C33_steps_false), for stored states (C33_stored_false) and for nested values mutated in place (C33_nested_false). Proved: a state from get_step stays what it was unless an update method is called on that object; updates of a state that get_step had to make have no effect on later reports of any result."
  },
  {
   "property": "C34",
   "status": "proved",
   "theorems": [
    "Pyl.SimResult.C34_loaded",
    "Pyl.SimResult.C34_loaded_again",
    "Pyl.SimResult.C34_succeeds",
    "Pyl.SimResult.C34_zero_interval"
   ],
   "note": ""
  },
  {
   "property": "C35",
   "status": "partial",
   "theorems": [
    "Pyl.C35_flat_partial",
    "Pyl.C35_runner_false",
    "Pyl.C35_parallel_false",
    "Pyl.C35_general_false"
   ],
   "note": "False for every result a runner produces with at least one step (C35_runner_false, C35_parallel_false: from_dict raises) and for diffs with a general part, which is silently dropped (C35_general_false). Proved for results whose diffs are in the documented add_step format."
  },
  {
   "property": "C36",
   "status": "proved",
   "theorems": [
    "Pyl.Lattice.C36_inverse"
   ],
   "note": ""
  },
  {
   "property": "C37",
   "status": "proved",
   "theorems": [
    "Pyl.Lattice.C37_periodized",
    "Pyl.Lattice.C37_injective"
   ],
   "note": ""
  },
  {
   "property": "C38",
   "status": "proved",
   "theorems": [
    "Pyl.Lattice.C38_scaled",
    "Pyl.Lattice.C38_sublattice"
   ],
   "note": ""
  },
  {
   "property": "C39",
   "status": "proved",
   "theorems": [
    "Pyl.Lattice.C39_distance",
    "Pyl.Lattice.C39_zero"
   ],
   "note": ""
  },
  {
   "property": "C40",
   "status": "partial",
   "theorems": [
    "Pyl.Lattice.C40_short_partial",
    "Pyl.Lattice.C40_image_invariant_partial",
    "Pyl.Lattice.C40_even",
    "Pyl.Lattice.C40_false"
   ],
   "note": "False at half-way coordinate differences on skew lattices (C40_false). Proved for orthogonal lattices, for all lattices away from half-way differences, for even translations of every lattice (C40_even), and for distances below half the gap between opposite faces of the cell on every lattice (C40_short_partial)."
  },
  {
   "property": "C41",
   "status": "partial",
   "theorems": [
    "Pyl.Lattice.C41_short_partial",
    "Pyl.Lattice.C41_minimum_image_partial",
    "Pyl.Lattice.C41_real_partial",
    "Pyl.Lattice.C41_attained",
    "Pyl.Lattice.C41_false"
   ],
   "note": "False for skew lattices (C41_false). Proved for pairwise orthogonal vectors, and on every lattice for distances below half the gap between opposite faces of the cell (C41_short_partial); on every lattice the value is the rounded distance to some image (C41_attained)."
  },
  {
   "property": "C42",
   "status": "proved",
   "theorems": [
    "Pyl.C42_tuples",
    "Pyl.Lattice.C42_round_trip"
   ],
   "note": ""
  },
  {
   "property": "C43",
   "status": "proved",
   "theorems": [
    "Pyl.Structure.C43_ids"
   ],
   "note": ""
  },
  {
   "property": "C44",
   "status": "partial",
   "theorems": [
    "Pyl.Structure.C44_occupied",
    "Pyl.Structure.C44_unchanged",
    "Pyl.Structure.C44_distinct",
    "Pyl.Structure.C44_stored_partial",
    "Pyl.Structure.C44_false"
   ],
   "note": "Proved with respect to the exact locations rounded half-to-odd, which is what the lookup keys compare (C44_occupied, C44_unchanged, C44_distinct). For the stored locations false at half-way points: sites at 0 and 0.0005 are both stored at 0 (C44_false); proved away from half-way points (C44_stored_partial)."
  },
  {
   "property": "C45",
   "status": "proved",
   "theorems": [
    "Pyl.Structure.C45_site_at",
    "Pyl.Structure.C45_images"
   ],
   "note": ""
  },
  {
   "property": "C46",
   "status": "partial",
   "theorems": [
    "Pyl.Structure.C46_exact",
    "Pyl.Structure.C46_stored_partial",
    "Pyl.Structure.C46_aligned_partial",
    "Pyl.Structure.C46_false"
   ],
   "note": "False when rounding moves the stored location out of the cell, e.g. 0.9996 stored as 1.0 (C46_false). Proved for untied locations stored inside the cell, in particular for everything on the grid of thousandths. Exact condition: C46_exact (found iff the stored location is at the place the site was added at)."
  },
  {
   "property": "C47",
   "status": "partial",
   "theorems": [
    "Pyl.Structure.C47_loads",
    "Pyl.Structure.C47_same",
    "Pyl.Structure.C47_round_trip_partial",
    "Pyl.Structure.C47_aligned_partial",
    "Pyl.Structure.C47_classes",
    "Pyl.Structure.C47_written",
    "Pyl.Structure.C47_false"
   ],
   "note": "False when stored locations collide after wrapping (C47_false: from_dict raises). Proved under the conditions of C46 (also through JSON); in all cases the outcome is AssertionError or a structure with the same ids and classes (C47_classes). Exact conditions: it can be read back iff no two stored locations are at the same place (C47_loads), and comes back unchanged iff every site is found at its stored location and storing it again does not move it (C47_same)."
  },
  {
   "property": "C48",
   "status": "proved",
   "theorems": [
    "Pyl.Structure.C48_classes"
   ],
   "note": ""
  },
  {
   "property": "C49",
   "status": "partial",
   "theorems": [
    "Pyl.Structure.C49_tiling_partial",
    "Pyl.Structure.C49_distinct",
    "Pyl.Structure.C49_false"
   ],
   "note": "False for Cartesian motifs on lattices with a non-symmetric matrix, because the code multiplies matrix @ coefficients (C49_false). Proved for fractional motifs on all lattices and Cartesian motifs on symmetric matrices, with a sufficient condition for distinctness (C49_distinct)."
  },
  {
   "property": "C50",
   "status": "proved",
   "theorems": [
    "Pyl.Structure.C50_size",
    "Pyl.C50_size_double"
   ],
   "note": ""
  },
  {
   "property": "C51",
   "status": "proved",
   "theorems": [
    "Pyl.C51_points_in_box",
    "Pyl.C51_points_in_cube"
   ],
   "note": ""
  },
  {
   "property": "C52",
   "status": "proved",
   "theorems": [
    "Pyl.C52_square2",
    "Pyl.C52_square3"
   ],
   "note": "In exact arithmetic. In double precision see C99 (the sites) and C100 (locations outside the box)."
  },
  {
   "property": "C53",
   "status": "proved",
   "theorems": [
    "Pyl.C53_moore",
    "Pyl.C53_count"
   ],
   "note": "In exact arithmetic. In double precision the builder raises TypeError on some sizes, the first is 49, see C100."
  },
  {
   "property": "C54",
   "status": "proved",
   "theorems": [
    "Pyl.C54_von_neumann"
   ],
   "note": "In exact arithmetic. In double precision the builder raises TypeError on some sizes, the first is 49, see C100."
  },
  {
   "property": "C55",
   "status": "proved",
   "theorems": [
    "Pyl.C55_known_and_other",
    "Pyl.C55_weighted"
   ],
   "note": ""
  },
  {
   "property": "C56",
   "status": "proved",
   "theorems": [
    "Pyl.C56_distance",
    "Pyl.C56_symmetric"
   ],
   "note": ""
  },
  {
   "property": "C57",
   "status": "proved",
   "theorems": [
    "Pyl.C57_motif",
    "Pyl.C57_symmetric"
   ],
   "note": ""
  },
  {
   "property": "C58",
   "status": "proved",
   "theorems": [
    "Pyl.C58_open_boundary"
   ],
   "note": ""
  },
  {
   "property": "C59",
   "status": "proved",
   "theorems": [
    "Pyl.C59_site_class",
    "Pyl.C59_site_class_builds",
    "Pyl.C59_stochastic"
   ],
   "note": ""
  },
  {
   "property": "C60",
   "status": "proved",
   "theorems": [
    "Pyl.C60_life",
    "Pyl.C60_class_variant",
    "Pyl.C60_eight"
   ],
   "note": ""
  },
  {
   "property": "C61",
   "status": "proved",
   "theorems": [
    "Pyl.C61_variant",
    "Pyl.C61_named",
    "Pyl.C61_no_slash"
   ],
   "note": ""
  },
  {
   "property": "C62",
   "status": "proved",
   "theorems": [
    "Pyl.C62_growth",
    "Pyl.C62_never_overwritten",
    "Pyl.C62_builder",
    "Pyl.C62_stochastic"
   ],
   "note": ""
  },
  {
   "property": "C63",
   "status": "proved",
   "theorems": [
    "Pyl.C63_front",
    "Pyl.C63_completion"
   ],
   "note": ""
  },
  {
   "property": "C64",
   "status": "proved",
   "theorems": [
    "Pyl.C64_interface"
   ],
   "note": ""
  },
  {
   "property": "C65",
   "status": "proved",
   "theorems": [
    "Pyl.C65_particle",
    "Pyl.C65_real"
   ],
   "note": ""
  },
  {
   "property": "C66",
   "status": "proved",
   "theorems": [
    "Pyl.C66_coords",
    "Pyl.C66_off_grid"
   ],
   "note": ""
  },
  {
   "property": "C67",
   "status": "proved",
   "theorems": [
    "Pyl.C67_random_sites",
    "Pyl.C67_reachable"
   ],
   "note": ""
  },
  {
   "property": "C68",
   "status": "proved",
   "theorems": [
    "Pyl.C68_quotas",
    "Pyl.C68_terminates",
    "Pyl.C68_fuel",
    "Pyl.C68_attempts",
    "Pyl.C68_too_many",
    "Pyl.C68_zero_amounts"
   ],
   "note": ""
  },
  {
   "property": "C69",
   "status": "proved",
   "theorems": [
    "Pyl.C69_noise",
    "Pyl.C69_every_filling"
   ],
   "note": ""
  },
  {
   "property": "C70",
   "status": "partial",
   "theorems": [
    "Pyl.C70_get_sites",
    "Pyl.C70_structure",
    "Pyl.C70_missing_site",
    "Pyl.C70_count",
    "Pyl.C70_where_equal_partial",
    "Pyl.C70_where_equal_structure_partial",
    "Pyl.C70_none_matches_absent",
    "Pyl.C70_class_ignored"
   ],
   "note": "Proved for any criteria, with and without a structure. where_equal with the value None also finds sites without the key (C70_none_matches_absent), so the where_equal part is proved for other values; without a structure the class argument is ignored (C70_class_ignored)."
  },
  {
   "property": "C71",
   "status": "proved",
   "theorems": [
    "Pyl.C71_phase_set",
    "Pyl.C71_count",
    "Pyl.C71_empty",
    "Pyl.C71_partition",
    "Pyl.C71_ratio"
   ],
   "note": ""
  },
  {
   "property": "C72",
   "status": "partial",
   "theorems": [
    "Pyl.C72_fraction_at",
    "Pyl.C72_all_phases_partial",
    "Pyl.C72_final_partial",
    "Pyl.C72_false",
    "Pyl.C72_stale"
   ],
   "note": "False: the phases of the last step are not looked at, so a phase that appears only there is missing and the final fractions do not add up to 1 (C72_false); later calls repeat the first answer (C72_stale). Proved: all_phases is exactly the set of phases of all steps but the last, and the final fractions add up to 1 iff the last step has no phase of its own."
  },
  {
   "property": "C73",
   "status": "proved",
   "theorems": [
    "Pyl.C73_steps",
    "Pyl.C73_states"
   ],
   "note": ""
  },
  {
   "property": "C74",
   "status": "partial",
   "theorems": [
    "Pyl.C74_map",
    "Pyl.C74_helper",
    "Pyl.C74_unhashable",
    "Pyl.C74_distinct_partial",
    "Pyl.C74_collision"
   ],
   "note": "False beyond 22 phases: the palette repeats colours, so any 23 different phases contain two with the same colour (C74_collision), and helpers.color_map raises IndexError beyond 70. Proved: every listed phase gets a palette colour, distinct up to 22 phases."
  },
  {
   "property": "C75",
   "status": "proved",
   "theorems": [
    "Pyl.C75_legend",
    "Pyl.C75_given",
    "Pyl.C75_state_key"
   ],
   "note": ""
  },
  {
   "property": "C76",
   "status": "partial",
   "theorems": [
    "Pyl.C76_draw_partial",
    "Pyl.C76_label",
    "Pyl.C76_wide",
    "Pyl.C76_false",
    "Pyl.C76_state_partial"
   ],
   "note": "Proved for pictures without label on grids at most as wide as high (includes n x n), also with the artist made from the state. A label is text written over the sites' blocks (C76_false); on grids wider than high the bar is drawn over sites (C76_wide)."
  },
  {
   "property": "C77",
   "status": "partial",
   "theorems": [
    "Pyl.C77_images",
    "Pyl.C77_frequency",
    "Pyl.C77_gif_partial",
    "Pyl.C77_save_error",
    "Pyl.C77_draw_error",
    "Pyl.C77_false"
   ],
   "note": "The frames are proved for all results and frequencies. Temporary files: proved when Pillow can write the target; if saving raises, they all stay (C77_save_error, C77_false)."
  },
  {
   "property": "C78",
   "status": "proved",
   "theorems": [
    "Pyl.C78_honeycomb",
    "Pyl.C78_honeycomb_int"
   ],
   "note": "In exact arithmetic, for every value of the root between 1.73 and 1.74. In double precision see C111."
  },
  {
   "property": "C79",
   "status": "proved",
   "theorems": [
    "Pyl.C79_round_trip",
    "Pyl.C79_same_place",
    "Pyl.C79_exact",
    "Pyl.C79_pbc"
   ],
   "note": ""
  },
  {
   "property": "C80",
   "status": "proved",
   "theorems": [
    "Pyl.C80_maps",
    "Pyl.C80_real"
   ],
   "note": ""
  },
  {
   "property": "C81",
   "status": "proved",
   "theorems": [
    "Pyl.C81_from_struct"
   ],
   "note": ""
  },
  {
   "property": "C82",
   "status": "proved",
   "theorems": [
    "Pyl.C82_pseudohexagonal_2d",
    "Pyl.C82_pseudohexagonal_3d",
    "Pyl.C82_pseudopentagonal"
   ],
   "note": ""
  },
  {
   "property": "C83",
   "status": "partial",
   "theorems": [
    "Pyl.C83_particles_partial",
    "Pyl.C83_false"
   ],
   "note": "False for the documented argument, one phase name: random.choice picks a character of it (C83_false). Proved for sequences of phases."
  },
  {
   "property": "C84",
   "status": "partial",
   "theorems": [
    "Pyl.C84_traces_partial",
    "Pyl.C84_false"
   ],
   "note": "False for phases that appear only in the last step (C84_false). Proved with 'at some step except the last'."
  },
  {
   "property": "C85",
   "status": "partial",
   "theorems": [
    "Pyl.C85_state",
    "Pyl.C85_result_partial",
    "Pyl.C85_false"
   ],
   "note": "False for from_discrete_result when a phase appears only in the last step: it is drawn black (C85_false). Proved for from_discrete_state, and for results with 'except the last step'."
  },
  {
   "property": "C86",
   "status": "proved",
   "theorems": [
    "Pyl.C86_voxels",
    "Pyl.C86_not_cubic"
   ],
   "note": ""
  },
  {
   "property": "C87",
   "status": "partial",
   "theorems": [
    "Pyl.C87_shell_partial",
    "Pyl.C87_false"
   ],
   "note": "False: the code compares coordinates with the size, which no site has, so only the plane y = 0 is drawn (C87_false). Proved: exactly the sites of that plane are drawn, each in its colour."
  },
  {
   "property": "C88",
   "status": "partial",
   "theorems": [
    "Pyl.C88_round_trip_partial",
    "Pyl.C88_collision",
    "Pyl.C88_false"
   ],
   "note": "False in general: two sites that were both accepted can have stored locations at the same place, and the way back then raises AssertionError (C88_collision, C88_false). Proved for fully periodic lattices and stored locations at different places; flags of non-periodic directions are lost (C79_pbc)."
  },
  {
   "property": "C89",
   "status": "proved",
   "theorems": [
    "Pyl.C89_views"
   ],
   "note": ""
  },
  {
   "property": "C90",
   "status": "proved",
   "theorems": [
    "Pyl.C90_growth",
    "Pyl.C90_same_sites"
   ],
   "note": ""
  },
  {
   "property": "C91",
   "status": "partial",
   "theorems": [
    "Pyl.C91_no_absence_partial",
    "Pyl.C91_false",
    "Pyl.C91_false_grid"
   ],
   "note": "False: a worker that received no batch in the step before sees occupied sites as background and overwrites the phase of a grain (C91_false, no ties involved; C91_false_grid with the grid, neighbourhood and controller made by the library). Proved: every step is a growth step in runs in which every worker receives a batch in every step (C91_no_absence_partial)."
  },
  {
   "property": "C92",
   "status": "proved",
   "theorems": [
    "Pyl.C92_grow",
    "Pyl.C92_fills"
   ],
   "note": ""
  },
  {
   "property": "C93",
   "status": "partial",
   "theorems": [
    "Pyl.C93_exact",
    "Pyl.C93_round_trip_partial",
    "Pyl.C93_grid",
    "Pyl.C93_false"
   ],
   "note": "False where the structure itself cannot be read back (two stored locations at the same place): from_file raises AssertionError after to_file succeeded (C93_false). Proved when no site was added half-way between thousandths and stored locations are in the cell, in particular for all square grids (C93_grid). Exact conditions: C93_exact."
  },
  {
   "property": "C94",
   "status": "proved",
   "theorems": [
    "Pyl.C94_state_at",
    "Pyl.C94_grid",
    "Pyl.C94_off_grid"
   ],
   "note": ""
  },
  {
   "property": "C95",
   "status": "proved",
   "theorems": [
    "Pyl.C95_life"
   ],
   "note": ""
  },
  {
   "property": "C96",
   "status": "proved",
   "theorems": [
    "Pyl.C96_life",
    "Pyl.C96_cells"
   ],
   "note": ""
  },
  {
   "property": "C97",
   "status": "proved",
   "theorems": [
    "Pyl.C97_growth",
    "Pyl.C97_never_overwritten"
   ],
   "note": ""
  },
  {
   "property": "C98",
   "status": "partial",
   "theorems": [
    "Pyl.C98_orthogonal_partial",
    "Pyl.C98_short_partial",
    "Pyl.C98_false"
   ],
   "note": "False on skew lattices whose cell is thin compared with the cutoff (C98_false). Proved for orthogonal lattices with every cutoff, and for every lattice with cutoffs below half the distance between opposite faces of the cell."
  },
  {
   "property": "C99",
   "status": "proved",
   "theorems": [
    "Pyl.C99_square2",
    "Pyl.C99_square3",
    "Pyl.C99_rounding"
   ],
   "note": ""
  },
  {
   "property": "C100",
   "status": "partial",
   "theorems": [
    "Pyl.C100_site_at_partial",
    "Pyl.C100_moore_partial",
    "Pyl.C100_von_neumann_partial",
    "Pyl.C100_sizes",
    "Pyl.C100_false",
    "Pyl.C100_motif_partial"
   ],
   "note": "False: 49 * (1/49) is not 1 in double arithmetic, so on a 49 x 49 grid site_at((49, 0)) is None and the Moore and von Neumann builders raise TypeError (C100_false). Proved: the claim holds exactly for the sizes with n * (1/n) = 1 (all three _partial theorems give both directions); C100_sizes says that these include all n < 49 and all powers of two, and that n and 2^k * n behave alike."
  },
  {
   "property": "C101",
   "status": "partial",
   "theorems": [
    "Pyl.C101_life_partial",
    "Pyl.C101_false"
   ],
   "note": "False: on a 49 x 49 grid every run raises TypeError (C101_false). Proved: for sizes with n * (1/n) = 1 in double arithmetic the run shows the generations, for all other sizes it raises TypeError (C101_life_partial)."
  },
  {
   "property": "C102",
   "status": "proved",
   "theorems": [
    "Pyl.C102_distance",
    "Pyl.C102_metric",
    "Pyl.C102_torus",
    "Pyl.C102_root",
    "Pyl.C102_left_to_right",
    "Pyl.C102_any_order"
   ],
   "note": ""
  },
  {
   "property": "C103",
   "status": "proved",
   "theorems": [
    "Pyl.C103_weights",
    "Pyl.C103_cutoff",
    "Pyl.C103_annulus"
   ],
   "note": ""
  },
  {
   "property": "C104",
   "status": "partial",
   "theorems": [
    "Pyl.C104_random_sites_partial",
    "Pyl.C104_type_error",
    "Pyl.C104_false",
    "Pyl.C104_terminates",
    "Pyl.C104_reachable"
   ],
   "note": "False: with a buffer, on a grid of size 49 every call raises TypeError (C104_false; C104_type_error for every size with n * (1/n) not 1). Proved for all other sizes, and for every size without a buffer."
  },
  {
   "property": "C105",
   "status": "partial",
   "theorems": [
    "Pyl.C105_quotas_partial",
    "Pyl.C105_false",
    "Pyl.C105_left_to_right"
   ],
   "note": "False: with amounts 7 and 93 and 100 sites the first phase always gets 8 sites although its share is exactly 7, because 7 / 100 * 100 rounds to more than 7 (C105_false). Proved: the counts add up, and no phase exceeds share * (1 + (phases + 2) / 2^52) rounded up, hence its share rounded up plus one (C105_quotas_partial)."
  },
  {
   "property": "C106",
   "status": "partial",
   "theorems": [
    "Pyl.C106_interface",
    "Pyl.C106_particle_partial",
    "Pyl.C106_any_radius_partial",
    "Pyl.C106_false"
   ],
   "note": "The interface is proved. The particle is false for arbitrary radii: if the radius is the double nearest to the square root of 2, which is above it, a site at distance sqrt 2 is not covered although it is closer (C106_false). Proved: exact for integer and half-integer radii (C106_particle_partial); for every double radius, sites that are not closer are never covered, and sites whose distance is at most some smaller double always are (C106_any_radius_partial)."
  },
  {
   "property": "C107",
   "status": "partial",
   "theorems": [
    "Pyl.C107_particles_partial",
    "Pyl.C107_noise"
   ],
   "note": "Proved for integer and half-integer radii (C107_particles_partial; for other radii see C106_false) and for noise (C107_noise). What random.choice picks from is as in C83."
  },
  {
   "property": "C108",
   "status": "partial",
   "theorems": [
    "Pyl.C108_coords_partial",
    "Pyl.C108_false"
   ],
   "note": "False: on a 49 x 49 grid the coordinate (49, 0) raises TypeError (C108_false). Proved: the claim holds if no listed coordinate equals the size or n * (1/n) = 1 in double arithmetic, and otherwise TypeError is raised (C108_coords_partial)."
  },
  {
   "property": "C109",
   "status": "partial",
   "theorems": [
    "Pyl.C109_grow_partial",
    "Pyl.C109_type_error",
    "Pyl.C109_false"
   ],
   "note": "False: on a grid of size 49 no call without a buffer or with a buffer between 1 and 49 returns a simulation (C109_false; C109_type_error for every size with n * (1/n) not 1). Proved for all other sizes up to 2^30, for a number of sites that rounds to at least 1 and is at most 2^52 / (phases + 2), buffers between 1 and n, background not among the phases, once the nuclei are placed (C109_grow_partial; whether the search for nuclei ends: C104_terminates)."
  },
  {
   "property": "C110",
   "status": "proved",
   "theorems": [
    "Pyl.C110_no_id",
    "Pyl.C110_wrong_id",
    "Pyl.C110_unhashable_id",
    "Pyl.C110_phases",
    "Pyl.C110_life",
    "Pyl.C110_life_missing",
    "Pyl.C110_growth"
   ],
   "note": ""
  },
  {
   "property": "C111",
   "status": "proved",
   "theorems": [
    "Pyl.C111_sites",
    "Pyl.C111_lookup",
    "Pyl.C111_neighbours",
    "Pyl.C111_inverse",
    "Pyl.C111_plain"
   ],
   "note": "What numpy leaves open is a hypothesis: products with Products, the inverse with InverseOf. C111_inverse discharges the second for Gaussian elimination with partial pivoting, C111_plain has no hypothesis left. Sizes above 1024 are not covered; that no row of hexagons is close to a tie of the rounding is checked row by row."
  },
  {
   "property": "C112",
   "status": "proved",
   "theorems": [
    "Pyl.C112_fraction",
    "Pyl.C112_empty",
    "Pyl.C112_order",
    "Pyl.C112_ratio",
    "Pyl.C112_sum",
    "Pyl.C112_at",
    "Pyl.C112_final",
    "Pyl.C112_plot",
    "Pyl.C112_sum_inexact"
   ],
   "note": "Python divides two ints to the nearest double. C112_sum_inexact shows that a sum of the fractions in double precision can miss 1."
  },
  {
   "property": "C113",
   "status": "proved",
   "theorems": [
    "Pyl.C113_steps",
    "Pyl.C113_batch",
    "Pyl.C113_run"
   ],
   "note": ""
  },
  {
   "property": "C114",
   "status": "proved",
   "theorems": [
    "Pyl.C114_grid",
    "Pyl.C114_honeycomb",
    "Pyl.C114_classes",
    "Pyl.C114_false",
    "Pyl.C114_simulation"
   ],
   "note": "C114_false: the AssertionError of the last sentence does occur. That json writes a double so that it is read back unchanged is assumed."
  },
  {
   "property": "C115",
   "status": "proved",
   "theorems": [
    "Pyl.C115_inverse",
    "Pyl.C115_square2",
    "Pyl.C115_square3",
    "Pyl.C115_lookup",
    "Pyl.C115_neighbours",
    "Pyl.C115_reload"
   ],
   "note": "The sum of squares inside the norm stays a parameter; C102 and C103 show that its choice does not matter there."
  },
  {
   "property": "C116",
   "status": "proved",
   "theorems": [
    "Pyl.C116_builds",
    "Pyl.C116_compound_in_class",
    "Pyl.C116_answers",
    "Pyl.C116_ids",
    "Pyl.C116_total",
    "Pyl.C116_empty",
    "Pyl.C116_known"
   ],
   "note": ""
  },
  {
   "property": "C117",
   "status": "proved",
   "theorems": [
    "Pyl.C117_serial",
    "Pyl.C117_grow",
    "Pyl.C117_hexagonal_fills",
    "Pyl.C117_hexagonal3",
    "Pyl.C117_pentagonal_stalls",
    "Pyl.C117_hexagonal3_unfilled"
   ],
   "note": "C117_pentagonal_stalls: with the pseudopentagonal neighbourhoods there are draws with which nothing grows; C117_hexagonal3_unfilled: on 3D grids from size 12 on there are draws of the pseudohexagonal ones that leave the far side background."
  },
  {
   "property": "C118",
   "status": "proved",
   "theorems": [
    "Pyl.Heap.C118_as_values",
    "Pyl.Heap.C118_reload",
    "Pyl.Heap.C118_unreadable",
    "Pyl.Heap.C118_int_ids",
    "Pyl.Heap.C118_independent",
    "Pyl.Heap.C118_isolated",
    "Pyl.Heap.C118_live",
    "Pyl.Heap.C118_result_readable",
    "Pyl.Heap.C118_result",
    "Pyl.Heap.C118_false",
    "Pyl.Heap.C118_result_false"
   ],
   "note": "C118_false, C118_result_false: with ids that are not ints the original is changed."
  },
  {
   "property": "C119",
   "status": "partial",
   "theorems": [
    "Pyl.C119_controller_partial",
    "Pyl.C119_every_motif",
    "Pyl.C119_grow_partial",
    "Pyl.C119_type_error",
    "Pyl.C119_hexagonal_fills_partial",
    "Pyl.C119_hexagonal3_partial",
    "Pyl.C119_pentagonal_stalls",
    "Pyl.C119_hexagonal3_unfilled",
    "Pyl.C119_false"
   ],
   "note": "False: on a grid of size 49 no call of grow with the pseudohexagonal or pseudopentagonal neighbourhoods returns a simulation (C119_false; C119_type_error for every size with n * (1/n) not 1). Proved for all other sizes up to 2^30 and offsets up to the size, once the nuclei are placed, under the hypotheses of C109 (C119_controller_partial, C119_grow_partial, C119_hexagonal_fills_partial, C119_hexagonal3_partial; limits: C119_pentagonal_stalls, C119_hexagonal3_unfilled)."
  },
  {
   "property": "C120",
   "status": "proved",
   "theorems": [
    "Pyl.C120_continued",
    "Pyl.C120_prefix",
    "Pyl.C120_life",
    "Pyl.C120_async_forgets",
    "Pyl.C120_async_prefix",
    "Pyl.C120_parallel_prefix",
    "Pyl.C120_prefix_any"
   ],
   "note": "C120_async_forgets: the asynchronous runner does not have the property."
  },
  {
   "property": "C121",
   "status": "proved",
   "theorems": [
    "Pyl.C121_symmetry",
    "Pyl.C121_local"
   ],
   "note": ""
  },
  {
   "property": "C122",
   "status": "proved",
   "theorems": [
    "Pyl.C122_plane",
    "Pyl.C122_margin",
    "Pyl.C122_block",
    "Pyl.C122_blinker",
    "Pyl.C122_glider",
    "Pyl.C122_glider_returns"
   ],
   "note": ""
  },
  {
   "property": "C123",
   "status": "proved",
   "theorems": [
    "Pyl.Heap.C123_serial",
    "Pyl.Heap.C123_async",
    "Pyl.Heap.C123_reports",
    "Pyl.Heap.C123_reports_async",
    "Pyl.Heap.C123_fresh",
    "Pyl.Heap.C123_reused_false"
   ],
   "note": "C123_reused_false: changing a returned object between calls breaks it."
  },
  {
   "property": "C124",
   "status": "proved",
   "theorems": [
    "Pyl.C124_chain",
    "Pyl.C124_output",
    "Pyl.C124_visits",
    "Pyl.C124_life"
   ],
   "note": "Probability by counting outcomes of independent uniform draws; that random.randint behaves like this is assumed."
  },
  {
   "property": "C125",
   "status": "proved",
   "theorems": [
    "Pyl.C125_fills",
    "Pyl.C125_limit",
    "Pyl.C125_grid"
   ],
   "note": ""
  },
  {
   "property": "C126",
   "status": "proved",
   "theorems": [
    "Pyl.C126_noise",
    "Pyl.C126_uniform"
   ],
   "note": ""
  },
  {
   "property": "C127",
   "status": "proved",
   "theorems": [
    "Pyl.C127_draws",
    "Pyl.C127_symmetric",
    "Pyl.C127_subsets",
    "Pyl.C127_fails",
    "Pyl.C127_rarely_fails",
    "Pyl.C127_cell"
   ],
   "note": ""
  },
  {
   "property": "C128",
   "status": "proved",
   "theorems": [
    "Pyl.C128_int",
    "Pyl.C128_state",
    "Pyl.C128_state_errors",
    "Pyl.C128_result",
    "Pyl.C128_result_errors",
    "Pyl.C128_structure",
    "Pyl.C128_structure_double",
    "Pyl.C128_structure_errors",
    "Pyl.C128_simulation",
    "Pyl.C128_simulation_exact",
    "Pyl.C128_simulation_errors",
    "Pyl.C128_file"
   ],
   "note": "Documents with site states or a general state that are not dicts are covered by C129. Digits and white space are ASCII."
  },
  {
   "property": "C129",
   "status": "proved",
   "theorems": [
    "Pyl.Raw.C129_reads",
    "Pyl.Raw.C129_set",
    "Pyl.Raw.C129_batch",
    "Pyl.Raw.C129_init",
    "Pyl.Raw.C129_malformed",
    "Pyl.Raw.C129_odd_site",
    "Pyl.Raw.C129_from_dict",
    "Pyl.Raw.C129_agrees",
    "Pyl.Raw.C129_eq"
   ],
   "note": ""
  },
  {
   "property": "C130",
   "status": "proved",
   "theorems": [
    "Pyl.C130_only_reads",
    "Pyl.C130_async_carries_out",
    "Pyl.C130_serial_carries_out",
    "Pyl.C130_unrecorded",
    "Pyl.C130_not_simultaneous",
    "Pyl.C130_order_dependent",
    "Pyl.C130_history_false",
    "Pyl.C130_async_exact",
    "Pyl.C130_parallel_only_reads",
    "Pyl.C130_parallel_output",
    "Pyl.C130_parallel_unrecorded",
    "Pyl.C130_parallel_differs",
    "Pyl.C130_parallel_schedule"
   ],
   "note": "C130_not_simultaneous, C130_order_dependent and C130_history_false show that C13, C14 and C15 need rules that do not write. C130_parallel_differs and C130_parallel_schedule show the same for C18 and for independence of the schedule. That the caller's state is safe from such rules is C16."
  },
  {
   "property": "C131",
   "status": "proved",
   "theorems": [
    "Pyl.C131_moore",
    "Pyl.C131_von_neumann",
    "Pyl.C131_diamond_2",
    "Pyl.C131_diamond_3"
   ],
   "note": ""
  },
  {
   "property": "C132",
   "status": "proved",
   "theorems": [
    "Pyl.C132_interface",
    "Pyl.C132_coords"
   ],
   "note": ""
  },
  {
   "property": "C133",
   "status": "proved",
   "theorems": [
    "Pyl.C133_light_cone",
    "Pyl.C133_closed"
   ],
   "note": ""
  },
  {
   "property": "C134",
   "status": "proved",
   "theorems": [
    "Pyl.C134_repeats",
    "Pyl.C134_eventually_periodic",
    "Pyl.C134_finite_rule",
    "Pyl.C134_life"
   ],
   "note": ""
  },
  {
   "property": "C135",
   "status": "proved",
   "theorems": [
    "Pyl.C135_fills",
    "Pyl.C135_stochastic",
    "Pyl.C135_limit",
    "Pyl.C135_pentagonal",
    "Pyl.C135_between",
    "Pyl.C135_hexagonal3"
   ],
   "note": ""
  },
  {
   "property": "C136",
   "status": "proved",
   "theorems": [
    "Pyl.C136_grains",
    "Pyl.C136_voronoi",
    "Pyl.C136_moore",
    "Pyl.C136_parallel",
    "Pyl.C136_grow",
    "Pyl.C136_parallel_false",
    "Pyl.C136_parallel_false_grid"
   ],
   "note": ""
  },
  {
   "property": "C137",
   "status": "proved",
   "theorems": [
    "Pyl.C137_serial",
    "Pyl.C137_parallel",
    "Pyl.C137_asynchronous",
    "Pyl.C137_steps",
    "Pyl.C137_phases",
    "Pyl.C137_growth"
   ],
   "note": ""
  },
  {
   "property": "C138",
   "status": "proved",
   "theorems": [
    "Pyl.C138_law",
    "Pyl.C138_bulk",
    "Pyl.C138_covered",
    "Pyl.C138_border"
   ],
   "note": ""
  },
  {
   "property": "C139",
   "status": "proved",
   "theorems": [
    "Pyl.C139_hashable",
    "Pyl.C139_call",
    "Pyl.C139_unhashable",
    "Pyl.C139_walled",
    "Pyl.C139_parallel"
   ],
   "note": ""
  },
  {
   "property": "C140",
   "status": "proved",
   "theorems": [
    "Pyl.C140_same",
    "Pyl.C140_in_turn",
    "Pyl.C140_returns",
    "Pyl.C140_close",
    "Pyl.C140_off"
   ],
   "note": ""
  },
  {
   "property": "C141",
   "status": "proved",
   "theorems": [
    "Pyl.RawLattice.C141_accepts",
    "Pyl.RawLattice.C141_square",
    "Pyl.RawLattice.C141_one_flag",
    "Pyl.RawLattice.C141_flags",
    "Pyl.RawLattice.C141_any_shape",
    "Pyl.RawLattice.C141_misshapen",
    "Pyl.RawLattice.C141_four_numbers"
   ],
   "note": ""
  },
  {
   "property": "C142",
   "status": "proved",
   "theorems": [
    "Pyl.RawStructure.C142_add",
    "Pyl.RawStructure.C142_refuses",
    "Pyl.RawStructure.C142_at",
    "Pyl.RawStructure.C142_shape",
    "Pyl.RawStructure.C142_first",
    "Pyl.RawStructure.C142_build",
    "Pyl.RawStructure.C142_builder",
    "Pyl.RawStructure.C142_few_counts",
    "Pyl.RawStructure.C142_bad_position"
   ],
   "note": ""
  },
  {
   "property": "C143",
   "status": "proved",
   "theorems": [
    "Pyl.RawStructure.C143_long",
    "Pyl.RawStructure.C143_neighbours",
    "Pyl.RawStructure.C143_short",
    "Pyl.RawStructure.C143_moore",
    "Pyl.RawStructure.C143_vonNeumann",
    "Pyl.RawStructure.C143_too_few",
    "Pyl.RawStructure.C143_weight",
    "Pyl.RawStructure.C143_moore_weight"
   ],
   "note": ""
  },
  {
   "property": "C144",
   "status": "proved",
   "theorems": [
    "Pyl.Lattice.C144_right",
    "Pyl.Lattice.C144_exactly",
    "Pyl.Lattice.C144_images",
    "Pyl.Lattice.C144_neighbours",
    "Pyl.Lattice.C144_honeycomb"
   ],
   "note": ""
  },
  {
   "property": "C145",
   "status": "proved",
   "theorems": [
    "Pyl.C145_light_cone",
    "Pyl.C145_steps",
    "Pyl.C145_closed"
   ],
   "note": ""
  },
  {
   "property": "C146",
   "status": "proved",
   "theorems": [
    "Pyl.C146_cone",
    "Pyl.C146_within",
    "Pyl.C146_unvisited"
   ],
   "note": ""
  },
  {
   "property": "C147",
   "status": "proved",
   "theorems": [
    "Pyl.C147_reorder",
    "Pyl.C147_at_once"
   ],
   "note": ""
  },
  {
   "property": "C148",
   "status": "proved",
   "theorems": [
    "Pyl.C148_serial",
    "Pyl.C148_returns",
    "Pyl.C148_symmetric",
    "Pyl.C148_async"
   ],
   "note": ""
  },
  {
   "property": "C149",
   "status": "proved",
   "theorems": [
    "Pyl.C149_interface",
    "Pyl.C149_no_interface",
    "Pyl.C149_particle",
    "Pyl.C149_no_particle",
    "Pyl.C149_random_particles",
    "Pyl.C149_coords",
    "Pyl.C149_noise",
    "Pyl.C149_random_sites",
    "Pyl.C149_reachable"
   ],
   "note": ""
  },
  {
   "property": "C150",
   "status": "proved",
   "theorems": [
    "Pyl.C150_opposite",
    "Pyl.C150_anneal",
    "Pyl.C150_no_deaths",
    "Pyl.C150_no_births",
    "Pyl.C150_rest",
    "Pyl.C150_no_survival",
    "Pyl.C150_seeds",
    "Pyl.C150_empty"
   ],
   "note": ""
  },
  {
   "property": "C151",
   "status": "proved",
   "theorems": [
    "Pyl.C151_opposite",
    "Pyl.C151_one_way",
    "Pyl.C151_stays",
    "Pyl.C151_same_rest",
    "Pyl.C151_order",
    "Pyl.C151_settles_no_deaths",
    "Pyl.C151_settles_no_births",
    "Pyl.C151_settles_limit",
    "Pyl.C151_order_limit",
    "Pyl.C151_order_needed"
   ],
   "note": ""
  },
  {
   "property": "C152",
   "status": "proved",
   "theorems": [
    "Pyl.C152_connected",
    "Pyl.C152_reachable",
    "Pyl.C152_grid"
   ],
   "note": ""
  },
  {
   "property": "C153",
   "status": "proved",
   "theorems": [
    "Pyl.C153_copies",
    "Pyl.C153_nine_copies",
    "Pyl.C153_overlay",
    "Pyl.C153_dies_out",
    "Pyl.C153_returns"
   ],
   "note": ""
  },
  {
   "property": "C154",
   "status": "proved",
   "theorems": [
    "Pyl.C154_exists_iff",
    "Pyl.C154_exists",
    "Pyl.C154_named",
    "Pyl.C154_none"
   ],
   "note": ""
  },
  {
   "property": "C155",
   "status": "proved",
   "theorems": [
    "Pyl.C155_confined",
    "Pyl.C155_confined_async",
    "Pyl.C155_anneal",
    "Pyl.C155_exact",
    "Pyl.C155_population"
   ],
   "note": ""
  },
  {
   "property": "C156",
   "status": "proved",
   "theorems": [
    "Pyl.C156_front",
    "Pyl.C156_count",
    "Pyl.C156_filled"
   ],
   "note": ""
  },
  {
   "property": "C157",
   "status": "proved",
   "theorems": [
    "Pyl.C157_front",
    "Pyl.C157_count"
   ],
   "note": ""
  },
  {
   "property": "C158",
   "status": "proved",
   "theorems": [
    "Pyl.C158_master",
    "Pyl.C158_wait",
    "Pyl.C158_first",
    "Pyl.C158_grid"
   ],
   "note": ""
  },
  {
   "property": "C159",
   "status": "proved",
   "theorems": [
    "Pyl.C159_cell",
    "Pyl.C159_population",
    "Pyl.C159_life"
   ],
   "note": ""
  },
  {
   "property": "C160",
   "status": "proved",
   "theorems": [
    "Pyl.C160_everywhere",
    "Pyl.C160_independent",
    "Pyl.C160_concentrates",
    "Pyl.C160_life"
   ],
   "note": ""
  },
  {
   "property": "C161",
   "status": "proved",
   "theorems": [
    "Pyl.C161_first",
    "Pyl.C161_stale",
    "Pyl.C161_refresh",
    "Pyl.C161_object",
    "Pyl.C161_example",
    "Pyl.C161_in_turn"
   ],
   "note": ""
  },
  {
   "property": "C162",
   "status": "proved",
   "theorems": [
    "Pyl.C162_fraction_at",
    "Pyl.C162_phases",
    "Pyl.C162_misses",
    "Pyl.C162_noise",
    "Pyl.C162_misses_example"
   ],
   "note": ""
  },
  {
   "property": "C163",
   "status": "proved",
   "theorems": [
    "Pyl.C163_frames",
    "Pyl.C163_black",
    "Pyl.C163_gif"
   ],
   "note": ""
  },
  {
   "property": "C164",
   "status": "proved",
   "theorems": [
    "Pyl.C164_phases",
    "Pyl.C164_monotone",
    "Pyl.C164_one_by_one",
    "Pyl.C164_parallel_falls",
    "Pyl.C164_colors",
    "Pyl.C164_parallel_falls_grid"
   ],
   "note": ""
  },
  {
   "property": "C165",
   "status": "proved",
   "theorems": [
    "Pyl.C165_fraction_at",
    "Pyl.C165_one_by_one",
    "Pyl.C165_exists",
    "Pyl.C165_at_rest"
   ],
   "note": ""
  },
  {
   "property": "C166",
   "status": "proved",
   "theorems": [
    "Pyl.C166_frames",
    "Pyl.C166_gif"
   ],
   "note": ""
  },
  {
   "property": "C167",
   "status": "proved",
   "theorems": [
    "Pyl.C167_play",
    "Pyl.C167_step_range",
    "Pyl.C167_play_error",
    "Pyl.C167_windows",
    "Pyl.C167_save",
    "Pyl.C167_life"
   ],
   "note": ""
  },
  {
   "property": "C168",
   "status": "partial",
   "theorems": [
    "Pyl.C168_file",
    "Pyl.C168_two_partial",
    "Pyl.C168_overwrites",
    "Pyl.C168_false"
   ],
   "note": "False of the code: the name from the clock has no seconds, so a second result saved without a name within the same minute overwrites the first (C168_overwrites, C168_false). Proved: reading back (C168_file), and both results are kept if the minutes differ (C168_two_partial)."
  },
  {
   "property": "C169",
   "status": "proved",
   "theorems": [
    "Pyl.C169_step",
    "Pyl.C169_upper",
    "Pyl.C169_sum",
    "Pyl.C169_time",
    "Pyl.C169_coupons",
    "Pyl.C169_lower",
    "Pyl.C169_grid"
   ],
   "note": ""
  },
  {
   "property": "C170",
   "status": "proved",
   "theorems": [
    "Pyl.C170_drift",
    "Pyl.C170_bounds",
    "Pyl.C170_change",
    "Pyl.C170_fade"
   ],
   "note": ""
  },
  {
   "property": "C171",
   "status": "proved",
   "theorems": [
    "Pyl.C171_exact",
    "Pyl.C171_complete",
    "Pyl.C171_oneWay",
    "Pyl.C171_ring",
    "Pyl.C171_grid",
    "Pyl.C171_motif"
   ],
   "note": ""
  },
  {
   "property": "C172",
   "status": "proved",
   "theorems": [
    "Pyl.C172_wait",
    "Pyl.C172_chance",
    "Pyl.C172_covered",
    "Pyl.C172_time",
    "Pyl.C172_grid"
   ],
   "note": ""
  },
  {
   "property": "C173",
   "status": "proved",
   "theorems": [
    "Pyl.C173_reported",
    "Pyl.C173_step",
    "Pyl.C173_lower",
    "Pyl.C173_upper",
    "Pyl.C173_grid"
   ],
   "note": ""
  },
  {
   "property": "C174",
   "status": "proved",
   "theorems": [
    "Pyl.C174_reported",
    "Pyl.C174_drift",
    "Pyl.C174_bounds",
    "Pyl.C174_fade"
   ],
   "note": ""
  },
  {
   "property": "C175",
   "status": "proved",
   "theorems": [
    "Pyl.C175_moore",
    "Pyl.C175_von_neumann",
    "Pyl.C175_one",
    "Pyl.C175_bounds",
    "Pyl.C175_diamond",
    "Pyl.C175_setups",
    "Pyl.C175_layers"
   ],
   "note": ""
  }
 ]
}