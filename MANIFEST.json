{
 "claims": [
  {
   "property": "C01",
   "status": "proved",
   "theorems": [
    "Verif.Grid.C01_index_roundtrip",
    "Verif.Grid.C01_coordinate_roundtrip",
    "Verif.Grid.C01_constructor_total"
   ],
   "note": ""
  },
  {
   "property": "C02",
   "status": "proved",
   "theorems": [
    "Verif.Grid.C02_out_of_range_rejected",
    "Verif.Grid.C02_regular_iff"
   ],
   "note": ""
  },
  {
   "property": "C03",
   "status": "proved",
   "theorems": [
    "Verif.Grid.C03_index_roundtrip",
    "Verif.Grid.C03_injective",
    "Verif.Grid.C03_coordinate_roundtrip"
   ],
   "note": "Holds for accepted grids whose layers are at least one of their spacings thick (Roomy); C53 shows the hypothesis is needed."
  },
  {
   "property": "C04",
   "status": "proved",
   "theorems": [
    "Verif.Grid.C04_points_in_domain",
    "Verif.Grid.C04_layers_disjoint"
   ],
   "note": ""
  },
  {
   "property": "C05",
   "status": "proved",
   "theorems": [
    "Verif.Grid.C05_terminates_iff",
    "Verif.Grid.C05_largest_fit",
    "Verif.Grid.C05_interfaces"
   ],
   "note": ""
  },
  {
   "property": "C06",
   "status": "partial",
   "theorems": [
    "Verif.Grid.C06_gap_violated",
    "Verif.Grid.C06_safe_iff_partial"
   ],
   "note": "Violated by the code: C06_gap_violated is a concrete accepted grid and in-range coordinate that reads out of bounds. C06_safe_iff_partial characterises the safe coordinates exactly."
  },
  {
   "property": "C07",
   "status": "proved",
   "theorems": [
    "Verif.Grid.C07_edge_distance",
    "Verif.Grid.C07_edge_distance_laws"
   ],
   "note": ""
  },
  {
   "property": "C08",
   "status": "proved",
   "theorems": [
    "Verif.Config.C08_add_refines",
    "Verif.Config.C08_insertion_order",
    "Verif.Config.C08_print_total",
    "Verif.Config.C08_read_keeps_existing",
    "Verif.Config.C08_last_wins"
   ],
   "note": ""
  },
  {
   "property": "C09",
   "status": "partial",
   "theorems": [
    "Verif.Config.C09_comment_violated",
    "Verif.Config.C09_comment_ignored_partial"
   ],
   "note": "Violated by the code: C09_comment_violated is a comment line that changes the configuration. C09_comment_ignored_partial states which comment lines are ignored."
  },
  {
   "property": "C10",
   "status": "proved",
   "theorems": [
    "Verif.Config.C10_present_iff_assigned",
    "Verif.Config.C10_default_iff_absent"
   ],
   "note": ""
  },
  {
   "property": "C11",
   "status": "partial",
   "theorems": [
    "Verif.Config.C11_2D_violated",
    "Verif.Config.C11_2D_partial"
   ],
   "note": "Violated by the code: C11_2D_violated is a 2D configuration keeping NZ > 1. C11_2D_partial states when NZ=1 is enforced."
  },
  {
   "property": "C12",
   "status": "proved",
   "theorems": [
    "Verif.Common.C12_blocks",
    "Verif.Common.C12_too_many_domains",
    "Verif.Common.C12_every_domain_full"
   ],
   "note": ""
  },
  {
   "property": "C13",
   "status": "partial",
   "theorems": [
    "Verif.Check.C13_accept_iff",
    "Verif.Check.C13_dimensions",
    "Verif.Check.C13_rejects_unknown",
    "Verif.Check.C13_courant_violated",
    "Verif.Check.C13_order2_partial",
    "Verif.Check.C13_blow_up_violated"
   ],
   "note": "Violated by the code for orders 4 to 12: C13_accept_iff shows that integer division removes the order factor, C13_courant_violated that the bound is exceeded, C13_blow_up_violated that an accepted time step makes the acoustic scheme grow without bound. Order 2 is proved (C13_order2_partial)."
  },
  {
   "property": "C14",
   "status": "proved",
   "theorems": [
    "Verif.Common.C14_replaces_exactly",
    "Verif.Common.C14_idempotent",
    "Verif.Common.C14_replaceInvalid",
    "Verif.Common.C14_replaceVp"
   ],
   "note": ""
  },
  {
   "property": "C15",
   "status": "proved",
   "theorems": [
    "Verif.Common.C15_linear_interpolation",
    "Verif.Common.C15_exact_on_linear",
    "Verif.Common.C15_entries_in_bounds"
   ],
   "note": ""
  },
  {
   "property": "C16",
   "status": "partial",
   "theorems": [
    "Verif.Common.C16_padding_violated",
    "Verif.Common.C16_too_short_iff",
    "Verif.Common.C16_neutral_filter_partial"
   ],
   "note": "Violated by the code for lengths 2^k+1: C16_padding_violated (9 samples). C16_too_short_iff characterises the bad lengths, C16_neutral_filter_partial covers all others."
  },
  {
   "property": "C17",
   "status": "proved",
   "theorems": [
    "Verif.Common.C17_unwrap"
   ],
   "note": ""
  },
  {
   "property": "C18",
   "status": "proved",
   "theorems": [
    "Verif.Median.C18_median_2d",
    "Verif.Median.C18_median_1d",
    "Verif.Median.C18_single_sample",
    "Verif.Median.C18_empty_image",
    "Verif.Median.C18_median_unique"
   ],
   "note": ""
  },
  {
   "property": "C19",
   "status": "partial",
   "theorems": [
    "Verif.Median.C19_even_size_violated",
    "Verif.Median.C19_odd_size_partial"
   ],
   "note": "Violated by the code: C19_even_size_violated, every even window size compares uninitialised entries. Odd sizes are proved."
  },
  {
   "property": "C20",
   "status": "proved",
   "theorems": [
    "Verif.Stencil.C20_constant"
   ],
   "note": ""
  },
  {
   "property": "C21",
   "status": "proved",
   "theorems": [
    "Verif.Stencil.C21_linear",
    "Verif.Stencil.C21_linear_rounded",
    "Verif.Stencil.C21_polynomial",
    "Verif.Stencil.C21_polynomial_rounded"
   ],
   "note": ""
  },
  {
   "property": "C22",
   "status": "proved",
   "theorems": [
    "Verif.Stencil.C22_regular",
    "Verif.Stencil.C22_order_used",
    "Verif.Stencil.C22_any_factor"
   ],
   "note": ""
  },
  {
   "property": "C23",
   "status": "proved",
   "theorems": [
    "Verif.Stencil.C23_negative_transpose",
    "Verif.Stencil.C23_edge_not_transpose",
    "Verif.Stencil.C23_stencil_backward",
    "Verif.Stencil.C23_sparse_eq_stencil"
   ],
   "note": ""
  },
  {
   "property": "C24",
   "status": "partial",
   "theorems": [
    "Verif.Stencil.C24_coarse_edge_violated",
    "Verif.Stencil.C24_last_row_empty",
    "Verif.Stencil.C24_interior_partial"
   ],
   "note": "Violated by the code: C24_coarse_edge_violated is a coarse-layer edge row without entries and C24_last_row_empty shows it for every coarse layer. C24_interior_partial covers the interior rows."
  },
  {
   "property": "C25",
   "status": "proved",
   "theorems": [
    "Verif.Stencil.C25_forward",
    "Verif.Stencil.C25_backward"
   ],
   "note": ""
  },
  {
   "property": "C26",
   "status": "partial",
   "theorems": [
    "Verif.Interp.C26_off_interface",
    "Verif.Interp.C26_full_average",
    "Verif.Interp.C26_staggered_violated"
   ],
   "note": "Identity rows off the interfaces for all four matrices and averages for the plain matrix are proved on every accepted roomy grid. For staggered fields the statement fails at the left edge (weights 4/3 and -1/3), shown by a witness."
  },
  {
   "property": "C27",
   "status": "proved",
   "theorems": [
    "Verif.Solver.C27_acoustic2D",
    "Verif.Solver.C27_acoustic3D"
   ],
   "note": ""
  },
  {
   "property": "C28",
   "status": "proved",
   "theorems": [
    "Verif.Solver.C28_superposition",
    "Verif.Solver.C28_linear_in_signals"
   ],
   "note": ""
  },
  {
   "property": "C29",
   "status": "proved",
   "theorems": [
    "Verif.Solver.C29_shots_independent",
    "Verif.Solver.C29_history_irrelevant",
    "Verif.Solver.C29_repeatable"
   ],
   "note": ""
  },
  {
   "property": "C30",
   "status": "proved",
   "theorems": [
    "Verif.Boundary.C30_range",
    "Verif.Boundary.C30_contracts",
    "Verif.Boundary.C30_interior",
    "Verif.Boundary.C30_edge",
    "Verif.Boundary.C30_monotone",
    "Verif.Boundary.C30_monotone_free_surface"
   ],
   "note": ""
  },
  {
   "property": "C31",
   "status": "proved",
   "theorems": [
    "Verif.Boundary.C31_coefficients",
    "Verif.Boundary.C31_memory_bounded",
    "Verif.Boundary.C31_grid",
    "Verif.Boundary.C31_memory_decays"
   ],
   "note": ""
  },
  {
   "property": "C32",
   "status": "proved",
   "theorems": [
    "Verif.Solver.C32_surface_pressure_2D",
    "Verif.Solver.C32_surface_pressure_3D",
    "Verif.Solver.C32_surface_receiver"
   ],
   "note": ""
  },
  {
   "property": "C33",
   "status": "proved",
   "theorems": [
    "Verif.Acq.C33_unique",
    "Verif.Acq.C33_index"
   ],
   "note": ""
  },
  {
   "property": "C34",
   "status": "proved",
   "theorems": [
    "Verif.Acq.C34_selection",
    "Verif.Acq.C34_partition"
   ],
   "note": ""
  },
  {
   "property": "C35",
   "status": "proved",
   "theorems": [
    "Verif.Acq.C35_sources",
    "Verif.Acq.C35_receivers"
   ],
   "note": ""
  },
  {
   "property": "C36",
   "status": "partial",
   "theorems": [
    "Verif.Shots.C36_mode1_distinct",
    "Verif.Shots.C36_mode1_finishes_iff",
    "Verif.Shots.C36_mode1_limit",
    "Verif.Shots.C36_mode1_each_shot_once",
    "Verif.Shots.C36_several_sources_violated",
    "Verif.Shots.C36_mode3_fair",
    "Verif.Shots.C36_mode2_violated",
    "Verif.Shots.C36_mode2_fair_partial"
   ],
   "note": "Violated by the code: C36_mode2_violated selects a shot twice (global mode, number of shots not a multiple of the domains); C36_several_sources_violated reads out of bounds in random mode when shots have several sources. Mode 1 and mode 3 are proved for all random streams, mode 2 for multiples."
  },
  {
   "property": "C37",
   "status": "partial",
   "theorems": [
    "Verif.Shots.C37_mode2",
    "Verif.Shots.C37_mode3_partial",
    "Verif.Shots.C37_mode1",
    "Verif.Shots.C37_mode1_not_stuck",
    "Verif.Shots.C37_all_supershots_readable",
    "Verif.Shots.C37_mode3_empty_violated",
    "Verif.Shots.C37_few_shots_violated"
   ],
   "note": "Violated by the code: C37_mode3_empty_violated and C37_few_shots_violated leave supershots empty, which are then read out of bounds. Modes 1 and 2 with enough shots are proved."
  },
  {
   "property": "C38",
   "status": "partial",
   "theorems": [
    "Verif.Acq.C38_small_amplitude_violated",
    "Verif.Acq.C38_polarity_partial"
   ],
   "note": "Violated by the code: C38_small_amplitude_violated, a positive amplitude below 1 is truncated to 0 and inverts the signal; C38_polarity_partial covers all other amplitudes."
  },
  {
   "property": "C39",
   "status": "proved",
   "theorems": [
    "Verif.Acq.C39_local_traces",
    "Verif.Acq.C39_exactly_one",
    "Verif.Acq.C39_outside"
   ],
   "note": ""
  },
  {
   "property": "C40",
   "status": "proved",
   "theorems": [
    "Verif.Acq.C40_union"
   ],
   "note": ""
  },
  {
   "property": "C41",
   "status": "partial",
   "theorems": [
    "Verif.Acq.C41_types_collected",
    "Verif.Acq.C41_duplicate_violated",
    "Verif.Acq.C41_covers_partial",
    "Verif.Acq.C41_exact_partial"
   ],
   "note": "Violated by the code: C41_duplicate_violated, two receivers of the same later type duplicate every receiver of that type; C41_covers_partial and C41_exact_partial state what holds."
  },
  {
   "property": "C42",
   "status": "partial",
   "theorems": [
    "Verif.Seis.C42_sliding_mean",
    "Verif.Seis.C42_gain",
    "Verif.Seis.C42_zero_window_violated",
    "Verif.Seis.C42_zero_window_iff"
   ],
   "note": "Proved for window half-lengths 1 .. NT/2. C42_zero_window_violated: the accepted length 0 gives gain 0 everywhere; C42_zero_window_iff says when it happens."
  },
  {
   "property": "C43",
   "status": "proved",
   "theorems": [
    "Verif.Seis.C43_max",
    "Verif.Seis.C43_l2",
    "Verif.Seis.C43_idempotent",
    "Verif.Seis.C43_scale_invariant"
   ],
   "note": ""
  },
  {
   "property": "C44",
   "status": "partial",
   "theorems": [
    "Verif.Seis.C44_last_trace_violated",
    "Verif.Seis.C44_checked_partial",
    "Verif.Seis.C44_no_false_alarm"
   ],
   "note": "Violated by the code: the last trace is not checked. C44_checked_partial states exactly which samples are checked."
  },
  {
   "property": "C45",
   "status": "partial",
   "theorems": [
    "Verif.Seis.C45_inverse_violated",
    "Verif.Seis.C45_first_sample_violated",
    "Verif.Seis.C45_integral_partial",
    "Verif.Seis.C45_differentiate_partial",
    "Verif.Seis.C45_two_samples_partial"
   ],
   "note": "Violated by the code: C45_inverse_violated and C45_first_sample_violated; the partial theorems describe what is computed."
  },
  {
   "property": "C46",
   "status": "partial",
   "theorems": [
    "Verif.SU.C46_read_back_partial",
    "Verif.SU.C46_single_trace_partial",
    "Verif.SU.C46_headers",
    "Verif.SU.C46_long_traces_truncated",
    "Verif.SU.C46_big_file_violated"
   ],
   "note": "Round trip proved for traces up to 65535 samples and files below 2 GB; longer traces are cut (ns is 16 bit) and files above 2 GB overflow the int offset."
  },
  {
   "property": "C47",
   "status": "partial",
   "theorems": [
    "Verif.SU.C47_sources",
    "Verif.SU.C47_receivers_iff_partial",
    "Verif.SU.C47_receivers_millimetre_partial",
    "Verif.SU.C47_receivers_violated"
   ],
   "note": "Sources are recovered for every spacing above 1 mm; receivers are truncated instead of rounded, so they are recovered only if the rounding to millimetres did not round down."
  },
  {
   "property": "C48",
   "status": "proved",
   "theorems": [
    "Verif.SU.C48_component",
    "Verif.SU.C48_written_name"
   ],
   "note": ""
  },
  {
   "property": "C49",
   "status": "partial",
   "theorems": [
    "Verif.Snapshot.C49_nearest_step",
    "Verif.Snapshot.C49_exactly_due_partial",
    "Verif.Snapshot.C49_equidistant_partial",
    "Verif.Snapshot.C49_small_increment_violated",
    "Verif.Snapshot.C49_disabled",
    "Verif.Snapshot.C49_decomposition"
   ],
   "note": "Proved for increments of at least half a time step; smaller increments (also 0) divide by zero."
  },
  {
   "property": "C50",
   "status": "partial",
   "theorems": [
    "Verif.Signal.C50_sinThree_iff_partial",
    "Verif.Signal.C50_sinW_iff_partial",
    "Verif.Signal.C50_intgSinThree_iff_partial",
    "Verif.Signal.C50_spike_iff_partial",
    "Verif.Signal.C50_violated"
   ],
   "note": "Exact characterisation of the out-of-range writes: negative shift, or wavelet ending exactly one past the trace."
  },
  {
   "property": "C51",
   "status": "partial",
   "theorems": [
    "Verif.Signal.C51_sinThree",
    "Verif.Signal.C51_sinW",
    "Verif.Signal.C51_berlage",
    "Verif.Signal.C51_intgSinThree_violated",
    "Verif.Signal.C51_spike_partial",
    "Verif.Signal.C51_spike_violated"
   ],
   "note": "SinThree, SinW and Berlage proved; IntgSinThree is a non-zero constant before its onset; Spike comes early for shifts that are not a multiple of DT."
  },
  {
   "property": "C52",
   "status": "proved",
   "theorems": [
    "Verif.Acq.C52_grouped",
    "Verif.Acq.C52_unknown_type"
   ],
   "note": ""
  },
  {
   "property": "C53",
   "status": "partial",
   "theorems": [
    "Verif.Grid.C53_thin_layer_violated"
   ],
   "note": "Violated by the code: C53_thin_layer_violated gives an accepted configuration with a negative layer size and two indices with the same coordinate. For roomy configurations C03/C04 prove the opposite."
  },
  {
   "property": "C54",
   "status": "proved",
   "theorems": [
    "Verif.Check.C54_max_velocity",
    "Verif.Check.C54_min_velocity",
    "Verif.Check.C54_every_point"
   ],
   "note": ""
  },
  {
   "property": "C55",
   "status": "partial",
   "theorems": [
    "Verif.Check.C55_regular",
    "Verif.Check.C55_variable_partial",
    "Verif.Check.C55_between_layers_violated"
   ],
   "note": "Proved on regular grids (C55_regular) and for depths inside layers (C55_variable_partial); between two layers the check itself is undefined (C55_between_layers_violated)."
  },
  {
   "property": "C56",
   "status": "partial",
   "theorems": [
    "Verif.Acq.C56_own_row_partial",
    "Verif.Acq.C56_unknown_shot_violated"
   ],
   "note": "Violated by the code: C56_unknown_shot_violated; C56_own_row_partial covers shots that have a row."
  },
  {
   "property": "C57",
   "status": "proved",
   "theorems": [
    "Verif.Shots.C57_every_shot_once",
    "Verif.Shots.C57_every_source_once"
   ],
   "note": ""
  },
  {
   "property": "C58",
   "status": "partial",
   "theorems": [
    "Verif.AcqFile.C58_receivers_read",
    "Verif.AcqFile.C58_sources_read",
    "Verif.AcqFile.C58_final_newline",
    "Verif.AcqFile.C58_wrong_columns",
    "Verif.AcqFile.C58_not_a_number",
    "Verif.AcqFile.C58_wrong_columns_source",
    "Verif.AcqFile.C58_accepted",
    "Verif.AcqFile.C58_malformed_accepted_violated"
   ],
   "note": "Correct files proved for all spellings and layouts; wrong column counts and words are errors; malformed numbers that begin with a digit are accepted (violated)."
  },
  {
   "property": "C59",
   "status": "partial",
   "theorems": [
    "Verif.Median.C59_window_length_violated"
   ],
   "note": "Violated by the code: the window length is ignored, it is always five samples."
  },
  {
   "property": "C60",
   "status": "partial",
   "theorems": [
    "Verif.Seis.C60_once_partial",
    "Verif.Seis.C60_copy_violated"
   ],
   "note": "Violated by the code for copies (the copy constructor drops the flag); proved for a single object."
  },
  {
   "property": "C61",
   "status": "partial",
   "theorems": [
    "Verif.Seis.C61_first_round_partial",
    "Verif.Seis.C61_second_round_violated"
   ],
   "note": "Violated by the code from the second round on; first round proved."
  },
  {
   "property": "C62",
   "status": "partial",
   "theorems": [
    "Verif.SU.C62_receivers",
    "Verif.SU.C62_sources_all_partial",
    "Verif.SU.C62_sources_violated"
   ],
   "note": "Receivers: proved. Sources: all four component files must exist."
  },
  {
   "property": "C63",
   "status": "partial",
   "theorems": [
    "Verif.SU.C63_dt",
    "Verif.SU.C63_radar_violated"
   ],
   "note": "Within half a microsecond for seismic intervals; radar intervals below 0.5 microseconds become 0."
  },
  {
   "property": "C64",
   "status": "partial",
   "theorems": [
    "Verif.Signal.C64_ricker",
    "Verif.Signal.C64_sine",
    "Verif.Signal.C64_fgaussian",
    "Verif.Signal.C64_sinThree_partial",
    "Verif.Signal.C64_sinW_partial",
    "Verif.Signal.C64_intgSinThree_partial",
    "Verif.Signal.C64_shift_violated",
    "Verif.Signal.C64_gprMax_partial",
    "Verif.Signal.C64_gprMax_violated",
    "Verif.Signal.C64_berlage_partial",
    "Verif.Signal.C64_berlage_nan_violated"
   ],
   "note": "Ricker and Gaussian derivative proved; SinThree, SinW with the shift rounded down to a sample; IntgSinThree only in its window; GprMax with another tau than in the guide; Berlage up to a factor."
  },
  {
   "property": "C65",
   "status": "partial",
   "theorems": [
    "Verif.Signal.C65_ricker",
    "Verif.Signal.C65_sine",
    "Verif.Signal.C65_fgaussian",
    "Verif.Signal.C65_sinThree",
    "Verif.Signal.C65_berlage",
    "Verif.Signal.C65_sinW_partial",
    "Verif.Signal.C65_sinW_violated",
    "Verif.Signal.C65_gprMax_violated"
   ],
   "note": "Ricker, Gaussian derivative, SinThree, Berlage proved; SinW reaches more than 1.2 times the amplitude; GprMax is not normalised."
  },
  {
   "property": "C66",
   "status": "proved",
   "theorems": [
    "Verif.Boundary.C66_inactive",
    "Verif.Boundary.C66_grid",
    "Verif.Boundary.C66_mirror",
    "Verif.Boundary.C66_active",
    "Verif.Boundary.C66_width"
   ],
   "note": ""
  },
  {
   "property": "C67",
   "status": "proved",
   "theorems": [
    "Verif.Solver.C67_surface_stress",
    "Verif.Solver.C67_surface_memory"
   ],
   "note": ""
  },
  {
   "property": "C68",
   "status": "proved",
   "theorems": [
    "Verif.Solver.C68_sh2D",
    "Verif.Solver.C68_elastic2D",
    "Verif.Solver.C68_elastic3D"
   ],
   "note": ""
  },
  {
   "property": "C69",
   "status": "proved",
   "theorems": [
    "Verif.Solver.C69_emem2D_balance",
    "Verif.Solver.C69_emem2D_no_growth",
    "Verif.Solver.C69_tmem2D_balance",
    "Verif.Solver.C69_tmem2D_no_growth",
    "Verif.Solver.C69_emem3D_balance",
    "Verif.Solver.C69_emem3D_no_growth"
   ],
   "note": ""
  },
  {
   "property": "C70",
   "status": "partial",
   "theorems": [
    "Verif.Interp.C70_full_bilinear",
    "Verif.Interp.C70_constant_iff_partial",
    "Verif.Interp.C70_staggered_bilinear_partial",
    "Verif.Interp.C70_edge_violated",
    "Verif.Interp.C70_coarse_staggered_violated",
    "Verif.Interp.C70_equal_factor_violated"
   ],
   "note": "Proved for the plain matrix wherever the coarse neighbours exist, with an exact characterisation of where constants are reproduced, and for staggered fields between factors one and three. Violated beyond the last coarse column, for staggered fields between coarser factors, and between equal factors above one."
  },
  {
   "property": "C71",
   "status": "partial",
   "theorems": [
    "Verif.Avg.C71_convex_partial",
    "Verif.Avg.C71_bounds_partial",
    "Verif.Avg.C71_homogeneous_partial",
    "Verif.Avg.C71_thin_layer_violated"
   ],
   "note": "Proved for every assembled row on all accepted grids (on regular grids and away from interfaces every row is assembled, C72). Violated for a thin fine layer between coarse ones: the averaging in depth runs off the list of layers."
  },
  {
   "property": "C72",
   "status": "partial",
   "theorems": [
    "Verif.Avg.C72_regular",
    "Verif.Avg.C72_variable_partial",
    "Verif.Avg.C72_interface_violated"
   ],
   "note": "Proved in full for regular grids and, on variable grids, away from interfaces. Violated at fine to coarse interfaces."
  },
  {
   "property": "C73",
   "status": "proved",
   "theorems": [
    "Verif.Avg.C73_vacuum",
    "Verif.Avg.C73_bounds"
   ],
   "note": ""
  },
  {
   "property": "C74",
   "status": "partial",
   "theorems": [
    "Verif.Config.C74_word_partial",
    "Verif.Config.C74_blank_violated"
   ],
   "note": "Proved for values without inner blanks. Violated for values with blanks (cut) and names followed by a blank (not found)."
  },
  {
   "property": "C75",
   "status": "proved",
   "theorems": [
    "Verif.Interp.C75_layer",
    "Verif.Interp.C75_interface",
    "Verif.Interp.C75_distance",
    "Verif.Interp.C75_surface"
   ],
   "note": ""
  },
  {
   "property": "C76",
   "status": "proved",
   "theorems": [
    "Verif.Interp.C76_accepted"
   ],
   "note": ""
  },
  {
   "property": "C77",
   "status": "partial",
   "theorems": [
    "Verif.MP.C77_never_stale_partial",
    "Verif.MP.C77_s_modulus_partial",
    "Verif.MP.C77_prepared",
    "Verif.MP.C77_reinit_violated",
    "Verif.MP.C77_fluid_modulus_violated"
   ],
   "note": "Proved for every operation sequence that does not initialise an object twice, except that S moduli below 1 may be returned as 1. Violated by a second init (flags untouched, old moduli used) and for the S modulus of fluids and vacuum after the preparation."
  },
  {
   "property": "C78",
   "status": "partial",
   "theorems": [
    "Verif.MP.C78_ratio_partial",
    "Verif.MP.C78_bounds",
    "Verif.MP.C78_vacuum",
    "Verif.MP.C78_admissible_unchanged_partial",
    "Verif.MP.C78_single_velocity_unchanged",
    "Verif.MP.C78_fluid_violated",
    "Verif.MP.C78_ratio_violated"
   ],
   "note": "Bounds, vacuum and fluids' S velocity proved in full. Admissible values unchanged: proved except for fluids in elastic and viscoelastic models, where the P velocity of water is replaced by the lower threshold (violated). The ratio thresholds are not guaranteed (violated)."
  },
  {
   "property": "C79",
   "status": "partial",
   "theorems": [
    "Verif.MP.C79_no_zero_divisor",
    "Verif.MP.C79_finite_partial",
    "Verif.MP.C79_sh_vacuum_violated"
   ],
   "note": "Proved for all equations except vacuum in SH and viscoSH models, where the inverse density is infinite (violated)."
  },
  {
   "property": "C80",
   "status": "proved",
   "theorems": [
    "Verif.MP.C80_p_wave",
    "Verif.MP.C80_s_wave"
   ],
   "note": ""
  },
  {
   "property": "C81",
   "status": "partial",
   "theorems": [
    "Verif.EMP.C81_never_stale_partial",
    "Verif.EMP.C81_prepared",
    "Verif.EMP.C81_reinit_violated"
   ],
   "note": "Proved for every operation sequence that does not initialise an object twice. Violated by a second init, which leaves the flags untouched."
  },
  {
   "property": "C82",
   "status": "proved",
   "theorems": [
    "Verif.EMP.C82_relative_tau",
    "Verif.EMP.C82_effective_values",
    "Verif.EMP.C82_no_dispersion"
   ],
   "note": ""
  },
  {
   "property": "C83",
   "status": "partial",
   "theorems": [
    "Verif.EMP.C83_roundtrip",
    "Verif.EMP.C83_roundtrip_partial",
    "Verif.EMP.C83_roundtrip_violated"
   ],
   "note": "Proved in full without relaxation. With relaxation proved where no effective or static value is raised to that of vacuum; violated at the others."
  },
  {
   "property": "C84",
   "status": "partial",
   "theorems": [
    "Verif.EMP.C84_homogeneous",
    "Verif.EMP.C84_homogeneous_partial",
    "Verif.EMP.C84_homogeneous_violated"
   ],
   "note": "Proved in full without relaxation, and with relaxation for zero tau. Violated for dispersive models: configuration values are stored as static values, file values are taken as effective values."
  },
  {
   "property": "C85",
   "status": "partial",
   "theorems": [
    "Verif.EMP.C85_bounds",
    "Verif.EMP.C85_vacuum",
    "Verif.EMP.C85_admissible_unchanged",
    "Verif.EMP.C85_idempotent_partial",
    "Verif.EMP.C85_idempotent_violated",
    "Verif.EMP.C85_visco_bounds_partial",
    "Verif.EMP.C85_visco_bounds_violated"
   ],
   "note": "Bounds, vacuum and admissible values proved in full without relaxation. Idempotence violated for a lower permittivity threshold of one, proved above it. With relaxation the effective values meet the thresholds where no static value is raised to that of vacuum; violated at the others."
  },
  {
   "property": "C86",
   "status": "partial",
   "theorems": [
    "Verif.Sub.C86_variable_grid",
    "Verif.Sub.C86_viscotmem_partial",
    "Verif.Sub.C86_tau_violated"
   ],
   "note": "Proved in full for acoustic, elastic, TMEM and EMEM models. Violated for ViscoTMEM: the two tau vectors keep the size of the regular grid; its other vectors are proved."
  },
  {
   "property": "C87",
   "status": "partial",
   "theorems": [
    "Verif.Sub.C87_cut_out_partial",
    "Verif.Sub.C87_variable_grid_partial",
    "Verif.Sub.C87_outside_rejected",
    "Verif.Sub.C87_relaxation_violated"
   ],
   "note": "All parameter vectors proved for all nine equations, regular and variable shot grids; windows outside are rejected. Violated for the relaxation mechanisms, which the shot model never has."
  },
  {
   "property": "C88",
   "status": "proved",
   "theorems": [
    "Verif.Sub.C88_same_place",
    "Verif.Sub.C88_shot_sources",
    "Verif.Sub.C88_exists_iff",
    "Verif.Sub.C88_supershot_window"
   ],
   "note": "Same position proved when the configured origin is not left of that of the big model."
  },
  {
   "property": "C89",
   "status": "partial",
   "theorems": [
    "Verif.Petro.C89_roundtrip_partial",
    "Verif.Petro.C89_critical_violated"
   ],
   "note": "Proved for all porosities below the critical porosity 0.4. Violated from there on: the shear velocity comes back as zero."
  },
  {
   "property": "C90",
   "status": "proved",
   "theorems": [
    "Verif.Petro.C90_porosity"
   ],
   "note": ""
  },
  {
   "property": "C91",
   "status": "partial",
   "theorems": [
    "Verif.Petro.C91_p_modulus_violated",
    "Verif.Petro.C91_moduli_partial",
    "Verif.Petro.C91_density",
    "Verif.Petro.C91_no_pores"
   ],
   "note": "Density and S-wave modulus proved. Violated for the P-wave modulus of every rock with a shear modulus: 4 / 3 is an integer division, so the modulus is K + mu."
  },
  {
   "property": "C92",
   "status": "partial",
   "theorems": [
    "Verif.Petro.C92_roundtrip_partial",
    "Verif.Petro.C92_relaxation_partial",
    "Verif.Petro.C92_unexplained_violated",
    "Verif.Petro.C92_dry_violated"
   ],
   "note": "Proved for points with pores, some water and a permittivity that an admissible matrix explains (with relaxation: where no effective value is below vacuum). Violated for dry conductive points and for permittivities too small for their pores."
  },
  {
   "property": "C93",
   "status": "partial",
   "theorems": [
    "Verif.Petro.C93_saturation",
    "Verif.Petro.C93_porosity_partial",
    "Verif.Petro.C93_equal_index_violated",
    "Verif.Petro.C93_alternates"
   ],
   "note": "Saturation proved in full. Porosity proved unless matrix and pore filling have the same refractive index; then it is set to zero."
  },
  {
   "property": "C94",
   "status": "partial",
   "theorems": [
    "Verif.Solver.C94_acoustic2D_sharp",
    "Verif.Solver.C94_acoustic3D_sharp",
    "Verif.Solver.C94_accepted2D_violated",
    "Verif.Solver.C94_accepted3D_violated",
    "Verif.Solver.C94_acoustic2D",
    "Verif.Solver.C94_acoustic3D",
    "Verif.Solver.C94_sh2D",
    "Verif.Solver.C94_tmem2D",
    "Verif.Solver.C94_emem2D",
    "Verif.Solver.C94_emem3D",
    "Verif.Solver.C94_elastic2D_partial",
    "Verif.Solver.C94_elastic2D_variable_partial",
    "Verif.Solver.C94_elastic3D_partial",
    "Verif.Solver.C94_elastic3D_variable_partial",
    "Verif.Solver.C94_accepted2D_partial",
    "Verif.Solver.C94_accepted3D_partial"
   ],
   "note": "Proved for acoustic, SH, TMEM and EMEM waves. Elastic waves: full limit for a constant shear modulus, limit smaller by sqrt(2) for arbitrary moduli. The limit is sharp for homogeneous acoustic models (C94_acoustic2D_sharp, C94_acoustic3D_sharp). Runs accepted by the check are bounded for order 2; for order 4 and higher the check accepts runs that blow up (C94_accepted2D_violated, C94_accepted3D_violated)."
  },
  {
   "property": "C95",
   "status": "proved",
   "theorems": [
    "Verif.Solver.C95_viscosh2D",
    "Verif.Solver.C95_viscosh2D_decreasing",
    "Verif.Solver.C95_viscoelastic2D",
    "Verif.Solver.C95_viscoelastic2D_decreasing",
    "Verif.Solver.C95_viscoelastic3D",
    "Verif.Solver.C95_viscoelastic3D_decreasing"
   ],
   "note": ""
  },
  {
   "property": "C96",
   "status": "partial",
   "theorems": [
    "Verif.Solver.C96_viscosh2D_sharp",
    "Verif.Solver.C96_viscosh2D_accepted_violated",
    "Verif.Solver.C96_viscosh2D",
    "Verif.Solver.C96_viscoelastic2D_partial",
    "Verif.Solver.C96_viscoelastic2D_variable_partial",
    "Verif.Solver.C96_viscoelastic3D_partial",
    "Verif.Solver.C96_viscoelastic3D_variable_partial"
   ],
   "note": "Boundedness is proved for SH waves, and for viscoelastic waves with constant unrelaxed shear modulus (full limit) or arbitrary moduli (limit smaller by sqrt(2)). The limit is sharp for SH waves with one relaxation mechanism. The acceptance part is violated: the check uses the velocity at the reference frequency, so accepted runs blow up."
  },
  {
   "property": "C97",
   "status": "partial",
   "theorems": [
    "Verif.Solver.C97_viscosh2D",
    "Verif.Solver.C97_viscoelastic2D_partial",
    "Verif.Solver.C97_viscoelastic2D_violated",
    "Verif.Solver.C97_viscoelastic3D",
    "Verif.Solver.C97_viscoemem2D",
    "Verif.Solver.C97_viscotmem2D",
    "Verif.Solver.C97_viscoemem3D"
   ],
   "note": "Proved for all pairs of solvers. 2D viscoelastic: only FreeSurface 0 and 1; with FreeSurface=2 the 2D viscoelastic solver always throws (C97_viscoelastic2D_violated). Viscoelastic P-SV and 3D on variable grids not covered: the viscoelastic solvers neither interpolate nor use the staggered derivatives."
  },
  {
   "property": "C98",
   "status": "proved",
   "theorems": [
    "Verif.Solver.C98_elastic2D",
    "Verif.Solver.C98_elastic3D"
   ],
   "note": ""
  },
  {
   "property": "C99",
   "status": "partial",
   "theorems": [
    "Verif.Solver.C99_acoustic2D",
    "Verif.Solver.C99_acoustic3D",
    "Verif.Solver.C99_elastic2D",
    "Verif.Solver.C99_elastic3D",
    "Verif.Solver.C99_sh2D",
    "Verif.Solver.C99_emem2D",
    "Verif.Solver.C99_tmem2D",
    "Verif.Solver.C99_emem3D_partial",
    "Verif.Solver.C99_layers",
    "Verif.Solver.C99_viscosh2D",
    "Verif.Solver.C99_viscoelastic2D_partial",
    "Verif.Solver.C99_viscoelastic3D_partial",
    "Verif.Solver.C99_viscoemem2D",
    "Verif.Solver.C99_viscotmem2D",
    "Verif.Solver.C99_viscoemem3D_partial",
    "Verif.Solver.C99_viscoelastic2D_pressure_violated"
   ],
   "note": "Proved with the damping frame and with CPML for the acoustic, elastic, SH and 2D electromagnetic solvers, with and without relaxation mechanisms, FreeSurface 0 or 2 (2D viscoelastic: 0). Explosions and pressure receivers in attenuating elastic media: proved where the point itself does not relax (C99_viscoelastic2D_partial, C99_viscoelastic3D_partial), refuted where it does (C99_viscoelastic2D_pressure_violated). 3D electromagnetic: damping frame only, since the 3D electromagnetic CPML takes the x derivative of hY with the coefficients of the half points. The free surface is C137. Missing: free surface condition, variable grids."
  },
  {
   "property": "C100",
   "status": "proved",
   "theorems": [
    "Verif.MP.C100_assign",
    "Verif.MP.C100_add_sub",
    "Verif.MP.C100_sum",
    "Verif.MP.C100_scale",
    "Verif.EMP.C100_em_assign",
    "Verif.EMP.C100_em_add_sub",
    "Verif.EMP.C100_em_sum"
   ],
   "note": ""
  },
  {
   "property": "C101",
   "status": "partial",
   "theorems": [
    "Verif.Petro.C101_velocities_partial",
    "Verif.Petro.C101_vp_violated",
    "Verif.Petro.C101_no_pores"
   ],
   "note": "S-wave velocity and density proved; the P-wave velocity is proved only for a matrix without shear modulus. With shear modulus the code uses K + mu since 4 / 3 is an integer division (C101_vp_violated); this agrees with the velocities the program computes for rock without pores (C101_no_pores)."
  },
  {
   "property": "C102",
   "status": "proved",
   "theorems": [
    "Verif.Solver.C102_elastic2D",
    "Verif.Solver.C102_elastic3D",
    "Verif.Solver.C102_viscoelastic2D",
    "Verif.Solver.C102_viscoelastic3D",
    "Verif.Solver.C102_damped"
   ],
   "note": ""
  },
  {
   "property": "C103",
   "status": "proved",
   "theorems": [
    "Verif.Solver.C103_nothing_arrives_before",
    "Verif.Solver.C103_acoustic_points",
    "Verif.Solver.C103_cut_out",
    "Verif.Solver.C103_cut_out_two_way"
   ],
   "note": ""
  },
  {
   "property": "C104",
   "status": "partial",
   "theorems": [
    "Verif.MatSetup.C104_applies_only_built_matrices_partial",
    "Verif.MatSetup.C104_applies_missing_matrix_violated",
    "Verif.MatSetup.C104_exactly_these_configurations"
   ],
   "note": "Proved for all accepted configurations outside the exactly characterised exceptions (free surface with electromagnetic equations; free surface on a variable grid with SH or attenuating elastic equations), where every time step multiplies with a matrix that does not exist."
  },
  {
   "property": "C105",
   "status": "proved",
   "theorems": [
    "Verif.MatSetup.C105_estimate_counts_held_matrices"
   ],
   "note": ""
  },
  {
   "property": "C106",
   "status": "partial",
   "theorems": [
    "Verif.Solver.C106_elastic3D_partial",
    "Verif.Solver.C106_elastic2D_partial",
    "Verif.Solver.C106_acoustic3D_partial",
    "Verif.Solver.C106_acoustic2D_partial",
    "Verif.Solver.C106_sh2D_partial",
    "Verif.Solver.C106_emem2D_partial",
    "Verif.Solver.C106_tmem2D_partial",
    "Verif.Solver.C106_emem3D_partial",
    "Verif.Solver.C106_emem3D_cpml_violated",
    "Verif.Solver.C106_viscosh2D_partial",
    "Verif.Solver.C106_viscoelastic2D_partial",
    "Verif.Solver.C106_viscoelastic3D_partial",
    "Verif.Solver.C106_viscoemem2D_partial",
    "Verif.Solver.C106_viscotmem2D_partial",
    "Verif.Solver.C106_viscoemem3D_partial",
    "Verif.Solver.C106_visco_uniform_partial",
    "Verif.Solver.C106_viscosh2D_violated"
   ],
   "note": "Proved on regular grids without free surface for all fourteen solvers with CPML and damping; for attenuating seismic media in full where the relaxation strength does not vary (elsewhere the unrelaxed shear modulus takes the unaveraged strength: violated); the 3D electromagnetic solvers with CPML violate it (half-point coefficients in one derivative). Missing: rows at a free surface, variable grids."
  },
  {
   "property": "C107",
   "status": "partial",
   "theorems": [
    "Verif.Solver.C107_exchange_xz_partial",
    "Verif.Solver.C107_exchange_xy_partial",
    "Verif.Solver.C107_cpml_xz",
    "Verif.Solver.C107_cpml_xy",
    "Verif.Solver.C107_em3D_cpml_violated",
    "Verif.Solver.C107_visco_xz_partial",
    "Verif.Solver.C107_visco_xy_partial"
   ],
   "note": "Proved for all fourteen solvers on regular grids; attenuating media without free surface; the 3D electromagnetic solvers only without CPML, with CPML it is violated (emem3D). Missing: attenuating media below a free surface; HX and HY cannot be sources or receivers."
  },
  {
   "property": "C108",
   "status": "partial",
   "theorems": [
    "Verif.Spectral.C108_gain",
    "Verif.Spectral.C108_defined",
    "Verif.Spectral.C108_first_order_violated",
    "Verif.Spectral.C108_corner"
   ],
   "note": "Proved for all orders from 2 on; order 1 writes out of range (violated). The Fourier transforms of LAMA are modelled as exact sums."
  },
  {
   "property": "C109",
   "status": "partial",
   "theorems": [
    "Verif.Spectral.C109_tone",
    "Verif.Spectral.C109_constant",
    "Verif.Spectral.C109_nyquist_violated"
   ],
   "note": "Proved for all tones below the Nyquist frequency on traces of 2^m samples; violated at the Nyquist frequency. Other lengths are padded with zeros, so that tones do not stay tones."
  },
  {
   "property": "C110",
   "status": "proved",
   "theorems": [
    "Verif.Spectral.C110_energy",
    "Verif.Spectral.C110_linear"
   ],
   "note": "Full: all lengths, traces and Butterworth filters."
  },
  {
   "property": "C111",
   "status": "partial",
   "theorems": [
    "Verif.Spectral.C111_causality_violated"
   ],
   "note": "Violated by every Butterworth filter on traces of 2^m samples."
  },
  {
   "property": "C112",
   "status": "partial",
   "theorems": [
    "Verif.Spectral.C112_hilbert_tone",
    "Verif.Spectral.C112_envelope_tone",
    "Verif.Spectral.C112_envelope_ge",
    "Verif.Spectral.C112_twice",
    "Verif.Spectral.C112_last_sample_violated",
    "Verif.Spectral.C112_single_sample_violated"
   ],
   "note": "Proved for traces of 2^m samples (inequality for all lengths); violated for 2^m + 1 samples and for one sample."
  },
  {
   "property": "C113",
   "status": "partial",
   "theorems": [
    "Verif.Spectral.C113_phase_is_sign_violated",
    "Verif.Spectral.C113_phase_constant_violated",
    "Verif.Spectral.C113_tone_violated"
   ],
   "note": "Violated for every trace: the Hilbert transform is not applied."
  },
  {
   "property": "C114",
   "status": "partial",
   "theorems": [
    "Verif.Spectral.C114_minimal",
    "Verif.Spectral.C114_empty_violated"
   ],
   "note": "Proved for all traces with samples; for empty traces the search does not end (violated)."
  },
  {
   "property": "C115",
   "status": "partial",
   "theorems": [
    "Verif.Spectral.C115_select",
    "Verif.Spectral.C115_recalculated_violated"
   ],
   "note": "Proved for fresh filter objects; violated when the same object is calculated again."
  },
  {
   "property": "C116",
   "status": "partial",
   "theorems": [
    "Verif.Spectral.C116_recalculate_partial",
    "Verif.Spectral.C116_stale_line_violated"
   ],
   "note": "Holds between Butterworth filters; violated after a single-frequency filter of order 1."
  },
  {
   "property": "C117",
   "status": "partial",
   "theorems": [
    "Verif.Spectral.C117_half_amplitude_violated",
    "Verif.Spectral.C117_amplitude_lost_violated"
   ],
   "note": "Violated: half amplitude for single traces, amplitudes lost for sets of traces."
  },
  {
   "property": "C118",
   "status": "proved",
   "theorems": [
    "Verif.Solver.C118_div3D_acoustic",
    "Verif.Solver.C118_div2D_acoustic",
    "Verif.Solver.C118_curl3D_shear",
    "Verif.Solver.C118_curl2D_shear",
    "Verif.Solver.C118_curl3D_explosion",
    "Verif.Solver.C118_curl2D_explosion",
    "Verif.Solver.C118_div3D_shear",
    "Verif.Solver.C118_div2D_shear"
   ],
   "note": "Full for homogeneous non-attenuating media on regular grids without boundaries, which is what the property says."
  },
  {
   "property": "C119",
   "status": "partial",
   "theorems": [
    "Verif.Solver.C119_snapshot_violated",
    "Verif.Solver.C119_emem3D",
    "Verif.Solver.C119_viscoemem3D",
    "Verif.Solver.C119_tmem2D",
    "Verif.Solver.C119_viscotmem2D"
   ],
   "note": "Proved for the 3D EMEM and 2D TMEM solvers with and without relaxation on regular grids, at all points away from the absorbing boundaries; the divergence snapshots are violated."
  },
  {
   "property": "C120",
   "status": "proved",
   "theorems": [
    "Verif.Solver.C120_emem3D_continuity",
    "Verif.Solver.C120_emem2D_continuity",
    "Verif.Solver.C120_viscoemem3D_continuity",
    "Verif.Solver.C120_viscoemem2D_continuity",
    "Verif.Solver.C120_emem3D_lossless",
    "Verif.Solver.C120_emem2D_lossless",
    "Verif.Solver.C120_emem3D_conductive",
    "Verif.Solver.C120_emem2D_conductive",
    "Verif.Solver.C120_emem3D_decay",
    "Verif.Solver.C120_viscoemem3D_neutral",
    "Verif.Solver.C120_viscoemem2D_neutral"
   ],
   "note": "Regular grids; points whose stencil avoids the absorbing boundaries."
  },
  {
   "property": "C121",
   "status": "partial",
   "theorems": [
    "Verif.Solver.C121_direction_partial",
    "Verif.Solver.C121_acoustic_wave_partial",
    "Verif.Solver.C121_sum_partial",
    "Verif.Solver.C121_first_step_violated",
    "Verif.Solver.C121_distant_violated"
   ],
   "note": "Sum of the parts for defined parts; direction at points where power flow and phase motion agree, in particular plane acoustic waves; the first time step and the influence of remote waves are violated."
  },
  {
   "property": "C122",
   "status": "partial",
   "theorems": [
    "Verif.MatSetup.C122_div",
    "Verif.MatSetup.C122_curl_partial",
    "Verif.MatSetup.C122_curl_violated",
    "Verif.MatSetup.C122_horizontal",
    "Verif.MatSetup.C122_vertical_partial",
    "Verif.MatSetup.C122_vertical_violated"
   ],
   "note": "Divergence and horizontal decomposition for all accepted configurations; curl and vertical decomposition violated with free surface in the cases given."
  },
  {
   "property": "C123",
   "status": "partial",
   "theorems": [
    "Verif.Solver.C123_complete",
    "Verif.Solver.C123_decomposition_partial",
    "Verif.Solver.C123_negative_decomposition_violated",
    "Verif.Solver.C123_undecomposed_violated"
   ],
   "note": "Completeness of types 1 and 2 in full; positive decompositions; negative decompositions and types 4, 5 without decomposition are violated."
  },
  {
   "property": "C124",
   "status": "partial",
   "theorems": [
    "Verif.Solver.C124_partial",
    "Verif.Solver.C124_parts_violated"
   ],
   "note": "Twelve of the fourteen equations; violated for the 2D acoustic and TMEM equation."
  },
  {
   "property": "C125",
   "status": "partial",
   "theorems": [
    "Verif.Solver.C125_factor_partial",
    "Verif.Solver.C125_flux_violated",
    "Verif.Solver.C125_divergence_violated"
   ],
   "note": "Exact factor for constant sigma/epsilon without CPML; boundedness is violated; refusal of seismic models is in the model by definition only."
  },
  {
   "property": "C126",
   "status": "partial",
   "theorems": [
    "Verif.Encoding.C126_partial",
    "Verif.Encoding.C126_one_type_partial",
    "Verif.Encoding.C126_crosstalk",
    "Verif.Encoding.C126_components_violated"
   ],
   "note": "Traces, order and polarity in full; surplus zero traces with several receiver types (violated). Multi-offset data without frequency filter."
  },
  {
   "property": "C127",
   "status": "partial",
   "theorems": [
    "Verif.Encoding.C127_encode",
    "Verif.Encoding.C127_decode_encode",
    "Verif.Encoding.C127_inverse",
    "Verif.Encoding.C127_shared_violated",
    "Verif.Encoding.C127_files_partial",
    "Verif.Encoding.C127_files_violated"
   ],
   "note": "Encoding and round trips in full for members held in memory; violated for shared receivers and for files with several receiver types."
  },
  {
   "property": "C128",
   "status": "partial",
   "theorems": [
    "Verif.Encoding.C128_partial",
    "Verif.Encoding.C128_sampling_violated",
    "Verif.Encoding.C128_su_violated"
   ],
   "note": "Files, names and contents for matrix formats; violated for the sampling interval and for SU."
  },
  {
   "property": "C129",
   "status": "partial",
   "theorems": [
    "Verif.Encoding.C129_partial",
    "Verif.Encoding.C129_check_partial",
    "Verif.Encoding.C129_rejected_partial",
    "Verif.Encoding.C129_violated"
   ],
   "note": "Proved for fewer than 20 sources without source encoding; violated from 20 sources on."
  },
  {
   "property": "C130",
   "status": "partial",
   "theorems": [
    "Verif.Encoding.C130_partial",
    "Verif.Encoding.C130_violated"
   ],
   "note": "Exact characterisation for fewer than 20 sources; violated without streaming."
  },
  {
   "property": "C131",
   "status": "partial",
   "theorems": [
    "Verif.Solver.C131_viscoelastic3D_partial",
    "Verif.Solver.C131_viscoelastic2D_partial",
    "Verif.Solver.C131_viscosh2D_partial",
    "Verif.Solver.C131_frequency",
    "Verif.Solver.C131_model_response",
    "Verif.Solver.C131_electromagnetic"
   ],
   "note": "Electromagnetic media in full, except that the code raises an optical permittivity below that of vacuum; solids with the averaged shear relaxation strength equal to the local one (see C106). Inside the absorbing frame the damping is excluded."
  },
  {
   "property": "C132",
   "status": "partial",
   "theorems": [
    "Verif.Acq.C132_ends_partial",
    "Verif.Acq.C132_violated",
    "Verif.Acq.C132_gap_violated",
    "Verif.Acq.C132_direction_violated"
   ],
   "note": "The code violates it: increments below half the first spacing and gaps make the loop endless, other directions read an empty vector. Proved for lines without gaps larger than the increment."
  },
  {
   "property": "C133",
   "status": "partial",
   "theorems": [
    "Verif.Acq.C133_selection_partial",
    "Verif.Acq.C133_all",
    "Verif.Acq.C133_direction_violated"
   ],
   "note": "Proved for sources in increasing order without gaps larger than the increment; violated for decreasing order."
  },
  {
   "property": "C134",
   "status": "partial",
   "theorems": [
    "Verif.Acq.C134_complete_partial",
    "Verif.Acq.C134_violated"
   ],
   "note": "Violated for shots with several sources; proved if every shot has one source."
  },
  {
   "property": "C135",
   "status": "partial",
   "theorems": [
    "Verif.Acq.C135_signals_partial",
    "Verif.Acq.C135_lines_violated"
   ],
   "note": "Proved for amplitudes that are not between 0 and 1 (there the code reverses the signal, see the acquisition properties); the documented number of lines in the signal file is violated."
  },
  {
   "property": "C136",
   "status": "partial",
   "theorems": [
    "Verif.Acq.C136_accepted",
    "Verif.Acq.C136_processes_partial",
    "Verif.Acq.C136_violated"
   ],
   "note": "Violated: types 2 and 3 together are rejected on one process and accepted on two. Proved without such a combination; acceptance is characterised in general."
  },
  {
   "property": "C137",
   "status": "partial",
   "theorems": [
    "Verif.Solver.C137_acoustic2D_partial",
    "Verif.Solver.C137_acoustic3D_partial",
    "Verif.Solver.C137_elastic2D_partial",
    "Verif.Solver.C137_elastic3D_partial",
    "Verif.Solver.C137_sh2D_partial",
    "Verif.Solver.C137_acoustic2D_violated",
    "Verif.Solver.C137_sh2D_violated",
    "Verif.Solver.C137_elastic2D_violated"
   ],
   "note": "Proved for spatial order 2 without relaxation mechanisms. For order 4 the code violates it (acoustic, SH and elastic 2D). Missing: attenuating media with FreeSurface 1, higher orders than 4."
  },
  {
   "property": "C138",
   "status": "partial",
   "theorems": [
    "Verif.Solver.C138_acoustic2D_partial",
    "Verif.Solver.C138_acoustic3D_partial",
    "Verif.Solver.C138_sh2D_partial",
    "Verif.Solver.C138_elastic2D_partial",
    "Verif.Solver.C138_elastic3D_partial"
   ],
   "note": "Proved for spatial order 2 (acoustic 2D and 3D, SH, elastic 2D and 3D) for every heterogeneous model. Missing: higher orders, whose free surface matrices are not adjoint to each other."
  },
  {
   "property": "C139",
   "status": "partial",
   "theorems": [
    "Verif.Solver.C139_acoustic2D_partial",
    "Verif.Solver.C139_acoustic3D_partial",
    "Verif.Solver.C139_sh2D_partial",
    "Verif.Solver.C139_elastic2D_partial",
    "Verif.Solver.C139_elastic3D_partial",
    "Verif.Solver.C139_acoustic2D_violated"
   ],
   "note": "Proved for spatial order 2: acoustic 2D and 3D and SH up to the Courant limit, elastic 2D and 3D below the limit divided by sqrt 2. For order 4 the code violates it: a medium in which acoustic waves grow for every time step. Missing: sources and absorbing boundaries."
  },
  {
   "property": "C140",
   "status": "partial",
   "theorems": [
    "Verif.Wave.C140_copy",
    "Verif.Wave.C140_sum",
    "Verif.Wave.C140_difference",
    "Verif.Wave.C140_factor",
    "Verif.Wave.C140_compensation",
    "Verif.Wave.C140_transform",
    "Verif.Wave.C140_time_derivative_partial",
    "Verif.Wave.C140_relaxation_derivative_violated",
    "Verif.Wave.C140_product_partial",
    "Verif.Wave.C140_product_violated",
    "Verif.Wave.C140_product3D_violated",
    "Verif.Wave.C140_class_factor_violated",
    "Verif.Wave.C140_mechanisms_violated",
    "Verif.Wave.C140_reset_partial",
    "Verif.Wave.C140_reset_violated"
   ],
   "note": "Proved for the operators of the base class and both operands initialised alike, with the seismograms of all fourteen solvers. Violated for the operators of the concrete classes, for objects with different numbers of mechanisms, for the relaxation functions of the time derivative and for the reset of the directional parts."
  },
  {
   "property": "C141",
   "status": "partial",
   "theorems": [
    "Verif.Wave.C141_sound",
    "Verif.Wave.C141_detected_partial",
    "Verif.Wave.C141_seismic_violated",
    "Verif.Wave.C141_field_violated"
   ],
   "note": "No false alarm is proved; detection only for the points and fields that are looked at. Violated elsewhere."
  },
  {
   "property": "C142",
   "status": "partial",
   "theorems": [
    "Verif.FIR.C142_odd_violated",
    "Verif.FIR.C142_convolution_partial",
    "Verif.FIR.C142_quadrature_partial",
    "Verif.FIR.C142_start_violated",
    "Verif.FIR.C142_end_violated",
    "Verif.FIR.C142_last_violated",
    "Verif.FIR.C142_linear"
   ],
   "note": "Proved for even kernel sizes and samples away from the ends of the trace (linearity everywhere). Violated at the first samples with even index, at the last samples and for odd kernel sizes. Not covered: the size of the gain."
  },
  {
   "property": "C143",
   "status": "partial",
   "theorems": [
    "Verif.Sub.C143_weights_partial",
    "Verif.Sub.C143_outside_rejected",
    "Verif.Sub.C143_sum_partial",
    "Verif.Sub.C143_volume_violated",
    "Verif.Sub.C143_depth_violated",
    "Verif.Sub.C143_overlap_violated"
   ],
   "note": "Proved in 2D for windows over the full depth with borders that do not overlap; the sum of neighbouring windows is one. Violated in 3D, for windows of part of the depth and for overlapping borders."
  },
  {
   "property": "C144",
   "status": "partial",
   "theorems": [
    "Verif.Sub.C144_smallest_partial",
    "Verif.Sub.C144_elastic_partial",
    "Verif.Sub.C144_elastic_violated",
    "Verif.Sub.C144_slow_violated"
   ],
   "note": "Proved for acoustic, SH and electromagnetic models with some velocity above 1 m/s, and for elastic models without fluids. Violated for elastic models with fluids and for models with no velocity above 1 m/s."
  },
  {
   "property": "C145",
   "status": "partial",
   "theorems": [
    "Verif.Reflect.C145_coefficient_partial",
    "Verif.Reflect.C145_bounded_partial",
    "Verif.Reflect.C145_uniform",
    "Verif.Reflect.C145_edge_violated",
    "Verif.Reflect.C145_order_violated",
    "Verif.Reflect.C145_fluid_violated",
    "Verif.Reflect.C145_permeability_violated",
    "Verif.Reflect.C145_thin_violated"
   ],
   "note": "Proved for order 2 at inner points with one permeability; no reflectivity in uniform parts for every order. Violated for higher orders, at the edges, in fluids of elastic models, for contrasts of the permeability and for thin models. Regular grids only."
  },
  {
   "property": "C146",
   "status": "partial",
   "theorems": [
    "Verif.Part.C146_normalised",
    "Verif.Part.C146_work_partial",
    "Verif.Part.C146_work_violated",
    "Verif.Part.C146_frame"
   ],
   "note": "Positive and adding up to one on every grid; proportional to the work on regular grids for ten of fourteen solvers, violated for viscotmem and viscoemem in 2D and emem and viscoemem in 3D. The CPML part is right for variable grids in 2D."
  },
  {
   "property": "C147",
   "status": "partial",
   "theorems": [
    "Verif.Profile.C147_one_component_partial",
    "Verif.Profile.C147_components_violated",
    "Verif.Profile.C147_supershots_violated"
   ],
   "note": "Proved for shots with one trace each of the same component, for all distributions over domains. Violated for shots of several components and for supershots."
  },
  {
   "property": "C148",
   "status": "partial",
   "theorems": [
    "Verif.TwoLayer.C148_two_layers_partial",
    "Verif.TwoLayer.C148_viscosh_violated",
    "Verif.TwoLayer.C148_spelling_violated",
    "Verif.TwoLayer.C148_em_violated"
   ],
   "note": "Proved for acoustic, elastic, viscoelastic and sh in lower case. Violated for viscosh, the electromagnetic equations and other spellings."
  },
  {
   "property": "C149",
   "status": "partial",
   "theorems": [
    "Verif.BMem.C149_damping",
    "Verif.BMem.C149_cpml2D_partial",
    "Verif.BMem.C149_cpml3D_partial",
    "Verif.BMem.C149_unused_violated",
    "Verif.BMem.C149_unused3D_violated",
    "Verif.BMem.C149_small_violated",
    "Verif.BMem.C149_no_boundary"
   ],
   "note": "Damping frame exact. CPML up to rounding to whole MiB for acoustic and (visco)elastic, on grids without interpolation. Violated for SH and electromagnetic equations and for small frames."
  },
  {
   "property": "C150",
   "status": "partial",
   "theorems": [
    "Verif.SeisFile.C150_shots_partial",
    "Verif.SeisFile.C150_matrix_written",
    "Verif.SeisFile.C150_gains",
    "Verif.SeisFile.C150_profile_partial",
    "Verif.SeisFile.C150_name_violated",
    "Verif.SeisFile.C150_profile_violated",
    "Verif.SeisFile.C150_resampled_violated",
    "Verif.SeisFile.C150_file_names",
    "Verif.SeisFile.C150_row",
    "Verif.SeisFile.C150_gains_row"
   ],
   "note": "All components and formats, any process counts, for output with the sampling of the simulation; profiles in the matrix formats. Violated for SU profiles, resampled output and names with .shot."
  },
  {
   "property": "C151",
   "status": "partial",
   "theorems": [
    "Verif.Setup.C151_objects_partial",
    "Verif.Setup.C151_rejected",
    "Verif.Setup.C151_planar_violated",
    "Verif.Setup.C151_coupling",
    "Verif.Setup.C151_checks_partial",
    "Verif.Setup.C151_spelling_violated"
   ],
   "note": "All strings. Objects and checks for the spelling of the documentation; violated for SH and TM in 3D (null pointer) and for other spellings in the checks."
  },
  {
   "property": "C152",
   "status": "proved",
   "theorems": [
    "Verif.Reorder.C152_order",
    "Verif.Reorder.C152_inverse",
    "Verif.Reorder.C152_layers_rejected"
   ],
   "note": "All sizes, distributions and real vectors on grids without layers, the case the source comment allows; a layered grid is rejected (C152_layers_rejected)."
  },
  {
   "property": "C153",
   "status": "proved",
   "theorems": [
    "Verif.Reorder.C153_coordinate_files"
   ],
   "note": "All regular grids, and all layered grids that are Roomy (the condition of C03)."
  },
  {
   "property": "C154",
   "status": "partial",
   "theorems": [
    "Verif.ShotFile.C154_selected",
    "Verif.ShotFile.C154_encoded_partial",
    "Verif.ShotFile.C154_encoded_violated"
   ],
   "note": "Selected shots: all 32 bit numbers. Encoded shots: fewer than ten thousand shots and as many different supershots as shot domains; violated for ten thousand shots."
  },
  {
   "property": "C155",
   "status": "proved",
   "theorems": [
    "Verif.Spectral.C155_stable",
    "Verif.Spectral.C155_delay"
   ],
   "note": "All orders and filter types for the poles; the sign of the phase is proved for second order."
  },
  {
   "property": "C156",
   "status": "partial",
   "theorems": [
    "Verif.SeisArith.C156_sum_difference",
    "Verif.SeisArith.C156_product",
    "Verif.SeisArith.C156_sizes",
    "Verif.SeisArith.C156_inverse",
    "Verif.SeisArith.C156_scale",
    "Verif.SeisArith.C156_traces",
    "Verif.SeisArith.C156_samples_partial",
    "Verif.SeisArith.C156_samples_violated",
    "Verif.SeisArith.C156_copy_partial",
    "Verif.SeisArith.C156_swap_twice",
    "Verif.SeisArith.C156_profile_violated"
   ],
   "note": "Sums, differences and factors are proved. Violated: copies lose the profile and the shot position; factors for samples scale traces if both numbers agree."
  },
  {
   "property": "C157",
   "status": "partial",
   "theorems": [
    "Verif.Domains.C157_consecutive",
    "Verif.Domains.C157_in_turn",
    "Verif.Domains.C157_number",
    "Verif.Domains.C157_balanced",
    "Verif.Domains.C157_nodes",
    "Verif.Domains.C157_variable",
    "Verif.Domains.C157_sizes_violated",
    "Verif.Domains.C157_guide_violated",
    "Verif.Domains.C157_order_violated"
   ],
   "note": "Proved for domains by number (with an accepted number of shots each domain gets the same number), and for consecutive or alternating processes in domains of equal size. Violated for every assignment with domains of different sizes and for other orders."
  },
  {
   "property": "C158",
   "status": "proved",
   "theorems": [
    "Verif.SeisFiles.C158_roundtrip",
    "Verif.SeisFiles.C158_read",
    "Verif.SeisFiles.C158_other_model",
    "Verif.SeisFiles.C158_format",
    "Verif.SeisFiles.C158_other_equation"
   ],
   "note": "All five seismic models, all settings, formats and names; file contents are exact."
  },
  {
   "property": "C159",
   "status": "partial",
   "theorems": [
    "Verif.SeisFiles.C159_regular",
    "Verif.SeisFiles.C159_variable_files",
    "Verif.SeisFiles.C159_rejected",
    "Verif.SeisFiles.C159_homogeneous",
    "Verif.SeisFiles.C159_meshed",
    "Verif.SeisFiles.C159_porosity_violated",
    "Verif.SeisFiles.C159_flag_violated",
    "Verif.SeisFiles.C159_other_equations_violated"
   ],
   "note": "Proved for regular grids and homogeneous models of all seismic equations, and for variable grids of the acoustic and elastic equations. Violated for UseVariableGrid other than 0 and 1, for regular models on variable grids with the other equations, and for porosity, saturation and reflectivity."
  },
  {
   "property": "C160",
   "status": "partial",
   "theorems": [
    "Verif.Graph.C160_connected",
    "Verif.Graph.C160_symmetric",
    "Verif.Graph.C160_forward_partial",
    "Verif.Graph.C160_edge_violated"
   ],
   "note": "Proved for the backward derivatives; for the forward derivatives with an exact characterisation of the exceptions at the ends of the axes (violated there from order four on)."
  },
  {
   "property": "C161",
   "status": "partial",
   "theorems": [
    "Verif.ShotFreq.C161_distinct",
    "Verif.ShotFreq.C161_band",
    "Verif.ShotFreq.C161_listed_partial",
    "Verif.ShotFreq.C161_stale_violated",
    "Verif.ShotFreq.C161_safe",
    "Verif.ShotFreq.C161_finishes",
    "Verif.ShotFreq.C161_reject",
    "Verif.ShotFreq.C161_plain"
   ],
   "note": "Proved except for the list of a supershot with fewer shots than others, which keeps old frequencies (violated)."
  },
  {
   "property": "C162",
   "status": "proved",
   "theorems": [
    "Verif.GridDist.C162_fits",
    "Verif.GridDist.C162_fits_inversion",
    "Verif.GridDist.C162_reduced",
    "Verif.GridDist.C162_accept"
   ],
   "note": ""
  },
  {
   "property": "C163",
   "status": "partial",
   "theorems": [
    "Verif.SrcPos.C163_single_source_partial",
    "Verif.SrcPos.C163_several_sources",
    "Verif.SrcPos.C163_source_files",
    "Verif.SrcPos.C163_receivers",
    "Verif.SrcPos.C163_same_receivers",
    "Verif.SrcPos.C163_receivers_stay",
    "Verif.SrcPos.C163_written",
    "Verif.SrcPos.C163_run_partial",
    "Verif.SrcPos.C163_one_place_violated",
    "Verif.SrcPos.C163_source_files_violated",
    "Verif.SrcPos.C163_reread_sources",
    "Verif.SrcPos.C163_reread_seismograms_partial",
    "Verif.SrcPos.C163_offset"
   ],
   "note": "Proved for the seismograms of shots with one source, over all sequences of shots. Several sources at one point and the files of the source signals are violated. Missing: layered grids, profiles over all shots."
  },
  {
   "property": "C164",
   "status": "partial",
   "theorems": [
    "Verif.FreqFile.C164_encoded",
    "Verif.FreqFile.C164_first_line",
    "Verif.FreqFile.C164_refused",
    "Verif.FreqFile.C164_plain_partial",
    "Verif.FreqFile.C164_plain_violated"
   ],
   "note": "Proved with encoding. Without encoding only the first shot is listed, so the property is violated for two or more shots. Not modelled: the rounding of a printed frequency to six digits."
  },
  {
   "property": "C165",
   "status": "proved",
   "theorems": [
    "Verif.RecordNames.C165_distinct",
    "Verif.RecordNames.C165_inputs",
    "Verif.RecordNames.C165_kept",
    "Verif.RecordNames.C165_inputs_kept"
   ],
   "note": ""
  },
  {
   "property": "C166",
   "status": "partial",
   "theorems": [
    "Verif.RandomShots.C166_log_partial",
    "Verif.RandomShots.C166_undefined",
    "Verif.RandomShots.C166_violated"
   ],
   "note": "Proved over all sequences of calls for shot numbers of at most three digits behind the first of a line. Numbers of four digits or more run together, and different choices give the same log."
  }
 ]
}
