{
 "claims": [
  {
   "property": "C01",
   "status": "proved",
   "theorems": [
    "NB.C01.force_is_softened_newton",
    "NB.C01.force_is_newton_at_distance",
    "NB.C01.force_third_law",
    "NB.C01.force_central_attractive",
    "NB.C01.force_coincident",
    "NB.C01.force_translation",
    "NB.C01.force_bounded",
    "NB.C01.force_soft_core"
   ],
   "note": "Exact arithmetic (ℝ); rounding is not modelled."
  },
  {
   "property": "C02",
   "status": "proved",
   "theorems": [
    "NB.C02.fcompute_is_newton",
    "NB.C02.accel_no_net_force",
    "NB.C02.accel_no_net_torque",
    "NB.C02.fcompute_no_net_force_torque"
   ],
   "note": "Exact arithmetic (ℝ); rounding is not modelled."
  },
  {
   "property": "C03",
   "status": "proved",
   "theorems": [
    "NB.C03.parallel_for_deterministic",
    "NB.C03.parallel_for_terminates",
    "NB.C03.fcompute_parallel_eq_sequential",
    "NB.C03.clamp_parallel_eq_sequential",
    "NB.C03.copy_parallel_eq_sequential",
    "NB.C03.fill_parallel_eq_sequential",
    "NB.C03.fmadd_inplace_parallel_eq_sequential",
    "NB.C03.fmadd_parallel_eq_sequential",
    "NB.C03.fmaddn_corr_parallel_eq_sequential",
    "NB.C03.fmaddn_inplace_parallel_eq_sequential",
    "NB.C03.fmaddn_parallel_eq_sequential",
    "NB.C03.race_is_visible"
   ],
   "note": "Arbitrary scalars without laws, every interleaving of single memory accesses; sequentially consistent memory (the loops are proved race free)."
  },
  {
   "property": "C04",
   "status": "proved",
   "theorems": [
    "NB.C04.block_is_newton",
    "NB.C04.block_eq_simple",
    "NB.C04.block_out_of_bounds",
    "NB.C04.block_safe_iff"
   ],
   "note": "Memory-level model; all parallel executions. The engine leaves its buffers for every count that is not a multiple of 64 (block_out_of_bounds)."
  },
  {
   "property": "C05",
   "status": "proved",
   "theorems": [
    "NB.C05.full_eq_simple",
    "NB.C05.full_partition",
    "NB.C05.sparse_after_full",
    "NB.C05.sparse_same_positions",
    "NB.C05.rate_zero_ub",
    "NB.C05.sparse_before_full_ub"
   ],
   "note": "Full, sparse and their sequence; undefined behaviour for rate 0 and for a sparse call before any full one. The two parallel loops are modelled in index order."
  },
  {
   "property": "C06",
   "status": "proved",
   "theorems": [
    "NB.C06.init_layout",
    "NB.C06.get_data_layout",
    "NB.C06.init_get_data_round_trip",
    "NB.C06.get_data_too_small"
   ],
   "note": "Arbitrary scalars."
  },
  {
   "property": "C07",
   "status": "partial",
   "theorems": [
    "NB.C07.fmadd_formula",
    "NB.C07.fmadd_inplace_formula",
    "NB.C07.copy_formula",
    "NB.C07.fill_formula",
    "NB.C07.fmaddn_inplace_formula",
    "NB.C07.fmaddn_null_formula",
    "NB.C07.fmaddn_formula_partial",
    "NB.C07.fmaddn_all_zero_keeps_a",
    "NB.C07.fmaddn_formula_violated",
    "NB.C07.null_coefficients_noop",
    "NB.C07.too_many_coefficients_noop",
    "NB.C07.short_coefficients_oob",
    "NB.C07.foreign_buffer_noop"
   ],
   "note": "The documented formula of fmaddn is violated by the code for a non-null b and all-zero coefficients (proved: fmaddn_formula_violated); all other cases proved. n-ary sums in exact arithmetic."
  },
  {
   "property": "C08",
   "status": "proved",
   "theorems": [
    "NB.C08.fmaddn_corr_elementwise",
    "NB.C08.fmaddn_corr_is_plain_sum",
    "NB.C08.fmaddn_corr_invariant",
    "NB.C08.summation_range_exact",
    "NB.C08.summation_exact",
    "NB.C08.correction_matters"
   ],
   "note": "Frame property for arbitrary scalars, value in exact arithmetic; the rounding benefit of the compensation is C64."
  },
  {
   "property": "C09",
   "status": "proved",
   "theorems": [
    "NB.C09.isMaxAbs_unique",
    "NB.C09.fmaxabs_is_max",
    "NB.C09.fmaxabs_openmp_is_max",
    "NB.C09.fmaxabs_openmp_eq_simple",
    "NB.C09.fmaxabs_empty_oob"
   ],
   "note": "Exact comparison (no NaN); every distribution over threads and every combination order of the OpenMP reduction."
  },
  {
   "property": "C10",
   "status": "proved",
   "theorems": [
    "NB.C10.clamp_moves_by_box",
    "NB.C10.clamp_inside_iff",
    "NB.C10.clamp_idempotent",
    "NB.C10.clamp_not_idempotent_far"
   ],
   "note": "Exact arithmetic (ℝ)."
  },
  {
   "property": "C11",
   "status": "proved",
   "theorems": [
    "NB.C11.potential_counts_each_pair_once",
    "NB.C11.diagnostics_are_textbook_sums",
    "NB.C11.default_check_list_has_no_energy",
    "NB.C11.initial_values_are_of_first_call",
    "NB.C11.last_values_are_of_last_request"
   ],
   "note": "Exact arithmetic (ℝ); printing and timers are not modelled."
  },
  {
   "property": "C12",
   "status": "proved",
   "theorems": [
    "NB.C12.euler_linear",
    "NB.C12.midpoint_linear",
    "NB.C12.rk4_linear",
    "NB.C12.trapeze_linear",
    "NB.C12.stetter_linear",
    "NB.C12.adams_linear",
    "NB.C12.rk_linear",
    "NB.C12.bs_linear",
    "NB.C12.directSum_momentum_rate",
    "NB.C12.directSum_rk_momentum"
   ],
   "note": "Every solver, every history; the direct-sum momentum rate is shown to vanish so the theorem applies to the real derivative."
  },
  {
   "property": "C13",
   "status": "partial",
   "theorems": [
    "NB.C13.euler_clock",
    "NB.C13.midpoint_clock",
    "NB.C13.rk4_clock",
    "NB.C13.trapeze_clock",
    "NB.C13.stetter_clock",
    "NB.C13.adams_clock",
    "NB.C13.rk_clock",
    "NB.C13.bs_clock",
    "NB.C13.stormer_does_nothing",
    "NB.C13.stormer_violates",
    "NB.C13.run_clock"
   ],
   "note": "Holds for all solvers except the two documented ones: the Stormer solver is a no-op and Bulirsch-Stoer counts one engine step per sub-step; both deviations are proved as theorems about the model."
  },
  {
   "property": "C14",
   "status": "proved",
   "theorems": [
    "NB.C14.adams_step_formula",
    "NB.C14.adams_starter_steps",
    "NB.C14.adams_defined_iff"
   ],
   "note": "Exact ring-buffer formula for every step after any number of steps and resets, every rank."
  },
  {
   "property": "C15",
   "status": "proved",
   "theorems": [
    "NB.C15.adams_order",
    "NB.C15.adams_unique"
   ],
   "note": "Every table entry, all polynomials of degree below the rank; uniqueness of the coefficients."
  },
  {
   "property": "C16",
   "status": "proved",
   "theorems": [
    "NB.C16.erk_unique",
    "NB.C16.rk_explicit_step",
    "NB.C16.euler_is_erk",
    "NB.C16.midpoint_is_erk",
    "NB.C16.rk4_is_erk",
    "NB.C16.rk4_agrees"
   ],
   "note": "Every derivative function (even one depending on the evaluation number), state, step size, with and without compensated summation; exact arithmetic."
  },
  {
   "property": "C17",
   "status": "proved",
   "theorems": [
    "NB.C17.reads_ok",
    "NB.C17.rk4_wf",
    "NB.C17.rkck_wf",
    "NB.C17.rkdp_wf",
    "NB.C17.rkdverk_wf",
    "NB.C17.rkf_wf",
    "NB.C17.rklc_wf",
    "NB.C17.rkgl_wf",
    "NB.C17.rk_table_step"
   ],
   "note": "All tables with exact rational (or sqrt 15) entries; the Feagin tables, which are decimal expansions, are in C57."
  },
  {
   "property": "C18",
   "status": "partial",
   "theorems": [
    "NB.C18.rk4_order",
    "NB.C18.rkdverk_order",
    "NB.C18.rkf_order",
    "NB.C18.rkck_order_partial",
    "NB.C18.rkck_violates",
    "NB.C18.rkck_order_b1",
    "NB.C18.rkdp_order_partial",
    "NB.C18.rkdp_violates",
    "NB.C18.rkdp_order_b1",
    "NB.C18.rklc_order_partial",
    "NB.C18.rklc_violates",
    "NB.C18.rklc_order_b1",
    "NB.C18.rkgl_order_partial",
    "NB.C18.rkgl_violates",
    "NB.C18.rkgl_order_b1"
   ],
   "note": "All rooted trees. rk4, rkdverk, rkf have the documented order; rkck, rkdp, rkgl, rklc advance with weights of lower order than documented, proved with a failing tree each. Order conditions are checked on exact table entries; that they imply the order of the error is proved in C82, and that the documented orders are observably missed in C84."
  },
  {
   "property": "C19",
   "status": "proved",
   "theorems": [
    "NB.C19.leaves_cover",
    "NB.C19.explicit_leaves",
    "NB.C19.accepted_not_subdivided"
   ],
   "note": "All tables, derivative functions, thresholds, limits; subdivisions at least one and dt not zero; exact arithmetic."
  },
  {
   "property": "C20",
   "status": "partial",
   "theorems": [
    "NB.C20.zero_subdivisions_lose_step",
    "NB.C20.zero_subdivisions_violate",
    "NB.C20.positive_subdivisions_keep_step_partial"
   ],
   "note": "Violated for substep_subdivisions = 0 (proved, with a witness); for at least one subdivision C19 and the constant-derivative theorem show that no part of the step is lost."
  },
  {
   "property": "C21",
   "status": "proved",
   "theorems": [
    "NB.C21.neville_is_interpolation",
    "NB.C21.neville_scalar",
    "NB.C21.neville_exact",
    "NB.C21.neville_error"
   ],
   "note": "All node counts, all values; in exact field arithmetic."
  },
  {
   "property": "C22",
   "status": "partial",
   "theorems": [
    "NB.C22.berrut_formula",
    "NB.C22.berrut_constants_partial",
    "NB.C22.berrut_ignores_entry",
    "NB.C22.berrut_zero",
    "NB.C22.berrut_violates"
   ],
   "note": "The code drops a table entry and is not exact for constants in general; the formula it computes, the cases in which constants are reproduced and a counterexample are proved."
  },
  {
   "property": "C23",
   "status": "proved",
   "theorems": [
    "NB.C23.init_steps_bs",
    "NB.C23.init_steps_deuflhard",
    "NB.C23.bsCount_increasing",
    "NB.C23.bs_step",
    "NB.C23.bs_zero_levels_lose_step",
    "NB.C23.level_covers_step",
    "NB.C23.bs_run_safe"
   ],
   "note": "All level counts; the max_level = 0 loss of the step is proved as a separate theorem."
  },
  {
   "property": "C24",
   "status": "proved",
   "theorems": [
    "NB.C24.stetter_is_scheme",
    "NB.C24.scheme_reversible",
    "NB.C24.stetter_reversible",
    "NB.C24.stetter_n_steps_reversible"
   ],
   "note": "Single steps and any number of steps, time-dependent right-hand sides included; exact arithmetic."
  },
  {
   "property": "C25",
   "status": "proved",
   "theorems": [
    "NB.C25.build_partition",
    "NB.C25.build_balanced",
    "NB.C25.build_depth",
    "NB.C25.build_terminates",
    "NB.C25.build_empty_diverges",
    "NB.C25.build_splits_by_planes"
   ],
   "note": "pointer tree build, any nth_element satisfying its contract"
  },
  {
   "property": "C26",
   "status": "proved",
   "theorems": [
    "NB.C26.build_summarises",
    "NB.C26.rebuild_summarises",
    "NB.C26.rebuild_layout",
    "NB.C26.rebuild_same"
   ],
   "note": "exact arithmetic; pointer tree build and rebuild"
  },
  {
   "property": "C27",
   "status": "proved",
   "theorems": [
    "NB.C27.in_bounds_iff",
    "NB.C27.out_of_bounds",
    "NB.C27.build_stores_tree",
    "NB.C27.leaves_upper_half"
   ],
   "note": "Every scalar type, new and used objects, any nth_element satisfying its contract."
  },
  {
   "property": "C28",
   "status": "proved",
   "theorems": [
    "NB.C28.traverse_accounts",
    "NB.C28.built_tree_height",
    "NB.C28.traverse_mass"
   ],
   "note": "exact arithmetic; pointer tree"
  },
  {
   "property": "C29",
   "status": "proved",
   "theorems": [
    "NB.C29.no_self_attraction",
    "NB.C29.self_attraction_below_one"
   ],
   "note": "exact arithmetic; also the negation for every ratio in [0,1)"
  },
  {
   "property": "C30",
   "status": "proved",
   "theorems": [
    "NB.C30.no_inner_node_accepted",
    "NB.C30.root_accepted",
    "NB.C30.large_ratio",
    "NB.C30.engine_large_ratio"
   ],
   "note": "exact arithmetic; tree walk and whole engine, every schedule"
  },
  {
   "property": "C31",
   "status": "proved",
   "theorems": [
    "NB.C31.stack_walk_correct",
    "NB.C31.stackless_walk_correct",
    "NB.C31.stackless_eq_stack",
    "NB.C31.stackless_portable_eq_stack",
    "NB.C31.same_trace",
    "NB.C31.stackless_limit"
   ],
   "note": "Every scalar type; up to 2^30 leaves for the ctz variant, 2^63 for the portable one; the limit at 2^31 is proved to be sharp."
  },
  {
   "property": "C32",
   "status": "proved",
   "theorems": [
    "NB.C32.loop_is_next",
    "NB.C32.next_unique",
    "NB.C32.variants_agree",
    "NB.C32.ctz_undefined_iff"
   ],
   "note": "All 32-bit indices; the ctz variant is undefined exactly at 2^32-1."
  },
  {
   "property": "C33",
   "status": "partial",
   "theorems": [
    "NB.C33.heap_visits_each_body",
    "NB.C33.heap_visits_after_rebuilds",
    "NB.C33.heap_nested_eq_cycle",
    "NB.C33.stackless_nested_eq_cycle",
    "NB.C33.tree_visits_each_body_partial",
    "NB.C33.ratio_zero_reports_no_body",
    "NB.C33.coincident_reports_no_body",
    "NB.C33.nested_eq_cycle_partial",
    "NB.C33.nested_ratio_zero_bad_access"
   ],
   "note": "Heaps: proved without restriction, for every scalar type. Pointer tree: correct for ratio other than 0 and distinct positions; false otherwise, proved with the consequence that the engine accesses memory outside its buffers."
  },
  {
   "property": "C34",
   "status": "proved",
   "theorems": [
    "NB.C34.schedule"
   ],
   "note": "Pointer tree, exact arithmetic; every history of evaluations and every schedule. By C60 it carries over to the heap layouts."
  },
  {
   "property": "C35",
   "status": "proved",
   "theorems": [
    "NB.C35.run_steps",
    "NB.C35.never_returns",
    "NB.C35.nonpositive_step",
    "NB.C35.solver_clock",
    "NB.C35.stormer_never_returns"
   ],
   "note": "Exact arithmetic in any ordered field with a floor (0.1 in the code is taken as 1/10); advise and clamp are parameters constrained only by the clock law, which solver_clock proves for the modelled solvers. A non-positive step or a solver that does not advance time (stormer) never returns."
  },
  {
   "property": "C36",
   "status": "proved",
   "theorems": [
    "NB.C36.dumped_frames",
    "NB.C36.nothing_dumped",
    "NB.C36.write_failure",
    "NB.C36.dump_times",
    "NB.C36.whole_interval"
   ],
   "note": "Exact arithmetic, any stream (a write may fail at any frame). The gap bound needs the exception that every step is dumped when dump_dt <= 0.1*dt."
  },
  {
   "property": "C37",
   "status": "proved",
   "theorems": [
    "NB.C37.round_trip",
    "NB.C37.no_frames_unloadable",
    "NB.C37.box_unloadable"
   ],
   "note": "Whole round trip through the characters of the index and the bytes of the data files; the conditions on box size, frame and body count are shown to be necessary by two negation theorems."
  },
  {
   "property": "C38",
   "status": "proved",
   "theorems": [
    "NB.C38.parts",
    "NB.C38.part_numbers",
    "NB.C38.single_part"
   ],
   "note": "Contents and sizes of all parts, for every maximum part size."
  },
  {
   "property": "C39",
   "status": "proved",
   "theorems": [
    "NB.C39.resume_appends",
    "NB.C39.sessions_read_back"
   ],
   "note": "One resume and any number of resumed sessions."
  },
  {
   "property": "C40",
   "status": "partial",
   "theorems": [
    "NB.C40.crash_keeps_frames",
    "NB.C40.crash_readable_partial",
    "NB.C40.crash_unloadable",
    "NB.C40.crash_wrong_frame"
   ],
   "note": "The code violates the claim when the process dies inside the last index line: crash_unloadable and crash_wrong_frame are the negations; crash_readable_partial holds for all other moments, crash_keeps_frames for all moments."
  },
  {
   "property": "C41",
   "status": "partial",
   "theorems": [
    "NB.C41.written_readable",
    "NB.C41.calls_answered",
    "NB.C41.seek_read_partial",
    "NB.C41.seek_out_of_range",
    "NB.C41.last_frame_once",
    "NB.C41.read_without_load",
    "NB.C41.once_delivered",
    "NB.C41.loaded_fresh"
   ],
   "note": "The code violates the claim for the last frame once it is consumed (last_frame_once); seek_read_partial holds for all other frames, calls_answered describes all call sequences exactly."
  },
  {
   "property": "C42",
   "status": "partial",
   "theorems": [
    "NB.C42.reused_unloadable",
    "NB.C42.reused_loadable_partial"
   ],
   "note": "The code violates the claim: reused_unloadable is the negation for every history that wrote a frame; reused_loadable_partial covers exactly the other histories."
  },
  {
   "property": "C43",
   "status": "partial",
   "theorems": [
    "NB.C43.reused_reader_partial",
    "NB.C43.second_stream_without_masses",
    "NB.C43.headerless_stream_accepted"
   ],
   "note": "The code violates the claim: second_stream_without_masses and headerless_stream_accepted are negations; reused_reader_partial holds for every prior state of the reader, up to colours and masses."
  },
  {
   "property": "C44",
   "status": "proved",
   "theorems": [
    "NB.C44.save_load",
    "NB.C44.save_load_exact",
    "NB.C44.save_short"
   ],
   "note": "Any number of bodies and values; printing and reading of numbers are parameters with the stated round-trip hypothesis."
  },
  {
   "property": "C45",
   "status": "proved",
   "theorems": [
    "NB.C45.lines_unique",
    "NB.C45.means_unique",
    "NB.C45.load_iff",
    "NB.C45.load_bodies",
    "NB.C45.load_failure",
    "NB.C45.load_consistent"
   ],
   "note": "All texts; the line language is an independent relational specification."
  },
  {
   "property": "C46",
   "status": "proved",
   "theorems": [
    "NB.C46.zeno_cases",
    "NB.C46.zeno_iff",
    "NB.C46.zeno_unique",
    "NB.C46.zeno_bad_mass_accepted"
   ],
   "note": "All texts, including rejection and undefined-behaviour freedom; non-numeric fields proved to be read as 0."
  },
  {
   "property": "C47",
   "status": "proved",
   "theorems": [
    "NB.C47.roundUp_spec",
    "NB.C47.starCount_wraps",
    "NB.C47.universe_ends",
    "NB.C47.universe_counts",
    "NB.C47.universe_bodies",
    "NB.C47.universe_outside_box",
    "NB.C47.star_orbit",
    "NB.C47.centre_divides_by_zero"
   ],
   "note": "All counts including wrap-around, all random triples; masses and orbits in exact arithmetic. Negations: count 0, bodies outside the box."
  },
  {
   "property": "C48",
   "status": "proved",
   "theorems": [
    "NB.C48.parse_some",
    "NB.C48.parse_none",
    "NB.C48.program_name_ignored",
    "NB.C48.order_irrelevant",
    "NB.C48.value_with_equals_ignored"
   ],
   "note": "Arguments as decoded characters."
  },
  {
   "property": "C49",
   "status": "proved",
   "theorems": [
    "NB.C49.layout_names",
    "NB.C49.accepts_iff",
    "NB.C49.class_of_alias",
    "NB.C49.settings_of_options",
    "NB.C49.gpu_needs_build"
   ],
   "note": "Text-to-number conversions and device selection are arbitrary functions."
  },
  {
   "property": "C50",
   "status": "partial",
   "theorems": [
    "NB.C50.returns_partial",
    "NB.C50.adams_adams_overflows",
    "NB.C50.null_iff",
    "NB.C50.solver_of_alias",
    "NB.C50.rk_butcher_rejected",
    "NB.C50.rank_unchecked"
   ],
   "note": "Fails for adams started by adams (proved); returns_partial covers everything else, with class and settings. Text-to-number conversions are arbitrary functions."
  },
  {
   "property": "C51",
   "status": "proved",
   "theorems": [
    "NB.C51.synchronize_y_gathers",
    "NB.C51.synchronize_f_gathers",
    "NB.C51.opencl_accepts",
    "NB.C51.synchronize_y_host_gathers",
    "NB.C51.synchronize_f_host_gathers",
    "NB.C51.synchronize_y_misses",
    "NB.C51.synchronize_f_misses",
    "NB.C51.gathers_iff_power_of_two"
   ],
   "note": "Full statement: gathers for all powers of two, misses a block for every other count."
  },
  {
   "property": "C52",
   "status": "proved",
   "theorems": [
    "NB.C52.all_reduce_sums",
    "NB.C52.all_reduce_counts",
    "NB.C52.own_counted_twice",
    "NB.C52.one_contributor_exact",
    "NB.C52.all_reduce_host"
   ],
   "note": "Full statement: every device once for powers of two, doubled contributions otherwise."
  },
  {
   "property": "C53",
   "status": "partial",
   "theorems": [
    "NB.C53.interpolates_partial",
    "NB.C53.ends",
    "NB.C53.outside_table",
    "NB.C53.defined_iff",
    "NB.C53.frame_defined_iff",
    "NB.C53.box_is_bounding_box",
    "NB.C53.slowing_down",
    "NB.C53.all_at_rest"
   ],
   "note": "The claim fails for relative speeds in (3/4, 1) and for NaN (outside_table, slowing_down, all_at_rest); interpolates_partial covers the others, frame_defined_iff says exactly which frames are defined."
  },
  {
   "property": "C54",
   "status": "proved",
   "theorems": [
    "NB.C54.isEqual_iff",
    "NB.C54.isEqual_unordered",
    "NB.C54.isEqual_real",
    "NB.C54.isEqual_refl",
    "NB.C54.isEqual_symm",
    "NB.C54.isEqual_mono",
    "NB.C54.isEqual_triangle",
    "NB.C54.isEqual_exact",
    "NB.C54.isEqual_negative"
   ],
   "note": "Characterisation for any scalar type; order properties over the reals."
  },
  {
   "property": "C55",
   "status": "proved",
   "theorems": [
    "NB.C55.all_or_nothing",
    "NB.C55.release_restores",
    "NB.C55.reachable_of_calls"
   ],
   "note": ""
  },
  {
   "property": "C56",
   "status": "proved",
   "theorems": [
    "NB.C56.build_valid",
    "NB.C56.upload",
    "NB.C56.refresh_equals_rebuild",
    "NB.C56.real_laws"
   ],
   "note": "For all body counts 2^k (other counts are out of bounds on the host already, C27), all layouts, all interleavings; any scalar type with the three identities of RadiusLaws."
  },
  {
   "property": "C57",
   "status": "proved",
   "theorems": [
    "NB.C57.rows_fit",
    "NB.C57.row_entry",
    "NB.C57.reads_inside",
    "NB.C57.strictly_lower",
    "NB.C57.consistent",
    "NB.C57.feagin10_order",
    "NB.C57.feagin12_order",
    "NB.C57.feagin14_order",
    "NB.C57.embedded_orders",
    "NB.C57.exact_orders",
    "NB.C57.exact_embedded",
    "NB.C57.feagin_step"
   ],
   "note": "All rooted trees up to the documented order; every order condition within 10^-56, row sums and weight sums within 10^-55 (entries are printed with about 60 digits). The decimals are read as exact rationals, not rounded to nbcoord_t. Butcher's theorem that the conditions imply the local error order is not formalised."
  },
  {
   "property": "C58",
   "status": "partial",
   "theorems": [
    "NB.C58.pair_gradient",
    "NB.C58.force_is_gradient",
    "NB.C58.energy_constant",
    "NB.C58.constants_of_motion",
    "NB.C58.below_cutoff",
    "NB.C58.jump_at_cutoff"
   ],
   "note": "Below the cutoff the claim fails (below_cutoff, jump_at_cutoff); above it, it is proved for all motions."
  },
  {
   "property": "C59",
   "status": "partial",
   "theorems": [
    "NB.C59.reuse_partial",
    "NB.C59.shrinking_loses_forces"
   ],
   "note": "Violated when the number of bodies decreases (proved, general witness); proved for every non-decreasing sequence of builds."
  },
  {
   "property": "C60",
   "status": "proved",
   "theorems": [
    "NB.C60.heap_eq_tree",
    "NB.C60.stackless_eq_tree"
   ],
   "note": "Every scalar type, every sequence of evaluations, rate, ratio, schedule; heap up to 2^63 bodies, stackless up to 2^30."
  },
  {
   "property": "C62",
   "status": "partial",
   "theorems": [
    "NB.C62.own_files_distinct",
    "NB.C62.plain_apart",
    "NB.C62.apart_iff",
    "NB.C62.other_stream_kept",
    "NB.C62.other_stream_destroyed"
   ],
   "note": "The code violates the claim for names that differ by digits (other_stream_destroyed); apart_iff characterises the names for which it holds, other_stream_kept proves it for them."
  },
  {
   "property": "C63",
   "status": "proved",
   "theorems": [
    "NB.C63.box_size",
    "NB.C63.box_overflow",
    "NB.C63.box_ignores_negative",
    "NB.C63.bodies_outside_box",
    "NB.C63.unknown_type",
    "NB.C63.text_types",
    "NB.C63.zeno_type"
   ],
   "note": "All files and types; box size over the reals with overflow as undefined behaviour; negation for bodies in the box."
  },
  {
   "property": "C64",
   "status": "proved",
   "theorems": [
    "NB.C64.summation_error",
    "NB.C64.fmaddn_corr_error",
    "NB.C64.plain_sum_error_grows"
   ],
   "note": "All lengths up to 1/(12u), all rounding errors within the standard model; overflow, NaN and underflow of products excluded by hypothesis."
  },
  {
   "property": "C65",
   "status": "proved",
   "theorems": [
    "NB.C65.trapeze_is_erk",
    "NB.C65.trapeze_order",
    "NB.C65.trapeze_converged",
    "NB.C65.trapeze_ignores_time",
    "NB.C65.refine_sweep",
    "NB.C65.first_approach_stages",
    "NB.C65.refine_fixed_iff",
    "NB.C65.refine_contracts",
    "NB.C65.rk_implicit_step",
    "NB.C65.stage_equations_solvable",
    "NB.C65.gauss_and_lobatto_converge"
   ],
   "note": "All derivative functions, step sizes and refinement counts, exact arithmetic; counterexample for time dependent systems."
  },
  {
   "property": "C66",
   "status": "partial",
   "theorems": [
    "NB.C66.clean_life_partial",
    "NB.C66.unattached_destroy_undefined",
    "NB.C66.adams_without_step_undefined",
    "NB.C66.midpoint_leaks_after_failure"
   ],
   "note": "Violated before set_engine, for adams before the first step and when buffer creation fails (proved); clean_life_partial is the claim for every other history."
  },
  {
   "property": "C70",
   "status": "proved",
   "theorems": [
    "NB.C70.same_result",
    "NB.C70.newton",
    "NB.C70.opencl_refuses",
    "NB.C70.cuda_refuses",
    "NB.C70.cuda_tail_stale",
    "NB.C70.cuda_out_of_bounds"
   ],
   "note": "for sizes that are multiples of the group size; the failures for other sizes are theorems"
  },
  {
   "property": "C69",
   "status": "proved",
   "theorems": [
    "NB.C69.gpu_engines",
    "NB.C69.host_engines",
    "NB.C69.all_engines",
    "NB.C69.copy_to_itself",
    "NB.C69.host_copy_to_itself",
    "NB.C69.missing_buffer",
    "NB.C69.opencl_refuses",
    "NB.C69.cuda_leaves_out"
   ],
   "note": ""
  },
  {
   "property": "C72",
   "status": "proved",
   "theorems": [
    "NB.C72.every_call",
    "NB.C72.devices_do_not_matter",
    "NB.C72.power_of_two_needed",
    "NB.C72.real_sum_laws",
    "NB.C72.gpu_equals_host",
    "NB.C72.next_down_ok"
   ],
   "note": "Histories of calls, all traversals, layouts, device counts and interleavings; equality with the host engine in exact arithmetic, between GPU engines for every scalar type with the stated identities. Number of bodies a power of two (else proved to fail)."
  },
  {
   "property": "C73",
   "status": "proved",
   "theorems": [
    "NB.C73.opencl_is_max",
    "NB.C73.cuda_is_max",
    "NB.C73.all_engines_agree",
    "NB.C73.opencl_throws",
    "NB.C73.opencl_condition",
    "NB.C73.even_devices_never_throw",
    "NB.C73.default_size_throws"
   ],
   "note": "Both GPU engines, every device count and execution; the ranges the OpenCL engine refuses are characterised."
  },
  {
   "property": "C74",
   "status": "proved",
   "theorems": [
    "NB.C74.direct_implements",
    "NB.C74.engines_agree",
    "NB.C74.opencl_devices_agree",
    "NB.C74.every_solver_on_every_engine",
    "NB.C74.same_trajectory",
    "NB.C74.rk4_on_every_engine",
    "NB.C74.explicit_on_every_engine",
    "NB.C74.bs_on_every_engine",
    "NB.C74.opencl_embedded_throws"
   ],
   "note": "Exact arithmetic except opencl_devices_agree and opencl_embedded_throws, which hold for any arithmetic."
  },
  {
   "property": "C67",
   "status": "partial",
   "theorems": [
    "NB.C67.resumed_is_uninterrupted_partial",
    "NB.C67.resumed_has_no_box",
    "NB.C67.advise_is_step",
    "NB.C67.start_is_fresh",
    "NB.C67.clamp_differs",
    "NB.C67.adams_differs",
    "NB.C67.stetter_differs",
    "NB.C67.rounding_differs",
    "NB.C67.first_frame_twice"
   ],
   "note": "Proved for memoryless engines and solvers decided by the state, no clamping, last time exactly printed and positive; the excluded cases clamp, Adams, Stetter, rounding and a single frame are proved to differ."
  },
  {
   "property": "C68",
   "status": "proved",
   "theorems": [
    "NB.C68.options_reach_the_steps",
    "NB.C68.refused",
    "NB.C68.only_output_touched",
    "NB.C68.fresh_run_stream",
    "NB.C68.resumed_run_stream",
    "NB.C68.no_dump_empties",
    "NB.C68.unknown_ignored",
    "NB.C68.resume_ignores",
    "NB.C68.defaults",
    "NB.C68.one_part"
   ],
   "note": "The program as a function from command line and files to exit code and files."
  },
  {
   "property": "C75",
   "status": "partial",
   "theorems": [
    "NB.C75.shows_slider",
    "NB.C75.opens_blank",
    "NB.C75.recordings_right",
    "NB.C75.recording_complete_partial",
    "NB.C75.single_frame_lost",
    "NB.C75.last_frame_lost",
    "NB.C75.torn_positions",
    "NB.C75.torn_velocities",
    "NB.C75.unindexed_shown"
   ],
   "note": "Completeness of a recording is proved for undisturbed recordings of at least two frames or an unread stream; the excluded cases are proved to lose images."
  },
  {
   "property": "C76",
   "status": "partial",
   "theorems": [
    "NB.C76.names_in_destination",
    "NB.C76.names_elsewhere",
    "NB.C76.names_distinct",
    "NB.C76.names_ordered_partial",
    "NB.C76.names_unordered",
    "NB.C76.all_saved_once",
    "NB.C76.images_on_disk"
   ],
   "note": "Order of names up to frame 10^8 and place of the files for directories without low place markers; both exclusions are proved to fail."
  },
  {
   "property": "C77",
   "status": "partial",
   "theorems": [
    "NB.C77.box_of_first_frame",
    "NB.C77.first_frame_visible",
    "NB.C77.nothing_visible",
    "NB.C77.panes_tile",
    "NB.C77.double_click",
    "NB.C77.stereo_pair",
    "NB.C77.black_window",
    "NB.C77.history_matters",
    "NB.C77.zoom"
   ],
   "note": "Visibility is proved for exact arithmetic and boxes between the near and the far plane; outside, and for later frames, it is proved to fail."
  },
  {
   "property": "C71",
   "status": "partial",
   "theorems": [
    "NB.C71.opencl_accepts_iff",
    "NB.C71.opencl_selects_written",
    "NB.C71.same_context_right_partial",
    "NB.C71.devices_stay",
    "NB.C71.cuda_accepts_iff",
    "NB.C71.same_context_wrong",
    "NB.C71.refused_choice_stays",
    "NB.C71.cuda_default",
    "NB.C71.cuda_no_check"
   ],
   "note": "Acceptance and result are characterised for every text and state; that the devices are those of the last choice holds for new engines and is proved to fail for a second or refused choice."
  },
  {
   "property": "C78",
   "status": "proved",
   "theorems": [
    "NB.C78.motion_exists",
    "NB.C78.motion_unique",
    "NB.C78.every_solver_converges",
    "NB.C78.enough_steps",
    "NB.C78.explicit_tables",
    "NB.C78.implicit_tables",
    "NB.C78.feagin_tables"
   ],
   "note": "Exact real arithmetic; first-order bound for any motion (the higher orders, for motions off the kink of the softened force, are C82). Feagin tables converge up to the rounding of their printed weights (1e-55). Barnes-Hut engines are C81."
  },
  {
   "property": "C79",
   "status": "partial",
   "theorems": [
    "NB.C79.pair_force_partial",
    "NB.C79.host_engines_partial",
    "NB.C79.block_engine_partial",
    "NB.C79.gpu_engines_partial",
    "NB.C79.engines_agree_partial",
    "NB.C79.net_force_partial"
   ],
   "note": "Bounds for every arithmetic of the standard model, all engines, schedules and devices; overflow, underflow and contracted operations are outside the model."
  },
  {
   "property": "C80",
   "status": "proved",
   "theorems": [
    "NB.C80.host_close",
    "NB.C80.gpu_close",
    "NB.C80.sequence_close",
    "NB.C80.heap_close",
    "NB.C80.stackless_close",
    "NB.C80.any_accuracy"
   ],
   "note": "Exact arithmetic, ratio at least one, positive masses; host engine in cycle mode with all three layouts over all sequences of calls, and every GPU engine in lockstep with it."
  },
  {
   "property": "C81",
   "status": "proved",
   "theorems": [
    "NB.C81.tree_approximates",
    "NB.C81.every_solver_on_every_tree",
    "NB.C81.every_solver_converges",
    "NB.C81.enough_steps"
   ],
   "note": "Exact arithmetic; host engines with the cycle traversal (the default), GPU engines with all walks; first-order rate in the step and in 1/ratio. The engine is new when the run starts."
  },
  {
   "property": "C82",
   "status": "proved",
   "theorems": [
    "NB.C82.order_of_convergence",
    "NB.C82.order_on_trees",
    "NB.C82.equal_steps",
    "NB.C82.explicit_tables",
    "NB.C82.feagin_tables",
    "NB.C82.implicit_tables",
    "NB.C82.bs_documented",
    "NB.C82.bs_threshold"
   ],
   "note": "Exact real arithmetic; upper bounds of the errors. Motions in which two bodies are exactly at the softening distance are excluded: the force has a kink there. rkck, rkdp, rkgl, rklc are stated with the order they have, not the documented one (C18)."
  },
  {
   "property": "C83",
   "status": "proved",
   "theorems": [
    "NB.C83.frames_near",
    "NB.C83.frames_converge",
    "NB.C83.tree_gravitates"
   ],
   "note": "End to end in exact arithmetic: run loop, dump schedule, solver of the factory, engine of any stated accuracy, against the solution of the differential equation. Rounding is the subject of C79."
  },
  {
   "property": "C84",
   "status": "proved",
   "theorems": [
    "NB.C84.error_at_least",
    "NB.C84.exact_order",
    "NB.C84.no_higher_order",
    "NB.C84.tables",
    "NB.C84.twins_move",
    "NB.C84.adams_orders"
   ],
   "note": "Exact real arithmetic. Not covered: midpoint-st, bs and the Feagin tables, whose upper bounds are C82; the lower bound for rk tables needs no recursion or a positive threshold."
  },
  {
   "property": "C85",
   "status": "partial",
   "theorems": [
    "NB.C85.rounded_convergence_partial",
    "NB.C85.rounded_equal_steps_partial",
    "NB.C85.rounded_attains_partial",
    "NB.C85.explicit_tables_covered",
    "NB.C85.rounded_stetter_partial",
    "NB.C85.rounded_adams_partial"
   ],
   "note": "Every arithmetic of the standard model, all direct-sum engines and executions. Outside: overflow, underflow, NaN, contracted operations; bs, implicit tables, correction (see C87), Barnes-Hut engines."
  },
  {
   "property": "C86",
   "status": "partial",
   "theorems": [
    "NB.C86.gpu_round_trip",
    "NB.C86.smaller_target",
    "NB.C86.larger_target",
    "NB.C86.cuda_without_memory",
    "NB.C86.solver_without_memory",
    "NB.C86.opencl_without_devices",
    "NB.C86.loads",
    "NB.C86.reads",
    "NB.C86.end_to_end",
    "NB.C86.end_to_end_rounded_partial"
   ],
   "note": "Loading, reading and the end-to-end bound in exact arithmetic are proved; the rounded version is partial as in C85; the GPU engines return wrong bodies or read out of bounds if the target of get_data has another number of bodies (proved)."
  },
  {
   "property": "C87",
   "status": "partial",
   "theorems": [
    "NB.C87.corrected_convergence_partial",
    "NB.C87.uncorrected_drift",
    "NB.C87.uncorrected_fails",
    "NB.C87.corrected_many_steps_partial",
    "NB.C87.tables_corrected_partial"
   ],
   "note": "Proved for every explicit table, engine and arithmetic of unit roundoff u; the counterpart without correction is disproved (uncorrected_fails). Missing: overflow, underflow and NaN; implicit tables; correction in Adams-Bashforth."
  },
  {
   "property": "C88",
   "status": "partial",
   "theorems": [
    "NB.C88.rk_uniform",
    "NB.C88.run_understates_drift",
    "NB.C88.lines_of_reports",
    "NB.C88.conserved_partial",
    "NB.C88.centre_speed_partial",
    "NB.C88.since_last",
    "NB.C88.run_centre_speed"
   ],
   "note": "The printed speed of the centre of mass is too small by the factor proved, and a conserved quantity that is zero is printed as not a number; all else holds. Exact arithmetic; the two wall-clock times are not modelled."
  },
  {
   "property": "C89",
   "status": "partial",
   "theorems": [
    "NB.C89.buttons_tell_state",
    "NB.C89.too_many_frames",
    "NB.C89.plays",
    "NB.C89.pause_start",
    "NB.C89.start_ignores_slider",
    "NB.C89.player_shows_partial",
    "NB.C89.first_frame_not_played"
   ],
   "note": "Buttons, slider and shown frame after any history; Qt's animation and slider are modelled from its documentation; disagreements: Start ignores the slider, the first frame is not shown when played from a fresh player."
  },
  {
   "property": "C90",
   "status": "partial",
   "theorems": [
    "NB.C90.room_as_unbuffered",
    "NB.C90.failed_write_keeps_frames",
    "NB.C90.large_frames_noticed",
    "NB.C90.index_failure_silent",
    "NB.C90.full_disk_unnoticed",
    "NB.C90.full_disk_noticed",
    "NB.C90.large_first_frame_noticed",
    "NB.C90.data_file_complete",
    "NB.C90.part_change_loses_frame"
   ],
   "note": "A failed write never damages earlier frames (proved). That a write that returned 0 is on the disk holds only for large frames with an index stream whose status is Ok; index_failure_silent and full_disk_unnoticed prove that it fails otherwise. data_file_complete (bytes refused by the disk are kept for later) holds for streams without parts; part_change_loses_frame proves that it fails with parts."
  },
  {
   "property": "C91",
   "status": "proved",
   "theorems": [
    "NB.C91.conserved_near",
    "NB.C91.printed_deviations"
   ],
   "note": "Exact arithmetic; pairs above the cutoff (below it the reported energy is not conserved: C58)."
  },
  {
   "property": "C92",
   "status": "partial",
   "theorems": [
    "NB.C92.compare_data",
    "NB.C92.compare_nothing",
    "NB.C92.bench_compare_counts",
    "NB.C92.bench_compare",
    "NB.C92.comparator_table_partial",
    "NB.C92.comparator_minimum_partial",
    "NB.C92.comparator_fewer",
    "NB.C92.comparator_more",
    "NB.C92.orbit_table",
    "NB.C92.bench_table",
    "NB.C92.bench_failure",
    "NB.C92.end_state_any_clock_partial",
    "NB.C92.end_state_stale_any_clock",
    "NB.C92.end_state_partial",
    "NB.C92.end_state_stale",
    "NB.C92.end_state_unchecked"
   ],
   "note": "Tables and run_bench proved for all inputs; the comparison table needs an expected state with as many bodies as the run (comparator_fewer, comparator_more prove undefined behaviour otherwise). The end state is that of the last step only when the clock does not come within a tenth of a step of max_time before reaching it (end_state_stale_any_clock, end_state_stale, end_state_unchecked prove that it is older otherwise). Exact arithmetic apart from the clock."
  },
  {
   "property": "C93",
   "status": "partial",
   "theorems": [
    "NB.C93.video_image_defined",
    "NB.C93.video_image_partial",
    "NB.C93.video_image_sheared",
    "NB.C93.video_image_differs",
    "NB.C93.recording_partial",
    "NB.C93.recording_complete",
    "NB.C93.recording_silent",
    "NB.C93.avi_name",
    "NB.C93.record_choice"
   ],
   "note": "Proved for all pictures whose width is a multiple of four, which includes the only size the player renders (recording_complete); video_image_sheared and video_image_differs prove that other widths are recorded wrongly. A file that cannot be opened is not reported (recording_silent)."
  },
  {
   "property": "C94",
   "status": "partial",
   "theorems": [
    "NB.C94.text_formats",
    "NB.C94.snapshot_exact_partial",
    "NB.C94.no_digit_to_spare",
    "NB.C94.quad_double",
    "NB.C94.quad_lost",
    "NB.C94.quad_error",
    "NB.C94.quad_digits"
   ],
   "note": "Proved for all finite float and double values and all correctly rounding printers and readers; refuted for __float128 (read as double, printed with 21 digits). Infinities, NaNs and the sign of zero are not modelled; the printer and reader of Qt are assumed to round to nearest."
  },
  {
   "property": "C95",
   "status": "partial",
   "theorems": [
    "NB.C95.short_times",
    "NB.C95.frame_times_partial",
    "NB.C95.times_merge"
   ],
   "note": "Proved for all doubles and all correctly rounding printers and readers: error bound, exactness for six digits, order, idempotence. That every time comes back is false (times_merge)."
  },
  {
   "property": "C96",
   "status": "proved",
   "theorems": [
    "NB.C96.double_fetch",
    "NB.C96.double_fetch4",
    "NB.C96.float_fetch",
    "NB.C96.float_fetch4",
    "NB.C96.one_size",
    "NB.C96.other_size",
    "NB.C96.group_overflow"
   ],
   "note": "Bit patterns, all buffers and positions, all sequences of requests with one element size (as the engine makes them)."
  },
  {
   "property": "C97",
   "status": "partial",
   "theorems": [
    "NB.C97.long_run_never_returns",
    "NB.C97.run_returns_partial",
    "NB.C97.short_run_exact",
    "NB.C97.power_of_two_limit"
   ],
   "note": "Proved for every step, rounding direction of ties, precision and solver: runs below 2^(p-1) steps return near the requested time, runs above 2^(p+1) steps never return; for steps that are powers of two the limit is exactly 2^p. That every run returns is false (long_run_never_returns); for other steps nothing is proved between the two bounds."
  }
 ]
}
