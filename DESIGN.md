# Design: a machine-checked model of drons/nbody

The subject is the C++ library in `/repo/nbody` (plus the small pieces of `/repo/player` and
`/repo/test/main` that users rely on). Nothing of it is built or run here: the model in
`lean/Verif/Model` is a hand translation of the source text, function by function, and every
definition cites the file and lines it models.

## Layout of the Lean project

* `Verif/Base.lean` — the result type `Res` (a value, or *undefined behaviour*), checked
  buffer reads and writes, loops.
* `Verif/Model/*.lean` — the model. Nothing but definitions that mirror the code.
* `Verif/Spec/*.lean` — small independent specifications (textbook formulas, sets, orders) that do
  not mention the model.
* `Verif/Lemmas/*.lean` — helper lemmas.
* `Verif/Props/*.lean` — the property theorems, one file per property group; each theorem has a
  concrete `example` beside it showing that its hypotheses can be met.

## Modelling decisions

1. **Undefined behaviour is an outcome.** Out-of-range array accesses, division by zero in integer
   arithmetic and calls through missing objects evaluate to `Except.error UB.…`. A theorem that says
   the result is `.ok x` therefore also says that no undefined behaviour occurs.
   Non-termination is expressed either by fuel (no amount of fuel suffices) or by a relation.
2. **Scalars.** The code computes in IEEE double. The model is generic in the scalar type `S`, with
   bare operation classes (`Add S`, `Mul S`, … and `FOps S` for comparison, square root, constants)
   and *no laws*. Theorems of the form "two pieces of code compute the same thing in the same order"
   are proved for all such `S` and hence hold bit for bit for doubles. Theorems that need algebra
   (conservation, order conditions, extrapolation) are proved for `S = ℝ` (or any field of
   characteristic 0), i.e. for exact arithmetic. What exact arithmetic cannot exhibit is rounding,
   overflow, NaN and signed zero. Each such theorem says so in its comment.
3. **Sizes** are natural numbers; `size_t` wrap-around is modelled only where the code's behaviour
   depends on it (for example `round_up(0)`, `idx` functions on 32-bit `int`).
4. **Buffers** are lists of scalars, measured in elements, not bytes.
5. **Nondeterminism** — thread schedules, `std::nth_element`, `rand`, allocation failure, crash
   points, error estimates — is a universally quantified parameter of the theorem.
6. **Text and files.** QString/QTextStream/QFile are modelled as lists of characters / bytes with
   the documented behaviour of the Qt functions used. Number formatting and parsing are parameters
   with an explicitly stated round-trip hypothesis where needed.

## Trusted base

* Lean 4.33.0's kernel, and Mathlib's definitions as imported.
* The axioms used by the theorems: at most `propext`, `Classical.choice`, `Quot.sound`. No axiom is
  declared here; `sorry`, `native_decide`, `bv_decide`, `implemented_by`, `unsafe` are not used.
* The translation from C++ to the definitions under `Verif/Model` (not mechanised). Each definition
  cites its source lines and states simplifications.


## Per-property plan

### C01 — Pair force obeys Newton's third law and is softened

Model `force` over generic scalars; prove over ℝ: antisymmetry, centrality, translation invariance, magnitude bound via r²≥MinDistance case split.

Status: **proved**. Exact arithmetic (ℝ); rounding is not modelled.

Theorems (namespace `NB.C01`): `force_is_softened_newton`, `force_is_newton_at_distance`, `force_third_law`, `force_central_attractive`, `force_coincident`, `force_translation`, `force_bounded`, `force_soft_core`

### C02 — Direct-sum engines exert no net force and no net torque

Model `fcompute` of the simple engine with checked buffers; prove `.ok` and identify its output with the textbook sum (Spec), then pairwise cancellation of Σᵢ Σⱼ by antisymmetry; torque via central force.

Status: **proved**. Exact arithmetic (ℝ); rounding is not modelled.

Theorems (namespace `NB.C02`): `fcompute_is_newton`, `accel_no_net_force`, `accel_no_net_torque`, `fcompute_no_net_force_torque`

### C03 — Parallel engine equals the sequential engine for every thread schedule

Small-step model: each loop iteration is a list of atomic writes; prove that any interleaving in which iterations own disjoint cells gives the sequential buffer. Scalars without laws.

Status: **proved**. Arbitrary scalars without laws, every interleaving of single memory accesses; sequentially consistent memory (the loops are proved race free).

Theorems (namespace `NB.C03`): `parallel_for_deterministic`, `parallel_for_terminates`, `fcompute_parallel_eq_sequential`, `clamp_parallel_eq_sequential`, `copy_parallel_eq_sequential`, `fill_parallel_eq_sequential`, `fmadd_inplace_parallel_eq_sequential`, `fmadd_parallel_eq_sequential`, `fmaddn_corr_parallel_eq_sequential`, `fmaddn_inplace_parallel_eq_sequential`, `fmaddn_parallel_eq_sequential`, `race_is_visible`

### C04 — Block engine computes the direct sum exactly when the body count is a multiple of the block size

Model the blocked triple loop with checked accesses; prove equality with the direct sum (regrouping, self term vanishes because dr=0) if 64 ∣ n and UB otherwise.

Status: **proved**. Memory-level model; all parallel executions. The engine leaves its buffers for every count that is not a multiple of 64 (block_out_of_bounds).

Theorems (namespace `NB.C04`): `block_is_newton`, `block_eq_simple`, `block_out_of_bounds`, `block_safe_iff`

### C05 — Ahmad-Cohen engine splits the direct sum without losing or duplicating a pair

Model the two adjacency conditions and the split accumulators; prove sum(near)+sum(far)=direct sum; UB theorems for rate 0 and missing full pass.

Status: **proved**. Full, sparse and their sequence; undefined behaviour for rate 0 and for a sparse call before any full one. The two parallel loops are modelled in index order.

Theorems (namespace `NB.C05`): `full_eq_simple`, `full_partition`, `sparse_after_full`, `sparse_same_positions`, `rate_zero_ub`, `sparse_before_full_ub`

### C06 — Loading a state into an engine and reading it back is the identity

Index arithmetic of the six planes; round trip by `List.getElem`.

Status: **proved**. Arbitrary scalars.

Theorems (namespace `NB.C06`): `init_layout`, `get_data_layout`, `init_get_data_round_trip`, `get_data_too_small`

### C07 — Vector buffer arithmetic does what its documented formula says

Model the generic fmaddn family over an abstract engine; prove formula; prove the negation for an all-zero coefficient list with non-null b.

Status: **partial**. The documented formula of fmaddn is violated by the code for a non-null b and all-zero coefficients (proved: fmaddn_formula_violated); all other cases proved. n-ary sums in exact arithmetic.

Theorems (namespace `NB.C07`): `fmadd_formula`, `fmadd_inplace_formula`, `copy_formula`, `fill_formula`, `fmaddn_inplace_formula`, `fmaddn_null_formula`, `fmaddn_formula_partial`, `fmaddn_all_zero_keeps_a`, `fmaddn_formula_violated`, `null_coefficients_noop`, `too_many_coefficients_noop`, `short_coefficients_oob`, `foreign_buffer_noop`

### C08 — Compensated accumulation agrees with plain accumulation

Kahan step in exact arithmetic: induction that the correction stays 0. Index independence for generic scalars.

Status: **proved**. Frame property for arbitrary scalars, value in exact arithmetic; the rounding benefit of the compensation is C64.

Theorems (namespace `NB.C08`): `fmaddn_corr_elementwise`, `fmaddn_corr_is_plain_sum`, `fmaddn_corr_invariant`, `summation_range_exact`, `summation_exact`, `correction_matters`

### C09 — fmaxabs returns the largest absolute value

Max over list; any binary reduction tree of a permutation gives the same maximum.

Status: **proved**. Exact comparison (no NaN); every distribution over threads and every combination order of the OpenMP reduction.

Theorems (namespace `NB.C09`): `isMaxAbs_unique`, `fmaxabs_is_max`, `fmaxabs_openmp_is_max`, `fmaxabs_openmp_eq_simple`, `fmaxabs_empty_oob`

### C10 — Periodic clamp wraps positions into the box

Case analysis over ℝ lifted to all bodies.

Status: **proved**. Exact arithmetic (ℝ).

Theorems (namespace `NB.C10`): `clamp_moves_by_box`, `clamp_inside_iff`, `clamp_idempotent`, `clamp_not_idempotent_far`

### C11 — Energy and momentum diagnostics count every pair once

Sum over n² flattened indices equals double sum equals twice the unordered-pair sum.

Status: **proved**. Exact arithmetic (ℝ); printing and timers are not modelled.

Theorems (namespace `NB.C11`): `potential_counts_each_pair_once`, `diagnostics_are_textbook_sums`, `default_check_list_has_no_energy`, `initial_values_are_of_first_call`, `last_values_are_of_last_request`

### C12 — Every fixed-step solver preserves linear invariants

Each solver modelled as a state transformer over an ℝ-module with abstract derivative; invariance of a linear functional by linearity and induction.

Status: **proved**. Every solver, every history; the direct-sum momentum rate is shown to vanish so the theorem applies to the real derivative.

Theorems (namespace `NB.C12`): `euler_linear`, `midpoint_linear`, `rk4_linear`, `trapeze_linear`, `stetter_linear`, `adams_linear`, `rk_linear`, `bs_linear`, `directSum_momentum_rate`, `directSum_rk_momentum`

### C13 — One advise() advances simulation time by exactly dt and the step counter by one

Engine clock is part of the solver state; theorem per solver; negation for BS and Stormer.

Status: **partial**. Holds for all solvers except the two documented ones: the Stormer solver is a no-op and Bulirsch-Stoer counts one engine step per sub-step; both deviations are proved as theorems about the model.

Theorems (namespace `NB.C13`): `euler_clock`, `midpoint_clock`, `rk4_clock`, `trapeze_clock`, `stetter_clock`, `adams_clock`, `rk_clock`, `bs_clock`, `stormer_does_nothing`, `stormer_violates`, `run_clock`

### C14 — Adams-Bashforth solver uses the last rank derivatives in the right order

Ring-buffer invariant: slot (k mod rank) holds f(y_k); induction over any number of steps.

Status: **proved**. Exact ring-buffer formula for every step after any number of steps and resets, every rank.

Theorems (namespace `NB.C14`): `adams_step_formula`, `adams_starter_steps`, `adams_defined_iff`

### C15 — Adams-Bashforth coefficients have the advertised order

Σ aₙ p(−n) = ∫₀¹ p for all polynomials of degree < k by linearity from monomials.

Status: **proved**. Every table entry, all polynomials of degree below the rank; uniqueness of the coefficients.

Theorems (namespace `NB.C15`): `adams_order`, `adams_unique`

### C16 — RK4, midpoint and Euler solvers coincide with their Butcher tables

Unfold both models; equality of functions.

Status: **proved**. Every derivative function (even one depending on the evaluation number), state, step size, with and without compensated summation; exact arithmetic.

Theorems (namespace `NB.C16`): `erk_unique`, `rk_explicit_step`, `euler_is_erk`, `midpoint_is_erk`, `rk4_is_erk`, `rk4_agrees`

### C17 — Butcher tables are well-formed

Tables as lists of rationals, row by row from the source; `decide`/`norm_num` on complete finite tables.

Status: **proved**. All tables with exact rational (or sqrt 15) entries; the Feagin tables, which are decimal expansions, are in C57.

Theorems (namespace `NB.C17`): `reads_ok`, `rk4_wf`, `rkck_wf`, `rkdp_wf`, `rkdverk_wf`, `rkf_wf`, `rklc_wf`, `rkgl_wf`, `rk_table_step`

### C18 — Runge-Kutta solvers have the order documented in the README

Rooted trees as an inductive type, elementary weights by recursion, completeness of an enumeration of trees up to order p proved by induction, table check by kernel computation over the complete enumeration; negations for tables whose advancing weights fail. That these conditions give the order of the error is C82.

Status: **partial**. All rooted trees. rk4, rkdverk, rkf have the documented order; rkck, rkdp, rkgl, rklc advance with weights of lower order than documented, proved with a failing tree each. Order conditions are checked on exact table entries; that they imply the order of the error is proved in C82, and that the documented orders are observably missed in C84.

Theorems (namespace `NB.C18`): `rk4_order`, `rkdverk_order`, `rkf_order`, `rkck_order_partial`, `rkck_violates`, `rkck_order_b1`, `rkdp_order_partial`, `rkdp_violates`, `rkdp_order_b1`, `rklc_order_partial`, `rklc_violates`, `rklc_order_b1`, `rkgl_order_partial`, `rkgl_violates`, `rkgl_order_b1`

### C19 — Adaptive Runge-Kutta subdivision covers the step exactly

Model the recursion with an arbitrary error oracle; invariant on the list of leaf intervals.

Status: **proved**. All tables, derivative functions, thresholds, limits; subdivisions at least one and dt not zero; exact arithmetic.

Theorems (namespace `NB.C19`): `leaves_cover`, `explicit_leaves`, `accepted_not_subdivided`

### C20 — Adaptive Runge-Kutta with zero subdivisions drops the step

Instance of the C19 model with 0 subdivisions; negation with witness.

Status: **partial**. Violated for substep_subdivisions = 0 (proved, with a witness); for at least one subdivision C19 and the constant-derivative theorem show that no part of the step is lost.

Theorems (namespace `NB.C20`): `zero_subdivisions_lose_step`, `zero_subdivisions_violate`, `positive_subdivisions_keep_step_partial`

### C21 — Neville extrapolation evaluates the interpolating polynomial at zero step

Neville–Aitken recursion by induction on the table diagonal; uniqueness of interpolation by Lagrange polynomials.

Status: **proved**. All node counts, all values; in exact field arithmetic.

Theorems (namespace `NB.C21`): `neville_is_interpolation`, `neville_scalar`, `neville_exact`, `neville_error`

### C22 — Berrut extrapolation is a convex-like combination of the stored values

Weights sum to one; negation for the missing level.

Status: **partial**. The code drops a table entry and is not exact for constants in general; the formula it computes, the cases in which constants are reproduced and a counterexample are proved.

Theorems (namespace `NB.C22`): `berrut_formula`, `berrut_constants_partial`, `berrut_ignores_entry`, `berrut_zero`, `berrut_violates`

### C23 — Bulirsch-Stoer step accounting

Model the level loop with arbitrary error estimates.

Status: **proved**. All level counts; the max_level = 0 loss of the step is proved as a separate theorem.

Theorems (namespace `NB.C23`): `init_steps_bs`, `init_steps_deuflhard`, `bsCount_increasing`, `bs_step`, `bs_zero_levels_lose_step`, `level_covers_step`, `bs_run_safe`

### C24 — Stetter midpoint scheme is time-reversible

Algebraic identity over an abstract module.

Status: **proved**. Single steps and any number of steps, time-dependent right-hand sides included; exact arithmetic.

Theorems (namespace `NB.C24`): `stetter_is_scheme`, `scheme_reversible`, `stetter_reversible`, `stetter_n_steps_reversible`

### C25 — Space tree is a partition of the bodies

Build as a recursion over an arbitrary `nth_element` oracle that permutes; multiset of leaves is preserved.

Status: **proved**. pointer tree build, any nth_element satisfying its contract

Theorems (namespace `NB.C25`): `build_partition`, `build_balanced`, `build_depth`, `build_terminates`, `build_empty_diverges`, `build_splits_by_planes`

### C26 — Space tree nodes summarise exactly their bodies

Structural induction over the tree with aggregate invariants; convexity for the radius bound.

Status: **proved**. exact arithmetic; pointer tree build and rebuild

Theorems (namespace `NB.C26`): `build_summarises`, `rebuild_summarises`, `rebuild_layout`, `rebuild_same`

### C27 — Heap layout stays inside its arrays exactly when the body count is a power of two

Arithmetic of heap indices: leaf index of the i-th subtree, iff power of two.

Status: **proved**. Every scalar type, new and used objects, any nth_element satisfying its contract.

Theorems (namespace `NB.C27`): `in_bounds_iff`, `out_of_bounds`, `build_stores_tree`, `leaves_upper_half`

### C28 — Barnes-Hut traversal accounts for every body exactly once

Induction over the tree for the set of accepted nodes.

Status: **proved**. exact arithmetic; pointer tree

Theorems (namespace `NB.C28`): `traverse_accounts`, `built_tree_height`, `traverse_mass`

### C29 — Barnes-Hut never lets a body attract itself through its own cell

From the C26 radius bound: |x−cm|² ≤ r² ≤ r²·ratio² so the node is not accepted.

Status: **proved**. exact arithmetic; also the negation for every ratio in [0,1)

Theorems (namespace `NB.C29`): `no_self_attraction`, `self_attraction_below_one`

### C30 — Barnes-Hut converges to direct summation

Induction over the tree.

Status: **proved**. exact arithmetic; tree walk and whole engine, every schedule

Theorems (namespace `NB.C30`): `no_inner_node_accepted`, `root_accepted`, `large_ratio`, `engine_large_ratio`

### C31 — Stackless traversal equals stack traversal and terminates

Refinement: stackless cursor = top of a stack of pending right siblings; induction on the perfect tree.

Status: **proved**. Every scalar type; up to 2^30 leaves for the ctz variant, 2^63 for the portable one; the limit at 2^31 is proved to be sharp.

Theorems (namespace `NB.C31`): `stack_walk_correct`, `stackless_walk_correct`, `stackless_eq_stack`, `stackless_portable_eq_stack`, `same_trace`, `stackless_limit`

### C32 — All variants of the heap successor function agree

Trailing-ones arithmetic on Nat; bit lemmas.

Status: **proved**. All 32-bit indices; the ctz variant is undefined exactly at 2^32-1.

Theorems (namespace `NB.C32`): `loop_is_next`, `next_unique`, `variants_agree`, `ctz_undefined_iff`

### C33 — Body visitor enumerates every body exactly once

Visitor over tree/heap; negation with coincident bodies.

Status: **partial**. Heaps: proved without restriction, for every scalar type. Pointer tree: correct for ratio other than 0 and distinct positions; false otherwise, proved with the consequence that the engine accesses memory outside its buffers.

Theorems (namespace `NB.C33`): `heap_visits_each_body`, `heap_visits_after_rebuilds`, `heap_nested_eq_cycle`, `stackless_nested_eq_cycle`, `tree_visits_each_body_partial`, `ratio_zero_reports_no_body`, `coincident_reports_no_body`, `nested_eq_cycle_partial`, `nested_ratio_zero_bad_access`

### C34 — Tree rebuild schedule

State machine of the engine over step histories.

Status: **proved**. Pointer tree, exact arithmetic; every history of evaluations and every schedule. By C60 it carries over to the heap layouts.

Theorems (namespace `NB.C34`): `schedule`

### C35 — Run loop stops at the requested time

Run loop by fuel; closed form for time after k steps.

Status: **proved**. Exact arithmetic in any ordered field with a floor (0.1 in the code is taken as 1/10); advise and clamp are parameters constrained only by the clock law, which solver_clock proves for the modelled solvers. A non-positive step or a solver that does not advance time (stormer) never returns.

Theorems (namespace `NB.C35`): `run_steps`, `never_returns`, `nonpositive_step`, `solver_clock`, `stormer_never_returns`

### C36 — Dump schedule of a run

Invariant relating last_dump to the dumped frames.

Status: **proved**. Exact arithmetic, any stream (a write may fail at any frame). The gap bound needs the exception that every step is dumped when dump_dt <= 0.1*dt.

Theorems (namespace `NB.C36`): `dumped_frames`, `nothing_dumped`, `write_failure`, `dump_times`, `whole_interval`

### C37 — Stream round trip

Files as byte lists; writer state machine and reader; induction over the frames.

Status: **proved**. Whole round trip through the characters of the index and the bytes of the data files; the conditions on box size, frame and body count are shown to be necessary by two negation theorems.

Theorems (namespace `NB.C37`): `round_trip`, `no_frames_unloadable`, `box_unloadable`

### C38 — Stream part files are split at frame boundaries

Invariant over the writer state machine.

Status: **proved**. Contents and sizes of all parts, for every maximum part size.

Theorems (namespace `NB.C38`): `parts`, `part_numbers`, `single_part`

### C39 — Resuming a stream appends and keeps earlier frames

Composition of writer sessions.

Status: **proved**. One resume and any number of resumed sessions.

Theorems (namespace `NB.C39`): `resume_appends`, `sessions_read_back`

### C40 — A crash leaves a readable prefix

Prefix of the flush-ordered log; readable frames; negation for torn line.

Status: **partial**. The code violates the claim when the process dies inside the last index line: crash_unloadable and crash_wrong_frame are the negations; crash_readable_partial holds for all other moments, crash_keeps_frames for all moments.

Theorems (namespace `NB.C40`): `crash_keeps_frames`, `crash_readable_partial`, `crash_unloadable`, `crash_wrong_frame`

### C41 — Sequential reading yields every frame once and then the last frame again or an error

Reader state machine over arbitrary command sequences; `once_delivered`, `loaded_fresh` fix when masses and colours are delivered.

Status: **partial**. The code violates the claim for the last frame once it is consumed (last_frame_once); seek_read_partial holds for all other frames, calls_answered describes all call sequences exactly.

Theorems (namespace `NB.C41`): `written_readable`, `calls_answered`, `seek_read_partial`, `seek_out_of_range`, `last_frame_once`, `read_without_load`, `once_delivered`, `loaded_fresh`

### C42 — A stream writer can be reused for another stream

Header flag as a function of the call history; negation for all histories that wrote, round trip for the others.

Status: **partial**. The code violates the claim: reused_unloadable is the negation for every history that wrote a frame; reused_loadable_partial covers exactly the other histories.

Theorems (namespace `NB.C42`): `reused_unloadable`, `reused_loadable_partial`

### C43 — A stream reader can be reused for another stream

Bisimulation of readers that differ in the two flags; negations for colours, masses and header values.

Status: **partial**. The code violates the claim: second_stream_without_masses and headerless_stream_accepted are negations; reused_reader_partial holds for every prior state of the reader, up to colours and masses.

Theorems (namespace `NB.C43`): `reused_reader_partial`, `second_stream_without_masses`, `headerless_stream_accepted`

### C44 — Text snapshot round trip

`save` and `load` on characters (Model/DataIO); the printed line is shown to mean its body in the independent line language of Spec/TextData; induction over the bodies.

Status: **proved**. Any number of bodies and values; printing and reading of numbers are parameters with the stated round-trip hypothesis.

Theorems (namespace `NB.C44`): `save_load`, `save_load_exact`, `save_short`

### C45 — Text loader accepts exactly the documented lines

Line language as relations (first comment, trimmed part, columns, numbers) in Spec/TextData; the loader is shown to compute them; acceptance iff, bodies in order, exact state after a failure.

Status: **proved**. All texts; the line language is an independent relational specification.

Theorems (namespace `NB.C45`): `lines_unique`, `means_unique`, `load_iff`, `load_bodies`, `load_failure`, `load_consistent`

### C46 — Zeno loader reads exactly count records

Zeno files as a relation; case theorem covering every text (accepted with exactly its numbers, or rejected with a consistent object); negation of strict number checking.

Status: **proved**. All texts, including rejection and undefined-behaviour freedom; non-numeric fields proved to be read as 0.

Theorems (namespace `NB.C46`): `zeno_cases`, `zeno_iff`, `zeno_unique`, `zeno_bad_mass_accepted`

### C47 — Universe generator produces block-aligned body counts

`round_up` with 64-bit wrap; `add_galaxy` with arbitrary random triples (Model/Universe); the loop is shown to keep the triples inside the sphere; orbit geometry over the reals; negation for bodies outside the box.

Status: **proved**. All counts including wrap-around, all random triples; masses and orbits in exact arithmetic. Negations: count 0, bodies outside the box.

Theorems (namespace `NB.C47`): `roundUp_spec`, `starCount_wraps`, `universe_ends`, `universe_counts`, `universe_bodies`, `universe_outside_box`, `star_orbit`, `centre_divides_by_zero`

### C48 — Command-line parsing

Model `parseArguments` (`splitOn` for `QString::split`); spec `Binds`: arg = "--" ++ name ++ "=" ++ value with no further '='. Proof by induction over the arguments; corollaries: program name ignored, order irrelevant without repetitions, a value containing '=' is dropped.

Status: **proved**. Arguments as decoded characters.

Theorems (namespace `NB.C48`): `parse_some`, `parse_none`, `program_name_ignored`, `order_irrelevant`, `value_with_equals_ignored`

### C49 — Engine factory decision table

Model `createEngine` with the build options and device selection as parameters, conversions of `QVariant` arbitrary; spec `Spec/Factory.lean`: acceptance condition, class name and table of documented options with defaults. Proof by cases over the aliases.

Status: **proved**. Text-to-number conversions and device selection are arbitrary functions.

Theorems (namespace `NB.C49`): `layout_names`, `accepts_iff`, `class_of_alias`, `settings_of_options`, `gpu_needs_build`

### C50 — Solver factory terminates and returns the requested solver

Model `createSolver`, recursion limited by the stack; spec: alias list, classes and options from the README. Proved: returns iff not adams started by adams (then every stack overflows), null exactly for unknown aliases, class and settings as documented; negative theorems for rk_butcher and unchecked ranks.

Status: **partial**. Fails for adams started by adams (proved); returns_partial covers everything else, with class and settings. Text-to-number conversions are arbitrary functions.

Theorems (namespace `NB.C50`): `returns_partial`, `adams_adams_overflows`, `null_iff`, `solver_of_alias`, `rk_butcher_rejected`, `rank_unchecked`

### C51 — Multi-device all-gather distributes all blocks

Model `synchronizeY/F` (doubling exchange, one parallel pass per round) and the variants through a host buffer, over replicated buffers, any number of devices and any elements per block. Spec: every device holds every block as its owner had it. Proved for every order of the transfers of a pass: gathers for all 2^K, ends with a missing block for every other count (CUDA accepts these), host variants gather for every count. Devices and streams are modelled as passes separated by the synchronisation the code makes.

Status: **proved**. Full statement: gathers for all powers of two, misses a block for every other count.

Theorems (namespace `NB.C51`): `synchronize_y_gathers`, `synchronize_f_gathers`, `opencl_accepts`, `synchronize_y_host_gathers`, `synchronize_f_host_gathers`, `synchronize_y_misses`, `synchronize_f_misses`, `gathers_iff_power_of_two`

### C52 — Multi-device all-reduce sums every device once

Model `synchronizeSum` (ring of copies and additions) and `synchronizeSumHost`. Spec: sum over the devices, computed as a fixed tree of additions so that the statement holds for any scalar. Proved: power-of-two counts add every device once; for any other count each contribution is counted as often as the stated formula says, a device's own contribution twice; the host variant is right for every count.

Status: **proved**. Full statement: every device once for powers of two, doubled contributions otherwise.

Theorems (namespace `NB.C52`): `all_reduce_sums`, `all_reduce_counts`, `own_counted_twice`, `one_contributor_exact`, `all_reduce_host`

### C53 — Player velocity colour stays inside its lookup table

Model/Player.lean; case split on the ceiling, `defined_iff` and `frame_defined_iff` say exactly when the colours are defined; `outside_table`, `slowing_down` and `all_at_rest` are the violations. Partial: the full statement (every speed) is false. Rounding of colours to `float` is left out.

Status: **partial**. The claim fails for relative speeds in (3/4, 1) and for NaN (outside_table, slowing_down, all_at_rest); interpolates_partial covers the others, frame_defined_iff says exactly which frames are defined.

Theorems (namespace `NB.C53`): `interpolates_partial`, `ends`, `outside_table`, `defined_iff`, `frame_defined_iff`, `box_is_bounding_box`, `slowing_down`, `all_at_rest`

### C54 — State comparison is reflexive and symmetric

`is_equal` for any scalar (also unordered values), then reflexivity, symmetry, monotonicity, triangle rule, exactness over the reals.

Status: **proved**. Characterisation for any scalar type; order properties over the reals.

Theorems (namespace `NB.C54`): `isEqual_iff`, `isEqual_unordered`, `isEqual_real`, `isEqual_refl`, `isEqual_symm`, `isEqual_mono`, `isEqual_triangle`, `isEqual_exact`, `isEqual_negative`

### C55 — Buffer group allocation is all-or-nothing

Model `createBuffers` over a heap of live buffers with an arbitrary failure pattern; induction over the loop.

Status: **proved**. 

Theorems (namespace `NB.C55`): `all_or_nothing`, `release_restores`, `reachable_of_calls`

### C56 — GPU tree refresh equals host tree refresh

Modelled: kernels UpdateLeafBH/UpdateNodeBH and their CUDA and texture variants, work item by work item on cells, the loop over the levels, the upload of the heap, both column layouts, all devices (Model/GpuBH.lean). Proved (Props/C56): for every heap `build` produces, every state on the devices and every interleaving of the work items, after the refresh every value of every node on every device equals the value of the host after `heapRebuild`; the state needed for the next refresh is kept. Holds for every scalar type with three identities that IEEE arithmetic has (`RadiusLaws`: a+b=b+a, (a-b)^2=(b-a)^2, a/2=a*0.5), by which the two formulas of the critical radius differ.

Status: **proved**. For all body counts 2^k (other counts are out of bounds on the host already, C27), all layouts, all interleavings; any scalar type with the three identities of RadiusLaws.

Theorems (namespace `NB.C56`): `build_valid`, `upload`, `refresh_equals_rebuild`, `real_laws`

### C57 — Feagin tables are complete and consistent to their printed precision

`Model/FeaginTables.lean` holds the decimals of the source as exact rationals, rows cut out of `data` by the pointer arithmetic of `triangle25/35`. `HasOrderWithin ε` (Spec/OrderWithin.lean) asks every order condition within ε. `Lemmas/OrderApprox.lean`: a decision procedure that evaluates the conditions from the root downwards with residues modulo 2^K, enumerating children without regard to order, with proofs that no tree is missed, that the residues determine the integers (a-priori bounds on weights and densities), and that the scaled integers give the rational conditions. The kernel runs it on the complete tables (order 14: all 53272 conditions up to that order).

Status: **proved**. All rooted trees up to the documented order; every order condition within 10^-56, row sums and weight sums within 10^-55 (entries are printed with about 60 digits). The decimals are read as exact rationals, not rounded to nbcoord_t. Butcher's theorem that the conditions imply the local error order is not formalised.

Theorems (namespace `NB.C57`): `rows_fit`, `row_entry`, `reads_inside`, `strictly_lower`, `consistent`, `feagin10_order`, `feagin12_order`, `feagin14_order`, `embedded_orders`, `exact_orders`, `exact_embedded`, `feagin_step`

### C58 — Forces are the gradient of the reported potential energy

Calculus of Mathlib (`HasDerivAt`) on the model's `potentialEnergy`, `force` and `diagnostics`; sums over pairs are reordered into unordered pairs, where opposite forces cancel. `below_cutoff` and `jump_at_cutoff` are the violations; `pair_gradient` and `constants_of_motion` need pairs above the cutoff for the energy only.

Status: **partial**. Below the cutoff the claim fails (below_cutoff, jump_at_cutoff); above it, it is proved for all motions.

Theorems (namespace `NB.C58`): `pair_gradient`, `force_is_gradient`, `energy_constant`, `constants_of_motion`, `below_cutoff`, `jump_at_cutoff`

### C59 — A heap object can be built again for other bodies

Builds on an arbitrary earlier array; equality with a new object if the sizes do not decrease; negation with a general witness otherwise.

Status: **partial**. Violated when the number of bodies decreases (proved, general witness); proved for every non-decreasing sequence of builds.

Theorems (namespace `NB.C59`): `reuse_partial`, `shrinking_loses_forces`

### C60 — Tree layouts of the Barnes-Hut engine are interchangeable

Simulation relation between the pointer tree and the heap array (`Stores`), kept by build and rebuild; both walks visit the same nodes in the same order.

Status: **proved**. Every scalar type, every sequence of evaluations, rate, ratio, schedule; heap up to 2^63 bodies, stackless up to 2^30.

Theorems (namespace `NB.C60`): `heap_eq_tree`, `stackless_eq_tree`

### C62 — Streams with different names do not disturb each other

File names as character lists; two streams share a file iff one name followed by a number is the other followed by a number; frame lemma for every file operation; negation for names that clash.

Status: **partial**. The code violates the claim for names that differ by digits (other_stream_destroyed); apart_iff characterises the names for which it holds, other_stream_kept proves it for them.

Theorems (namespace `NB.C62`): `own_files_distinct`, `plain_apart`, `apart_iff`, `other_stream_kept`, `other_stream_destroyed`

### C63 — Initial state loading picks units and box

`load_initial` dispatch and fold of maxima over the reals; conversion to `size_t` with overflow as undefined behaviour; negation that bodies lie in the box.

Status: **proved**. All files and types; box size over the reals with overflow as undefined behaviour; negation for bodies in the box.

Theorems (namespace `NB.C63`): `box_size`, `box_overflow`, `box_ignores_negative`, `bodies_outside_box`, `unknown_type`, `text_types`, `zeno_type`

### C64 — Compensated accumulation keeps rounding errors from piling up

Spec `StdModel`: val of a sum/difference is exact up to relative error u (IEEE double satisfies it for u = 2⁻⁵³ without overflow; `Spec.Bin p`, round-to-nearest with p bits and unbounded exponent, is proved to be an instance). Invariant: |s − c − Σx| ≤ 2uX + 12ku²X, |c| ≤ 3uX for X = Σ|x|; lifted to `summation` and to arbitrary histories of `fmaddn_corr` over memory. Overflow, NaN and underflow of products are excluded by hypothesis.

Status: **proved**. All lengths up to 1/(12u), all rounding errors within the standard model; overflow, NaN and underflow of products excluded by hypothesis.

Theorems (namespace `NB.C64`): `summation_error`, `fmaddn_corr_error`, `plain_sum_error_grows`

### C65 — The iterating solvers iterate the equations of their scheme

Model `trapezeAdvise`, `rkImplicit`, `rkRefine`; invariants over the loops give the stage formulas; order conditions by case analysis of the trees; contraction of the Gauss-Seidel sweep in a normed space; solvability of the stage equations by Banach's fixed point theorem.

Status: **proved**. All derivative functions, step sizes and refinement counts, exact arithmetic; counterexample for time dependent systems.

Theorems (namespace `NB.C65`): `trapeze_is_erk`, `trapeze_order`, `trapeze_converged`, `trapeze_ignores_time`, `refine_sweep`, `first_approach_stages`, `refine_fixed_iff`, `refine_contracts`, `rk_implicit_step`, `stage_equations_solvable`, `gauss_and_lobatto_converge`

### C66 — A solver releases its buffers exactly once

Model/Lifecycle.lean: buffer members of every solver, creation in `advise`, destructors; invariant `Holds` (the heap is the owned buffers plus the others), induction over steps and nesting.

Status: **partial**. Violated before set_engine, for adams before the first step and when buffer creation fails (proved); clean_life_partial is the claim for every other history.

Theorems (namespace `NB.C66`): `clean_life_partial`, `unattached_destroy_undefined`, `adams_without_step_undefined`, `midpoint_leaks_after_failure`

### C70 — The GPU force kernels compute the direct sum in every execution

Model/GpuKernel.lean: kernels as work items with private variables cut into phases at the barriers, arbitrary interleaving; race freedom phase by phase gives determinism (`launch_eq_seq`), then the tile loop is run symbolically and composed with the exchange of C51. The sizes that do not fit are theorems too (`opencl_refuses`, `cuda_refuses`, `cuda_tail_stale`, `cuda_out_of_bounds`). Not modelled: weak memory, `int` overflow of indices.

Status: **proved**. for sizes that are multiples of the group size; the failures for other sizes are theorems

Theorems (namespace `NB.C70`): `same_result`, `newton`, `opencl_refuses`, `cuda_refuses`, `cuda_tail_stale`, `cuda_out_of_bounds`

### C69 — Engines are interchangeable

Model/GpuOps.lean gives every operation of the GPU engines as kernels on slices of replicas; Spec/Machine.lean is a machine whose buffers are plain sequences. Each operation preserves `Holds` (Lemmas/GpuOps.lean, Lemmas/HostOps.lean), the sequence follows by induction. Sizes that do not fit and the operations on which engines differ are theorems (`opencl_refuses`, `cuda_leaves_out`, `copy_to_itself`, `missing_buffer`). Not covered: the tree engines and the Ahmad-Cohen engine, whose derivative is another one.

Status: **proved**. 

Theorems (namespace `NB.C69`): `gpu_engines`, `host_engines`, `all_engines`, `copy_to_itself`, `host_copy_to_itself`, `missing_buffer`, `opencl_refuses`, `cuda_leaves_out`

### C72 — The GPU Barnes–Hut engines agree with the host engine

Modelled: fcompute of the GPU Barnes–Hut engines as a whole: exchange of the state, building the heap on the host and its upload, refresh on the devices, the eight traversal kernels (per body / per leaf × stack / stackless × plain / texture columns) work item by work item on cells, the summing exchange (Model/GpuBH.lean, Model/MultiDevice.lean). Proved (Props/C72): for every history (`Reached`: calls and anything else that leaves the tree buffers alone) every call succeeds and every device ends with the whole derivative (`every_call`, every scalar type); two engines that differ in devices, exchange, layout, traversal and interleaving give the same numbers (`devices_do_not_matter`); over ℝ the numbers equal those of the host engine run in lockstep (`gpu_equals_host`); the four next_down variants meet the hypothesis (`next_down_ok`); other numbers of bodies never succeed (`power_of_two_needed`). Identities used for the per-leaf kernels: 0+a=a, a+0=a, a·1=a (`SumLaws`; IEEE has them up to the sign of zero). Not modelled: index_t overflow beyond 2^30 bodies, texture size limits, failing device calls.

Status: **proved**. Histories of calls, all traversals, layouts, device counts and interleavings; equality with the host engine in exact arithmetic, between GPU engines for every scalar type with the stated identities. Number of bodies a power of two (else proved to fail).

Theorems (namespace `NB.C72`): `every_call`, `devices_do_not_matter`, `power_of_two_needed`, `real_sum_laws`, `gpu_equals_host`, `next_down_ok`

### C73 — The error norm is the same on the GPU engines

Modelled: fmaxabs of both GPU engines, work item by work item, with the temporary buffers, slices and the ranges given to the kernel launch (Model/GpuMax.lean). Proved (Props/C73): on every device count, context layout and execution the result is the largest absolute value of the buffer and all buffers are unchanged (`opencl_is_max`, `cuda_is_max` for every reduction tree that looks at each element once, `all_engines_agree`); the OpenCL call throws exactly when the number of blocks is not a multiple of 4 (`opencl_throws`, `opencl_condition`), never with an even number of devices (`even_devices_never_throw`), and does for the default configuration on one device (`default_size_throws`). NaN is not modelled.

Status: **proved**. Both GPU engines, every device count and execution; the ranges the OpenCL engine refuses are characterised.

Theorems (namespace `NB.C73`): `opencl_is_max`, `cuda_is_max`, `all_engines_agree`, `opencl_throws`, `opencl_condition`, `even_devices_never_throw`, `default_size_throws`

### C74 — A solver takes the bodies to the same place on every engine

Modelled: the solvers' advise functions as programs of engine calls on buffers (Model/SolverCalls.lean), the engines as interpreters of those calls (Model/GpuOps.lean, GpuMax.lean, Reduction.lean). Specification: the machine without devices (Spec/Machine.lean, Spec/Program.lean). Proved (Props/C74): every direct-sum engine implements the machine with the derivative of softened gravity and the largest absolute value as norm (`direct_implements`), hence whole programs with decisions agree on all engines (`engines_agree`, `same_trajectory`); every solver on every engine follows the scheme of Model/Solvers.lean for every list of steps (`every_solver_on_every_engine`), so that RK4 and the explicit tables make Butcher steps of their tableaux (`rk4_on_every_engine`, `explicit_on_every_engine`) and Bulirsch-Stoer extrapolates the first levels until the error is small (`bs_on_every_engine`); in any arithmetic the OpenCL results do not depend on the device count (`opencl_devices_agree`); an embedded solver throws on unsuitable sizes (`opencl_embedded_throws`). Not at the level of calls: Berrut's extrapolator, creation and failure of buffers (C55, C66), the clock (C13). Adams is started by any of the other solvers, with buffers of its own (`Basic`, `Solver.adams`).

Status: **proved**. Exact arithmetic except opencl_devices_agree and opencl_embedded_throws, which hold for any arithmetic.

Theorems (namespace `NB.C74`): `direct_implements`, `engines_agree`, `opencl_devices_agree`, `every_solver_on_every_engine`, `same_trajectory`, `rk4_on_every_engine`, `explicit_on_every_engine`, `bs_on_every_engine`, `opencl_embedded_throws`

### C67 — An interrupted and resumed simulation equals an uninterrupted one

Modelled: the whole program (Model/Main.lean: options, loading or resuming, factories, stream, run loop) with its simulation (Model/Sim.lean: the solver of the factory with all its engine calls on buffers with arbitrary old content, the engine as a function with a memory, the clock and the step counter). Proved (Props/C67): `resumed_is_uninterrupted_partial`, by showing that `advise` is decided by the state buffer for the listed solvers (Lemmas/Determined.lean, Forgetful.lean: no buffer is read before it is written, Bulirsch-Stoer with its swapped tables included), that the run loop of two such states makes the same frames (Lemmas/Resume.lean) and that the state read from the last frame is the state that was dumped. Missing (hence partial), because false: clamping (`clamp_differs`, and `resumed_has_no_box` for all resumed runs), Adams (`adams_differs`), Stetter (`stetter_differs`), times that lose digits (`rounding_differs`), a last frame at time 0 (`first_frame_twice`); not covered: implicit tables, compensated sums, engines with memory. Arithmetic is any type with a fixed-size encoding; the examples compute modulo a prime.

Status: **partial**. Proved for memoryless engines and solvers decided by the state, no clamping, last time exactly printed and positive; the excluded cases clamp, Adams, Stetter, rounding and a single frame are proved to differ.

Theorems (namespace `NB.C67`): `resumed_is_uninterrupted_partial`, `resumed_has_no_box`, `advise_is_step`, `start_is_fresh`, `clamp_differs`, `adams_differs`, `stetter_differs`, `rounding_differs`, `first_frame_twice`

### C68 — What a command line does to the files

Modelled: `main` of test/main/main.cpp (Model/Main.lean) on top of the argument parser, loaders, generator, factories, stream writer and reader and run loop of the other properties. Not modelled: what it prints, failing writes (C40), the random generator (the triples are given). Proved (Props/C68): `refused`, `only_output_touched`, `fresh_run_stream`, `resumed_run_stream`, `no_dump_empties`, `unknown_ignored`, `resume_ignores`, for every engine, solver and arithmetic. `options_reach_the_steps` (Props/C68_Options): the options of every solver, with the defaults of README.md, are the arguments of the calls its step makes on the engine.

Status: **proved**. The program as a function from command line and files to exit code and files.

Theorems (namespace `NB.C68`): `options_reach_the_steps`, `refused`, `only_output_touched`, `fresh_run_stream`, `resumed_run_stream`, `no_dump_empties`, `unknown_ignored`, `resume_ignores`, `defaults`, `one_part`

### C75 — The player shows the frame its slider stands at and records the frames in order

Modelled: the player's frame reading, slider, recording loop and whole sessions (Model/PlayerStream.lean) on top of the stream reader of Model/Stream.lean; painting is an arbitrary function of the state of the view and the data. Proved (Props/C75): `shows_slider` and `recordings_right` by induction over sessions, `recording_complete_partial` for undisturbed recordings; the violations are `opens_blank`, `single_frame_lost`, `last_frame_lost` `unindexed_shown`, `torn_positions` and `torn_velocities`. Partial: completeness needs two frames or an unread stream, and an undisturbed slider.

Status: **partial**. Completeness of a recording is proved for undisturbed recordings of at least two frames or an unread stream; the excluded cases are proved to lose images.

Theorems (namespace `NB.C75`): `shows_slider`, `opens_blank`, `recordings_right`, `recording_complete_partial`, `single_frame_lost`, `last_frame_lost`, `torn_positions`, `torn_velocities`, `unindexed_shown`

### C76 — Recorded images are complete, named by their frame and in order

Modelled: QString::arg with numbered place markers, the template of names, and the queue of the compressor as a transition system with any schedule of the pool (Model/Compressor.lean). Specification: place markers as shapes of text (`LowMark`). Proved (Props/C76): `names_in_destination`, `names_elsewhere`, `names_distinct`, `names_ordered_partial` (up to 10^8, `names_unordered` after), `all_saved_once` (bound of the queue, termination, each image once), `images_on_disk`. Not modelled: the PNG encoder, failures of the disk, aliases of one file under several names, digits of other scripts, the locale's digits for %L markers.

Status: **partial**. Order of names up to frame 10^8 and place of the files for directories without low place markers; both exclusions are proved to fail.

Theorems (namespace `NB.C76`): `names_in_destination`, `names_elsewhere`, `names_distinct`, `names_ordered_partial`, `names_unordered`, `all_saved_once`, `images_on_disk`

### C77 — The player's window shows the bodies, each pane once

Modelled: setup_view_box, the four panes, the matrices of gluLookAt and gluPerspective with OpenGL clipping, the stereo cameras, mouseDoubleClickEvent (Model/View.lean), in exact arithmetic. Specification: pixels covered by rectangles, boxes of frames, perpendicular cameras. Proved (Props/C77): `box_of_first_frame` by induction over the painted frames, `first_frame_visible`, `panes_tile`, `double_click`, `zoom`, `stereo_pair`; the violations are `nothing_visible` with the instance `black_window`, and `history_matters`. Partial: rounding, pixel ratios other than 1, the course of the animation, visibility in stereo.

Status: **partial**. Visibility is proved for exact arithmetic and boxes between the near and the far plane; outside, and for later frames, it is proved to fail.

Theorems (namespace `NB.C77`): `box_of_first_frame`, `first_frame_visible`, `nothing_visible`, `panes_tile`, `double_click`, `stereo_pair`, `black_window`, `history_matters`, `zoom`

### C71 — The devices named on the command line are the devices used

Modelled: select_devices of both GPU engines as functions of the text, the machine and the state of the engine (Model/Devices.lean); QString::toUInt and toInt are parameters. Specification: joined texts, entries, availability, and the way a user writes a choice. Proved (Props/C71): `opencl_accepts_iff`, `opencl_selects_written`, `same_context_right_partial` (new engines), `devices_stay`, `cuda_accepts_iff`, `cuda_default`; the violations are `same_context_wrong`, `refused_choice_stays`, `cuda_no_check`. Not modelled: the verbose listing, errors of the OpenCL runtime other than a device that cannot be built for.

Status: **partial**. Acceptance and result are characterised for every text and state; that the devices are those of the last choice holds for new engines and is proved to fail for a second or refused choice.

Theorems (namespace `NB.C71`): `opencl_accepts_iff`, `opencl_selects_written`, `same_context_right_partial`, `devices_stay`, `cuda_accepts_iff`, `same_context_wrong`, `refused_choice_stays`, `cuda_default`, `cuda_no_check`

### C78 — Smaller steps bring the simulation to the true motion

Modelled: nothing new; the programs of calls and the engines of C74, the tables of C17/C57. Specification (Spec/Motion.lean): Newton's equations with the softened force as derivatives of real functions, nearness coordinate by coordinate. Proved (Props/C78): existence by Picard-Lindelöf on a cut-off system and a bound of the velocities, uniqueness by Grönwall (`motion_exists`, `motion_unique`); softened gravity is globally Lipschitz (Lemmas/NewtonLipschitz), hence a discrete Grönwall argument (Lemmas/Converge) applies to every scheme whose step is a step of Euler's up to c d² times the speed (Lemmas/ConvergeSteps, ConvergeRK, ConvergeSchemes: explicit stages by induction, implicit sweeps as a contraction that also carries the stages kept from the step before, subdivision as a walk of substeps, Stetter's pair as a doubled system, extrapolation as a combination of levels of total weight one, the multistep ring with derivatives up to five steps old): `every_solver_converges`, `enough_steps`; the tables of the library meet the condition (`explicit_tables`, `implicit_tables`, `feagin_tables`). The rate proved here is the first order, for any motion; the orders are C82. Adams is started by any of euler, midpoint, rk4, trapeze. Exact arithmetic.

Status: **proved**. Exact real arithmetic; first-order bound for any motion (the higher orders, for motions off the kink of the softened force, are C82). Feagin tables converge up to the rounding of their printed weights (1e-55). Barnes-Hut engines are C81.

Theorems (namespace `NB.C78`): `motion_exists`, `motion_unique`, `every_solver_converges`, `enough_steps`, `explicit_tables`, `implicit_tables`, `feagin_tables`

### C79 — Rounding errors of the direct sum are bounded by the number of roundings

Spec `FloatModel`: the standard model (+, −, ·, / and sqrt exact up to relative error u; comparison, change of sign, 0 and 1 exact; the constant 1e-8 rounded); `Spec.Bin p` is proved to be an instance with u = 2⁻ᵖ. Factors between (1−u)^k and (1−u)^(−k) are followed through the pair force and the terms of the kernels (`Rel`), absolute errors relative to the sum of sizes through the summation loops (`Err`), for the values `derivVal`, `blockDeriv`, `denseVal` that C02/C04/C70 prove the engines to store for any arithmetic. Partial: operations that overflow or underflow are excluded by the model (IEEE double has both), and so are compilers or GPUs that contract products and sums into fused operations.

Status: **partial**. Bounds for every arithmetic of the standard model, all engines, schedules and devices; overflow, underflow and contracted operations are outside the model.

Theorems (namespace `NB.C79`): `pair_force_partial`, `host_engines_partial`, `block_engine_partial`, `gpu_engines_partial`, `engines_agree_partial`, `net_force_partial`

### C80 — The error of the Barnes-Hut engines is bounded by the ratio

x/ρ³ is compared with its value at the centre of mass: to first order with the Lipschitz bound of the softened kernel, to second order with an exact algebraic remainder of its linear part, whose moments about the centre of mass vanish; induction over the tree with C26 (nodes describe their bodies) and C28; C34's evaluation over histories; GPUs through C72.

Status: **proved**. Exact arithmetic, ratio at least one, positive masses; host engine in cycle mode with all three layouts over all sequences of calls, and every GPU engine in lockstep with it.

Theorems (namespace `NB.C80`): `host_close`, `gpu_close`, `sequence_close`, `heap_close`, `stackless_close`, `any_accuracy`

### C81 — Every solver on every Barnes-Hut engine converges to the motion

Modelled (Model/TreeOps.lean): the operations of the Barnes-Hut engines as solvers use them, with the tree, the device copies of it and the step number as state of the engine. Specification: `Approximates` (Spec/Program.lean: a derivative is one of those permitted, everything else is exact) and C78's motion. Proved (Props/C81): `tree_approximates` with C80's `evaluation` as invariant on the tree (pointer layout), C60's `Same` (heaps), C72's `Lockstep` and the frame part of the buffer operations (`Gpu.Follows`: other buffers, the tree's among them, are untouched) for GPUs; an angelic sequence of derivatives explains every run (Lemmas/Oracle.lean `run_tally`), so C74's programs compute C78's schemes with a derivative that differs each time (`every_solver_on_every_tree`); C78's convergence allows an error of the derivative (`every_solver_converges`, `enough_steps`). Cycle traversal on the host (GPU: all four walks); exact arithmetic; new engines (tree empty) at the start.

Status: **proved**. Exact arithmetic; host engines with the cycle traversal (the default), GPU engines with all walks; first-order rate in the step and in 1/ratio. The engine is new when the run starts.

Theorems (namespace `NB.C81`): `tree_approximates`, `every_solver_on_every_tree`, `every_solver_converges`, `enough_steps`

### C82 — The error of a solver falls with the power of the step that its order says

Modelled: nothing new; the programs, engines and schemes of C74, C78, C81. Specification: C78's motion and nearness, `OffCutoff`. Proved: Butcher's theorem for explicit schemes without elementary differentials in coordinates (Lemmas/Butcher: a jet of the field along the solution, the expansion of stages and of the exact solution over rooted trees; Lemmas/ButcherExact), hence a local error of order p + 1 and a global one of order p for every step that meets the order conditions of C18/C57, uniformly over a compact arc (Lemmas/OrderSteps, OrderRK, OrderSchemes; implicit sweeps gain one order each, subdivision is a walk of substeps); the asymptotic expansion in even powers of the leapfrog pair and its extrapolation (Lemmas/Leapfrog, OrderPair); the multistep ring with the errors of its starter (Lemmas/OrderAdams); softened gravity is smooth off the softening distance (Lemmas/SmoothGravity). Props/C82: `order_of_convergence` (direct engines), `order_on_trees` (Barnes-Hut), `equal_steps`; the solvers and tables of the library: `explicit_tables`, `implicit_tables`, `feagin_tables`, `bs_documented`, `bs_threshold`. Exact arithmetic, upper bounds only.

Status: **proved**. Exact real arithmetic; upper bounds of the errors. Motions in which two bodies are exactly at the softening distance are excluded: the force has a kink there. rkck, rkdp, rkgl, rklc are stated with the order they have, not the documented one (C18).

Theorems (namespace `NB.C82`): `order_of_convergence`, `order_on_trees`, `equal_steps`, `explicit_tables`, `feagin_tables`, `implicit_tables`, `bs_documented`, `bs_threshold`

### C83 — The frames a run records lie near the true motion of the bodies

Modelled: nothing new but `recording`, the environment of `run` (C35) for the simulation of the program (Model/Sim, C67, C68) with a stream that keeps what it is given (what a stream on disk does with the frames is C37, C38, C68). Specification: C78's motion, `BodiesNear` (Spec/Frame: lists of vectors against positions and velocities). Proved (Lemmas/SimRun, Props/C83): N calls of `advise` of the simulation are one program on the machine with some sequence of derivatives, each as accurate as the engine (`steps_tally`), the clearing of the correction by Adams at its first step is accounted for (`adams_first`), hence by C82 or C78 the state after N steps is near the motion; the steps of the run are inside the span of the motion, inside the box `clamp` does nothing, and the frames are those of C36: `frames_near`, `frames_converge`; `tree_gravitates` gives the accuracy of Barnes-Hut. Exact arithmetic (so the stream is a list: real numbers have no bytes).

Status: **proved**. End to end in exact arithmetic: run loop, dump schedule, solver of the factory, engine of any stated accuracy, against the solution of the differential equation. Rounding is the subject of C79.

Theorems (namespace `NB.C83`): `frames_near`, `frames_converge`, `tree_gravitates`

### C84 — The orders of the solvers are no higher than proved, so some documented orders are missed

Modelled: nothing new; the programs and engines of C74. Specification: C78's motion and nearness; the twins (Lemmas/Circle), two bodies of masses 5e-13 which the softened law moves as harmonic oscillators. Proved: as a complex number the relative position and velocity of the twins turns as exp(it) and the derivative is multiplication by i near the motion (Lemmas/Circle); a scheme whose step multiplies it by exp(i dt) + c dt^(p+1) + O(dt^(p+2)), c ≠ 0, is off by at least a constant over N^p after N steps, since the errors add up with the same sign (Lemmas/Drift, Sharp); for an explicit table c comes from the tall trees (Lemmas/TallTrees, SharpRK), for implicit ones from the sweep that starts from the stages of the step before; Adams: the recurrence with its starting values, either the truncation error of the ring or the error of the first steps (Lemmas/SharpAdams); the tables by exact arithmetic (Lemmas/SharpTables). `exact_order`, `error_at_least`, `no_higher_order`; instances `tables`, `adams_orders`; `twins_move`. Examples: rkdp is not of order 5 on the sequential engine; Adams of rank 5 with the default starter is of order exactly 2.

Status: **proved**. Exact real arithmetic. Not covered: midpoint-st, bs and the Feagin tables, whose upper bounds are C82; the lower bound for rk tables needs no recursion or a positive threshold.

Theorems (namespace `NB.C84`): `error_at_least`, `exact_order`, `no_higher_order`, `tables`, `twins_move`, `adams_orders`

### C85 — In floating point the explicit solvers, Stetter and Adams-Bashforth follow the motion up to the truncation error and a share of rounding per step

Modelled: nothing new; the programs of the solvers (Model/SolverCalls) and the engines for scalars of any type. Specification: `Spec.FloatOps` (C79's arithmetic with exact copies and comparisons; `Bin p` an instance), `Spec.Outcome`: what the buffers may hold after a program of engine calls, whatever number `fmaxabs` returns (so every decision of the recursion is allowed); C78's motion and nearness. Proved: every program ends in such an outcome on every engine that performs the calls (Lemmas/RoundCalls); an outcome of each solver is a walk of rounded steps of its scheme, whose substeps add up to the step (Lemmas/RoundSolvers: sums by factors between (1-u)^k and (1-u)^-k, also where the rounded coefficients differ from the printed ones); the derivative of each engine is within a multiple of u of the gravity (C79, Lemmas/RoundEngines); a walk of rounded steps stays near the solution (Lemmas/RoundSteps). `rounded_convergence_partial`, `rounded_equal_steps_partial`, `rounded_attains_partial`, `explicit_tables_covered`; `rounded_stetter_partial` (the pair of Stetter, Lemmas/RoundPair), `rounded_adams_partial` (the ring of derivatives holds what the engine computed, the starter leaves it alone, the steps after the start obey the growth lemma of C78: Lemmas/RoundMulti). Example: Dormand-Prince with coefficients rounded to p bits and two levels of subdivision, on the sequential engine; Stetter; Adams of rank 5 started by Dormand-Prince. Partial: no overflow, underflow, NaN or contraction (as C79); not covered are bs, the implicit tables, compensated sums and the Barnes-Hut engines, which C78-C82 treat in exact arithmetic.

Status: **partial**. Every arithmetic of the standard model, all direct-sum engines and executions. Outside: overflow, underflow, NaN, contracted operations; bs, implicit tables, correction (see C87), Barnes-Hut engines.

Theorems (namespace `NB.C85`): `rounded_convergence_partial`, `rounded_equal_steps_partial`, `rounded_attains_partial`, `explicit_tables_covered`, `rounded_stetter_partial`, `rounded_adams_partial`

### C86 — From the bodies put in to the bodies taken out

`create_buffer`, `init` and `get_data` of the GPU engines (Model/GpuInit.lean: replicas with arbitrary contents, refused memory, the vector `ytmp`, the copies by every interleaving) and of the engines on the host. `gpu_round_trip`: identity for every number of devices that divides the elements; `loads`: what C69–C85 assume of the memory holds after `init` and the creation of the buffers; `reads`; `end_to_end` composes this with C82, `end_to_end_rounded_partial` with C85 (partial for the same reasons). `cuda_without_memory`, `opencl_without_devices`: the failures reported. Violated: the GPU engines take the number of bodies from the target of `get_data`, so `smaller_target` gets wrong bodies and `larger_target` is an access out of bounds. Adams–Bashforth with correction and the Barnes–Hut engines are not in `end_to_end` (C83 has them, from the contents of the buffers on). `solver_without_memory`: a buffer of the solver that some device refuses makes `create_buffers` fail (null in CUDA, an exception in OpenCL).

Status: **partial**. Loading, reading and the end-to-end bound in exact arithmetic are proved; the rounded version is partial as in C85; the GPU engines return wrong bodies or read out of bounds if the target of get_data has another number of bodies (proved).

Theorems (namespace `NB.C86`): `gpu_round_trip`, `smaller_target`, `larger_target`, `cuda_without_memory`, `solver_without_memory`, `opencl_without_devices`, `loads`, `reads`, `end_to_end`, `end_to_end_rounded_partial`

### C87 — With correction the rounding errors of the steps of the table-driven solver do not add up, without it they do

`Props/C87_Corrected.lean`. The table-driven solver is the call program of `Model/SolverCalls` (`rkCalls` with `correction`), run on the engines of C69/C70 with scalars of any arithmetic satisfying `Spec.FloatOps` (C79). The invariant is the compensated state `y - ycorr`: a corrected addition changes it by the added products up to `2u` of these products plus `u²` of `y` (`Lemmas/RoundCorr`), so a step of length d is off by `C (d (δ^p + u) + u²)`; the subdivision is followed by induction on its depth; `Lemmas/RoundCorrSteps` sums over the run. `corrected_convergence_partial`, `corrected_many_steps_partial` (N u ≤ 1), `tables_corrected_partial` (all explicit tables), `uncorrected_drift` (exact error N u / 2 in binary arithmetic on every engine), `uncorrected_fails` (the claim is false without correction, the hypotheses being met). Partial: no overflow, underflow or NaN; implicit tables and the correction of Adams-Bashforth are not covered.

Status: **partial**. Proved for every explicit table, engine and arithmetic of unit roundoff u; the counterpart without correction is disproved (uncorrected_fails). Missing: overflow, underflow and NaN; implicit tables; correction in Adams-Bashforth.

Theorems (namespace `NB.C87`): `corrected_convergence_partial`, `uncorrected_drift`, `uncorrected_fails`, `corrected_many_steps_partial`, `tables_corrected_partial`

### C88 — The lines a run prints describe its moments relative to the first line

Modelled: `print_statistics` (Model/Statistics.lean) on the sums of Model/Summation.lean, quotients that may be infinite or not a number, `size_t` differences modulo 2^64. Not modelled: the digits printed, the two wall-clock times, rounding. The specification has its own sums, lengths and the relation `Percent`. Proved (Props/C88_Statistics, C88_CentreMotion): `lines_of_reports` by induction over the reports with the values of the first line as invariant, `conserved_partial`, `centre_speed_partial` (true at a first report at time 0, times (t - t1)/t otherwise), `since_last`, `run_centre_speed` on the run loop of C35, `rk_uniform` (explicit tables, by the accepted steps of C19) and `run_understates_drift` (four solvers on the direct-sum engine). Partial: the code violates the full statement in the two ways named.

Status: **partial**. The printed speed of the centre of mass is too small by the factor proved, and a conserved quantity that is zero is printed as not a number; all else holds. Exact arithmetic; the two wall-clock times are not modelled.

Theorems (namespace `NB.C88`): `rk_uniform`, `run_understates_drift`, `lines_of_reports`, `conserved_partial`, `centre_speed_partial`, `since_last`, `run_centre_speed`

### C89 — The buttons of the player

Model/PlayerControl.lean: the slider, the animation's state and time, the enabled actions, the five slots with their connections, the range set by the constructor (undefined at 2^31 frames); a history of events is a fold. Proved by an invariant over all histories (buttons_tell_state), by induction over the ticks (plays, first_frame_not_played), by computing the states (pause_start, start_ignores_slider), and by feeding the slider's signals to the player of C75 (player_shows_partial). Partial: what QAbstractAnimation, QPropertyAnimation, QSlider and QAction do is taken from Qt's documentation, not from code of the repository; the interpolation is without the rounding of the product; the two disagreements of the statement are theorems (start_ignores_slider, first_frame_not_played).

Status: **partial**. Buttons, slider and shown frame after any history; Qt's animation and slider are modelled from its documentation; disagreements: Start ignores the slider, the first frame is not shown when played from a fresh player.

Theorems (namespace `NB.C89`): `buttons_tell_state`, `too_many_frames`, `plays`, `pause_start`, `start_ignores_slider`, `player_shows_partial`, `first_frame_not_played`

### C90 — The writer of a stream on a disk that may be full

Model/StreamFaults.lean (the writer with the buffers of QFile and QTextStream; the operating system as an arbitrary sequence of answers), Props/C90_DiskFull.lean. (a) `room_as_unbuffered`: a simulation relation `Same` between the buffered writer and the writer of C37, kept by every call. (b) `failed_write_keeps_frames`: a failed call only appends to the current part, makes a new part or rewrites nothing (`Harmless`), so the crash theorem of C40 applies. (c) `large_frames_noticed`. (d) `index_failure_silent` and (e) `full_disk_unnoticed` prove the violation: the results of `m_data.flush()` and `m_idx_stream.flush()` are not looked at, and `full_disk_noticed` that its bound is exact. (f) `large_first_frame_noticed`. (g) `data_file_complete`: what the file holds plus what the buffer holds is the sequence of all frames, an invariant of every call on every disk; `part_change_loses_frame` is the witness that it fails with parts. Partial: (c) only for frames whose blocks exceed the buffer of QFile, because for smaller ones the property fails. Trusted: the behaviour of QFileDevice and QTextStream as described at the head of the model.

Status: **partial**. A failed write never damages earlier frames (proved). That a write that returned 0 is on the disk holds only for large frames with an index stream whose status is Ok; index_failure_silent and full_disk_unnoticed prove that it fails otherwise. data_file_complete (bytes refused by the disk are kept for later) holds for streams without parts; part_change_loses_frame proves that it fails with parts.

Theorems (namespace `NB.C90`): `room_as_unbuffered`, `failed_write_keeps_frames`, `large_frames_noticed`, `index_failure_silent`, `full_disk_unnoticed`, `full_disk_noticed`, `large_first_frame_noticed`, `data_file_complete`, `part_change_loses_frame`

### C91 — The reported momentum, angular momentum and energy of a run stay near those at its start

Props/C91_Conservation.lean; no new model: the run loop with every solver of the factory (C83) and the statistics lines (C88). The exact motion conserves the three quantities (C58, mean value theorem on the interval of the motion); they are Lipschitz near a motion that stays above the cutoff (compactness gives a bound and a gap); C83 bounds the distance to the motion. `conserved_near`, `printed_deviations`. Exact arithmetic; quantities that are zero at the start are excluded from the second theorem because their percentage is not a number (C88).

Status: **proved**. Exact arithmetic; pairs above the cutoff (below it the reported energy is not conserved: C58).

Theorems (namespace `NB.C91`): `conserved_near`, `printed_deviations`

### C92 — The tables of the benchmark and of the comparison with the ephemeris

Model/Bench.lean (compare_data, the two visitors, reading of the table when it is printed, run_bench, which states `get_data` stores), Lemmas/Bench.lean, Props/C92_Bench.lean. Specification: `dist3`, `mean`, `late`, `tableRow`, `orbitRow`, `cellRun`, written over functions of the body number, not over the loops. (a) `compare_data`, `compare_nothing`, `bench_compare`, `bench_compare_counts`. (b) `comparator_table_partial`, `comparator_minimum_partial` by induction on the visits (`TableIs`), for expected states with as many bodies as the run; `comparator_fewer` and `comparator_more` prove the undefined behaviour otherwise. (c) `orbit_table`. (d) `bench_table`, `bench_failure`, by induction on the two loops. (e) `end_state_any_clock_partial` for any clock, `end_state_partial` for an exact one; `end_state_stale_any_clock`, `end_state_stale` and `end_state_unchecked` prove that the state saved is otherwise an older one. Exact arithmetic except that the mean over no bodies is a NaN; the comparisons of times are exact, the clock itself is arbitrary. Not modelled: the text around the numbers, the styles of the plots, the measured time.

Status: **partial**. Tables and run_bench proved for all inputs; the comparison table needs an expected state with as many bodies as the run (comparator_fewer, comparator_more prove undefined behaviour otherwise). The end state is that of the last step only when the clock does not come within a tenth of a step of max_time before reaching it (end_state_stale_any_clock, end_state_stale, end_state_unchecked prove that it is older otherwise). Exact arithmetic apart from the clock.

Theorems (namespace `NB.C92`): `compare_data`, `compare_nothing`, `bench_compare_counts`, `bench_compare`, `comparator_table_partial`, `comparator_minimum_partial`, `comparator_fewer`, `comparator_more`, `orbit_table`, `bench_table`, `bench_failure`, `end_state_any_clock_partial`, `end_state_stale_any_clock`, `end_state_partial`, `end_state_stale`, `end_state_unchecked`

### C93 — A recorded video holds the pictures that were drawn

Model/Video.lean (`create_compresser`, the dialog, the bytes of a `QImage` in 24 bits with lines padded to four bytes, the `cv::Mat` laid over them without a step, `push_frame` with any sequence of outcomes of `open`), Props/C93_Video.lean. `video_image_partial` computes the byte at every position of the concatenated lines (`block_get`); `video_image_sheared` and `video_image_differs` prove the failure for other widths; `video_image_defined` that no read leaves the memory. `recording_partial`, `recording_complete` (the size the player renders), `recording_silent`. `avi_name`, `record_choice`. Not modelled: the encoder, the conversion of the frame buffer to a picture.

Status: **partial**. Proved for all pictures whose width is a multiple of four, which includes the only size the player renders (recording_complete); video_image_sheared and video_image_differs prove that other widths are recorded wrongly. A file that cannot be opened is not reported (recording_silent).

Theorems (namespace `NB.C93`): `video_image_defined`, `video_image_partial`, `video_image_sheared`, `video_image_differs`, `recording_partial`, `recording_complete`, `recording_silent`, `avi_name`, `record_choice`

### C94 — Text snapshots keep every bit of float and double numbers

Spec/Decimal.lean (binary and decimal numbers of a fixed number of digits, nearest numbers), Model/TextNumber.lean (the scientific notation, the precisions `save` asks for, printing and reading of a coordinate), Lemmas/Decimal.lean, Props/C94_TextNumbers.lean. `text_formats`: two different numbers of p bits are at least the 2^p-th part of either apart (`float_gap`), a nearest decimal with d digits after the first is off by at most |x|/(2·10^d) (`decimal_exists`, `nearest_err`), and 2^53 < 10^16; the printed number neither overflows nor underflows (`printed_range`). `snapshot_exact_partial` puts it into the round trip of C44. `no_digit_to_spare`, and for quads `quad_double`, `quad_lost`, `quad_error`, `quad_digits`. The printer of QTextStream, `quadmath_snprintf` and `QString::toDouble` are not modelled: the theorems hold for all that round to nearest (`PrintsNearest`, `ReadsNearest`), and such exist (`printer_exists`, `reader_exists`). Missing: infinities, not-a-numbers, the sign of zero; the claim is false for quads.

Status: **partial**. Proved for all finite float and double values and all correctly rounding printers and readers; refuted for __float128 (read as double, printed with 21 digits). Infinities, NaNs and the sign of zero are not modelled; the printer and reader of Qt are assumed to round to nearest.

Theorems (namespace `NB.C94`): `text_formats`, `snapshot_exact_partial`, `no_digit_to_spare`, `quad_double`, `quad_lost`, `quad_error`, `quad_digits`

### C95 — The times of recorded frames are kept to six digits

Model/FrameTime.lean (the settings of the index's QTextStream and what is asked of printer and reader), Spec/Decimal.lean, Props/C95_FrameTimes.lean. `frame_times_partial` gives the hypothesis `TextGood` of the stream properties (C37 to C43, C62, C67) for doubles, with the bound on the rounding, exactness for six digits, monotony and idempotence; it is the `rnd l.time = l.time` of C67 that holds for times of six digits. Nothing printed overflows or underflows (`six_range`: no decimal of six digits lies between the greatest double and the next power of the grid); idempotence because different decimals of six digits are farther apart than doubles (`decimal_gap`, `double_near`, `decimal_back`). `short_times`, `times_merge`. Missing: that all times come back, which `times_merge` refutes; infinities, not-a-numbers; the printer and the reader of Qt are any that round to nearest (`text_exists`: there are such).

Status: **partial**. Proved for all doubles and all correctly rounding printers and readers: error bound, exactness for six digits, order, idempotence. That every time comes back is false (times_merge).

Theorems (namespace `NB.C95`): `short_times`, `frame_times_partial`, `times_merge`

### C96 — What a GPU kernel reads through a texture is what is in the buffer

Model/Texture.lean (`setup_texture_type`, `smemory::tex` with its cache per device, the destructor, `tex1Dfetch` on 32-bit words, `__hiloint2double`, both `nb1Dfetch`), Props/C96_Textures.lean. `double_fetch`, `double_fetch4`, `float_fetch`, `float_fetch4` for all buffers and positions; `one_size` by induction over the requests with an invariant of the cache; `other_size` and `group_overflow` show where it ends. Specification: the little-endian words of a 64-bit pattern (`words`). This is what the model of the kernels (C56, C72) takes for granted when it reads the columns of the tree. Not modelled: the size limit of textures, failing CUDA calls; fetches outside the texture are errors of the model.

Status: **proved**. Bit patterns, all buffers and positions, all sequences of requests with one element size (as the engine makes them).

Theorems (namespace `NB.C96`): `double_fetch`, `double_fetch4`, `float_fetch`, `float_fetch4`, `one_size`, `other_size`, `group_overflow`

### C97 — How many steps a run can make

Model/FloatClock.lean (`advise_time` with the rounding of the machine), Model/Run.lean, Spec/Decimal.lean, Props/C97_FloatClock.lean. C35 has a clock without rounding; here the clock is rounded to any nearest number of p bits. `run_returns_partial`: below 2^(p-1) steps each step moves the clock by at least half a step (`moves`: the multiples of the largest power of two below the step are representable there), so the loop ends, by induction on the iterations. `short_run_exact`: exact while multiples of the step are representable. `long_run_never_returns`: 2^p * 2^e is never passed by steps below 2^e (`above`, `stays`), so beyond 2^(p+1) steps the loop has an invariant that keeps it going. `power_of_two_limit`: for a step that is a power of two and ties rounded to even the limit is 2^p steps exactly (the clock is `min n 2^p` steps, by induction). Missing: other steps, for times between 2^(p-1) and 2^(p+1) steps. That one `advise(dt)` ends in one `advise_time(dt)` is the structure `FloatClock`, read off the solvers cited there. `rounds_exists`: there are such roundings.

Status: **partial**. Proved for every step, rounding direction of ties, precision and solver: runs below 2^(p-1) steps return near the requested time, runs above 2^(p+1) steps never return; for steps that are powers of two the limit is exactly 2^p. That every run returns is false (long_run_never_returns); for other steps nothing is proved between the two bounds.

Theorems (namespace `NB.C97`): `long_run_never_returns`, `run_returns_partial`, `short_run_exact`, `power_of_two_limit`


## What is not modelled

* Qt itself, the C++ standard library, CUDA/OpenCL runtimes (only the documented effect of the calls used).
* Rounding, NaN, infinities and overflow of floating point, except where a theorem is generic in the scalar; C64 treats rounding of sums, C79 of the direct sum, C85 and C87 of whole runs (no overflow, no underflow, no NaN).
* Rendering of the player, the video encoder, profiling output, logging.
* Of /repo/test only the unit-test helpers and the programs test/bench and test/solar are considered, and of the latter two what C92 lists; the parameter sets they benchmark are not.
* `nbody_solver_stormer` has no behaviour (its `advise` is empty in the source).

## Where the code disagrees with its claims

Each of these is a theorem (a negation with a witness, usually for a whole class of inputs):

* C18: the embedded tables of rkck, rkdp, rkgl and rklc do not have the orders that their names or the README suggest (see the theorems for the exact orders).
* C20: adaptive solvers with `substep_subdivisions = 0` do not advance but count a step.
* C22: Berrut interpolation divides by zero at a node.
* C23: the Bulirsch-Stoer step counter and the effect of small `max_level`.
* C33: the visitor with coincident bodies or ratio 0 never reaches the bodies.
* C27/C32: the heap index arithmetic is limited by 32-bit `int` at 2^31 bodies.
* C36: with `dump_dt` below a tenth of the step the dumps have gaps.
* C37: a stream of data with box size 0 (a new object filled by `add_body` or `load`) is written but cannot be loaded.
* C40: a process that dies inside an index line can leave a stream that does not load, or that loads with a frame at a wrong offset.
* C41: the last frame can be read once only; `seek` to it does not rewind.
* C42: a writer that has written a frame cannot write a second loadable stream.
* C43: a reader that has read a frame never delivers the masses and colours of a second stream, and accepts a stream without header.
* C59: a heap object built again for fewer bodies loses forces.
* C62: streams `x` and `x1` share files.
* C46: a Zeno file with text instead of numbers is accepted, the numbers become 0.
* C47: `make_universe(0, …)` asks for 2^64 - 1 stars; the outer half of the second galaxy lies outside the box.
* C54: with NaN values `is_equal` calls different states equal.
* C63: negative coordinates do not count for the box, so loaded bodies may lie outside it.

* C65: the trapezoidal solver evaluates its corrector at the old time (harmless for the engines of the repository, which ignore the time).
* C48: an argument whose value contains `=` is ignored.
* C50: `--solver=adams --starter_solver=adams` recurses until the stack is exhausted; `rk_butcher` from the README is not accepted; ranks outside 1..5 are accepted and the first step is undefined.
* C66: a solver destroyed before its engine was set, or an adams solver destroyed before its first step, uses a null pointer.
* C51: the CUDA engine accepts device counts that are no power of two; then some device computes with stale blocks.
* C52: with such a count the sum over the devices counts contributions twice.
* C70: with a number of bodies per device that is not a multiple of 64 the OpenCL engine throws out of `fcompute`; the CUDA engine skips the last bodies of every device (their derivative stays what it was), reads past the masses, or ends the program.
* C69: `copy_buffer(a, a)` throws on OpenCL only; `fmaddn_corr` with a missing buffer has already added the terms before it on OpenCL, and does nothing on the other engines; elementwise operations on CUDA leave out the numbers after the last multiple of 64 of each device.
* C53: the player reads outside its colour table for relative speeds between 3/4 and 1, and converts NaN to an index when all bodies of the first frame have the same velocity and one rests.
* C58: below the cutoff the reported potential energy is 0 although the bodies attract each other, and it jumps at the cutoff.
* C73: `fmaxabs` of the OpenCL engine uses groups of 4 work items whatever the size, so with a number of blocks that is not a multiple of 4 (64 bodies, block 64, one device: 6 blocks) it throws out of the first step of every embedded Runge-Kutta solver. (An OpenCL 2.0 program compiled with `-cl-std=CL2.0` may accept such ranges; the engine does not pass that option.)
* C67: a resumed run has a box of size 0, so `--clamp` does nothing after resuming; Adams, Stetter, compensated and implicit solvers and engines with memory start again; the time is read from the printed index, so the clock of a resumed run is rounded; a stream whose only frame is at time 0 gets this frame twice.
* C68: a run with a dump step that is not positive removes the old stream and leaves one that cannot be loaded; misspelt options are ignored without a word.
* C75: the constructor of the player does not read a frame: until the slider moves, all bodies are shown at the origin although the slider stands at frame 0. Seeking to the frame that is already current fails at the end of the file, so a stream of one frame that was shown cannot be recorded, and a recording whose last frame was just shown by the slider loses it.
* C76: `set_destination` creates the directory `d`, but `(d + "/%1.png").arg(n)` replaces every marker with the least number, also inside `d`: for `run%1` the images go to `run00000007/00000007.png`, which does not exist; the result of `save` is never looked at.
* C77: the near and far planes of the view are 1 and 1000 whatever the data: at scale 100 % a stream whose first frame has a box diagonal above 667 (the margin doubles it to 1333) is a black window, `black_window`. The box is never recomputed, so pictures and recordings depend on which frame was painted first, `history_matters`.
* C71: `select_devices` of the OpenCL engine appends to `m_devices`, also when it returns -1, and sets `m_all_in_same_context` from the last list alone. (The factory calls it once on a new engine, so only users of the class are concerned.)
- C82: README.md documents "up to 5" for adams; the default starter is euler (nbody_solvers.cpp:24), with which the order proved is `min rank 2`. README.md documents 2*`max_level` for bs; the loop leaves as soon as the estimate is below the threshold, and the order proved for a positive threshold is 6.
- C84: README.md documents order 5 for rkck and rkdp, 6 for rkgl, 4 for rklc and "up to 5" for adams. On a motion of two bodies the errors are at least a constant over N^4, N^4, N^2, N^2 and (with the default starter) N^2 (`NB.C84.no_higher_order`, `tables`, `adams_orders`).
- C86: `nbody_engine_opencl::get_data` and `nbody_engine_cuda::get_data` take the number of bodies from the `nbody_data` they are given, but the
  vector they read into has the size of the engine's problem (`C86.smaller_target`, `C86.larger_target`); the engines on the host use
  their own count.
- C88: `print_statistics` divides the way of the centre of mass since the *first report* by the absolute time (nbody_data.cpp:131). `nbody_solver::run`
  makes its first report at the first check, not at the start, so the printed speed is j/(j+1) of the true one at report j of a run from time 0
  (`C88.run_understates_drift`), and less in a resumed run. A momentum that is zero, and stays zero, is printed as "nan" percent
  (`C88.conserved_partial`).
- C89: a user who pauses, moves the slider to another frame and presses Start expects playing to go on from there. `on_start` starts the animation, which has its own time: the slider jumps back to where the pause was (or to frame 0 if nothing was playing). Theorem `start_ignores_slider`.
- C89: a user who opens a stream and presses Start expects to see the first frame. The slider stands at 0 already and gives no signal, so the player reads nothing until the animation reaches the second frame: bodies at the origin are drawn. Theorem `first_frame_not_played`.
* C90: `nbody_data_stream::write` ignores the results of `m_data.flush()` (nbody_data_stream.cpp:152) and `m_idx_stream.flush()` (159). A failure to write an index
  line is therefore never reported and ends the index for good (`index_failure_silent`), and a stream whose frames fit the buffer of `QFile` is "written"
  successfully to a full disk, leaving only empty files (`full_disk_unnoticed`). Bytes that are still refused when a part is closed are lost silently even if the disk has room again afterwards (`part_change_loses_frame`).
* C92: the benchmark saves and compares the contents of the data object after the run, but without a stream the data object is only filled at a check, and
  the check of the default `check_step = max_time` fires up to a tenth of a step before `max_time` (bench.h:92-93, nbody_solver.cpp:82). If the clock falls short of
  `max_time` by less than that, which rounding makes it do for instance for ten steps of 0.1 in double precision (an example beside the theorem computes this), the run makes one more step and the state saved is that of the step before (`end_state_stale_any_clock`).
* C92: `plot_period` ignores the result of `load_init` (solar/main.cpp:300) and `visit` uses the number of bodies of the run for the expected state; a missing or
  different expected file leads to reads outside the arrays (`comparator_fewer`, `comparator_more`).
* C93: `nbody_frame_compressor_opencv::push_frame` takes the lines of the picture to follow one another without gaps (opencv.cpp:44), but the lines of a `QImage` are padded to
  four bytes; right for the 1920 pixels that are rendered, sheared for any width that is no multiple of four (`video_image_sheared`). A file that cannot be opened is only logged: the recording goes through all frames and records nothing (`recording_silent`).
* C94: `load` reads every number with `toDouble` (nbody_data.cpp:483,497) and the quad printer writes 21 digits (nbtype_quad.h:59) where 36 are needed, so in a build with
  `__float128` a saved text snapshot does not restore the state (`quad_lost`, `quad_digits`).
* C95: the index stream keeps QTextStream's precision of six digits (nbody_data_stream.cpp:56 sets none, unlike nbody_data.cpp:428), so times of long runs are rounded and frames in a row
  can have the same time (`times_merge`); a resumed run continues with the rounded time (C67 `rounding_differs`).
* C97: `m_time += dt` (nbody_data.cpp:179) accumulates in `nbcoord_t`. In a build with `float` the clock never passes 2^25 times the step and `run` never returns for a later `max_time`
  (`long_run_never_returns`).
