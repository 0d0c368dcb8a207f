{"id": "C01", "title": "Pair force obeys Newton's third law and is softened", "statement": "nbody_data::force(p1,p2,m1,m2) is the exact opposite of force(p2,p1,m2,m1); it is central (parallel to p1-p2), attractive, zero when the bodies coincide, unchanged when both bodies are translated, and its magnitude never exceeds G*m1*m2/MinDistance for non-negative masses, however close the bodies get.", "quantifier": "all pairs of positions in R^3 and all masses (non-negative for the bound)", "why_tests_cant": "The input space is six coordinates and two masses; the softening branch is entered only inside a tiny ball, and a sign slip there is invisible to trajectory comparisons.", "anchors": ["nbody/nbody_data.cpp: nbody_data::force", "nbody/nbtype.h: nbody::MinDistance", "nbody/vertex.h: vertex3"]}
{"id": "C02", "title": "Direct-sum engines exert no net force and no net torque", "statement": "For every body state with non-zero masses the accelerations a_i that fcompute of the simple engine stores satisfy sum m_i a_i = 0 and sum m_i (r_i x a_i) = 0, and the position part of the derivative is exactly the velocity part of the state.", "quantifier": "every number of bodies, all positions, velocities and non-zero masses", "why_tests_cant": "Conservation must hold for every configuration and every N; a finite run only shows a small drift of one configuration.", "anchors": ["nbody/nbody_engine_simple.cpp: nbody_engine_simple::fcompute", "nbody/nbody_data.cpp: nbody_data::force"]}
{"id": "C03", "title": "Parallel engine equals the sequential engine for every thread schedule", "statement": "The OpenMP engine's fcompute, fmadd, fmadd_inplace, fmaddn_corr, copy, fill and clamp produce exactly the buffers the simple engine produces, whatever order the parallel loop iterations are executed in; no arithmetic law is needed, so the equality is bit for bit.", "quantifier": "all buffers, all scalar semantics (including IEEE), every permutation / interleaving of the loop iterations", "why_tests_cant": "A test observes a handful of schedules; data races hide.", "anchors": ["nbody/nbody_engine_openmp.cpp: nbody_engine_openmp", "nbody/nbody_engine_simple.cpp: nbody_engine_simple"]}
{"id": "C04", "title": "Block engine computes the direct sum exactly when the body count is a multiple of the block size", "statement": "When the number of bodies is a multiple of 64 (and masses are non-zero) the block engine's derivative equals the simple engine's derivative in exact arithmetic, and it touches only elements inside its buffers; when the number of bodies is not a multiple of 64 it reads or writes outside a buffer.", "quantifier": "every body count, all positions, velocities, masses", "why_tests_cant": "Tests use counts that are multiples of 64; the equality is over all configurations and the failure over infinitely many counts.", "anchors": ["nbody/nbody_engine_block.cpp: nbody_engine_block::fcompute", "nbody/nbtype.h: NBODY_DATA_BLOCK_SIZE"]}
{"id": "C05", "title": "Ahmad-Cohen engine splits the direct sum without losing or duplicating a pair", "statement": "A full recomputation returns the direct-sum derivative whatever the neighbour criterion; a following sparse recomputation at the same positions returns the same derivative; for every pair the interaction is in exactly one of the neighbour list and the stored far force. Sparse recomputation before any full one, or a recompute rate of 0, is undefined behaviour.", "quantifier": "all body states, all max_dist and min_force thresholds, all recompute rates, all step numbers", "why_tests_cant": "Depends on a partition of all ordered pairs by two real thresholds.", "anchors": ["nbody/nbody_engine_ah.cpp: nbody_engine_ah::fcompute, fcompute_full, fcompute_sparse"]}
{"id": "C06", "title": "Loading a state into an engine and reading it back is the identity", "statement": "After engine->init(data), engine->get_data(out) into a data object of the same body count returns every position and velocity unchanged, and the six coordinate planes of the state buffer never overlap.", "quantifier": "every body count and every position/velocity value", "why_tests_cant": "An index slip in one plane is invisible when planes hold symmetric data; must hold for all counts.", "anchors": ["nbody/nbody_engine_simple.cpp: nbody_engine_simple::init, get_data"]}
{"id": "C07", "title": "Vector buffer arithmetic does what its documented formula says", "statement": "fmadd gives a=b+c*d, fmadd_inplace a+=b*c, fmaddn_inplace a+=sum b_k c_k, and fmaddn a = b + sum c_k d_k (a = sum c_k d_k for null b), for every list of coefficients including zeros; calls with a null coefficient array or more coefficients than buffers change nothing.", "quantifier": "all buffers, all coefficient lists, any number of terms", "why_tests_cant": "Coefficient zero is skipped by the code; whether skipping is harmless depends on the position and number of the zeros.", "anchors": ["nbody/nbody_engine.cpp: fmaddn_inplace, fmaddn", "nbody/nbody_engine_simple.cpp: fmadd, fmadd_inplace"]}
{"id": "C08", "title": "Compensated accumulation agrees with plain accumulation", "statement": "fmaddn_corr and summation_k produce exactly the plain sum and leave the correction at zero when arithmetic is exact, for any order and number of terms, and never touch elements other than their own index.", "quantifier": "all term lists, all buffers, all coefficient lists", "why_tests_cant": "Sign errors in the correction cancel on short sums.", "anchors": ["nbody/summation.h: summation_k", "nbody/nbody_engine_simple.cpp: fmaddn_corr"]}
{"id": "C09", "title": "fmaxabs returns the largest absolute value", "statement": "fmaxabs returns a value that is attained by some |a_k| and bounds every |a_k|, independently of how the OpenMP reduction groups the elements; with zero bodies it reads outside the buffer.", "quantifier": "all buffers of any non-zero length, every grouping of the reduction", "why_tests_cant": "Maximum at every position and every reduction tree.", "anchors": ["nbody/nbody_engine_simple.cpp: fmaxabs", "nbody/nbody_engine_openmp.cpp: fmaxabs"]}
{"id": "C10", "title": "Periodic clamp wraps positions into the box", "statement": "clamp(y,b) changes each position coordinate by 0 or exactly +-2b, never touches velocities, leaves coordinates already inside [-b,b] alone, puts into [-b,b] every coordinate with |x|<=3b, and is idempotent on such states; coordinates further out stay outside.", "quantifier": "all coordinates and all non-negative half-widths b", "why_tests_cant": "Boundary values and multi-box escapes.", "anchors": ["nbody/nbody_engine_simple.cpp: clamp", "nbody/nbody_engine_openmp.cpp: clamp", "nbody/nbody_engine_opencl.cl: ClampCoord"]}
{"id": "C11", "title": "Energy and momentum diagnostics count every pair once", "statement": "The potential energy reported by print_statistics equals the sum over unordered pairs of -G m_i m_j / r_ij (pairs closer than the cutoff contribute 0), kinetic energy equals sum m v^2/2, momentum, angular momentum and mass centre equal their textbook sums.", "quantifier": "all body states of any size", "why_tests_cant": "Pair counting over n^2 indices by division and remainder.", "anchors": ["nbody/nbody_data.cpp: print_statistics, potential_energy", "nbody/summation_proxy.h"]}
{"id": "C12", "title": "Every fixed-step solver preserves linear invariants", "statement": "If a linear functional of the derivative vanishes for every state (such as total momentum under direct sum), one advise() of Euler, midpoint, RK4, trapeze, Stetter midpoint, Adams and any Butcher-table solver leaves that functional of the state unchanged, for any step size and any history.", "quantifier": "all derivative functions, all states, all step sizes, all histories", "why_tests_cant": "Quantifies over derivative functions and unbounded step sequences.", "anchors": ["nbody/nbody_solver_euler.cpp", "nbody/nbody_solver_rk4.cpp", "nbody/nbody_solver_midpoint.cpp", "nbody/nbody_solver_trapeze.cpp", "nbody/nbody_solver_midpoint_stetter.cpp", "nbody/nbody_solver_adams.cpp", "nbody/nbody_solver_rk_butcher.cpp"]}
{"id": "C13", "title": "One advise() advances simulation time by exactly dt and the step counter by one", "statement": "After advise(dt) the engine's time has grown by dt and its step counter by 1, for every solver. (The Bulirsch-Stoer solver advances the step counter by the number of internal substeps plus one, and the Stormer solver advances nothing.)", "quantifier": "all solvers, all dt, all solver configurations, all histories", "why_tests_cant": "Step counter feeds tree rebuild and recompute schedules; nested solvers advance it internally.", "anchors": ["nbody/nbody_data.cpp: advise_time", "nbody/nbody_solver_bulirsch_stoer.cpp: advise", "nbody/nbody_solver_stormer.cpp"]}
{"id": "C14", "title": "Adams-Bashforth solver uses the last rank derivatives in the right order", "statement": "From the (rank+2)-nd step on, advise() adds dt * sum_n a_n f(y_{k-n}) with the textbook Adams-Bashforth coefficients of that rank and the derivatives of the last rank states, for every number of steps taken; earlier steps are the starter solver's steps. Rank 0 and rank above 5 are undefined behaviour.", "quantifier": "all derivative functions, all ranks 1..5, unbounded numbers of steps", "why_tests_cant": "Ring-buffer index arithmetic must be right at every step number.", "anchors": ["nbody/nbody_solver_adams.cpp: advise, reset"]}
{"id": "C15", "title": "Adams-Bashforth coefficients have the advertised order", "statement": "For each rank k in 1..5 the coefficient row integrates every polynomial derivative of degree below k exactly over one step, and not every polynomial of degree k.", "quantifier": "all polynomials of the degree, all step sizes, all ranks", "why_tests_cant": "A transposed digit in one coefficient changes accuracy, not stability.", "anchors": ["nbody/nbody_solver_adams.cpp: a1..a5"]}
{"id": "C16", "title": "RK4, midpoint and Euler solvers coincide with their Butcher tables", "statement": "advise() of the dedicated RK4 solver equals one step of the Butcher-table solver with the rk4 table for every derivative function; Euler and midpoint equal the one- and two-stage schemes.", "quantifier": "all derivative functions, states, step sizes", "why_tests_cant": "Two implementations must agree on all right-hand sides.", "anchors": ["nbody/nbody_solver_rk4.cpp: advise", "nbody/nbody_solver_rk_butcher.cpp: sub_step_explicit", "nbody/nbody_butcher_table.cpp"]}
{"id": "C17", "title": "Butcher tables are well-formed", "statement": "Every shipped table with exact entries is consistent (the Feagin tables, printed as decimals, are in C57): weights sum to one, each node c_i is the sum of its row of a, explicit tables are strictly lower triangular with all accessed entries inside their arrays.", "quantifier": "all rows and entries of every shipped table with exact entries", "why_tests_cant": "Hand-typed constants; a wrong entry only lowers accuracy.", "anchors": ["nbody/nbody_solver_rkck.cpp", "nbody/nbody_solver_rkdp.cpp", "nbody/nbody_solver_rkdverk.cpp", "nbody/nbody_solver_rkf.cpp", "nbody/nbody_solver_rklc.cpp", "nbody/nbody_solver_rkgl.cpp", "nbody/nbody_butcher_table.cpp"]}
{"id": "C18", "title": "Runge-Kutta solvers have the order documented in the README", "statement": "The weights with which each Runge-Kutta solver advances the state satisfy the order condition of every rooted tree up to the documented order (rk4 4, rkck 5, rkdp 5, rkdverk 5, rkf 7, rkgl 6, rklc 4).", "quantifier": "all rooted trees of order up to p", "why_tests_cant": "There are infinitely many right-hand sides; the order is a statement about all of them via all trees.", "anchors": ["README.md: Integration methods", "nbody/nbody_solver_rk_butcher.cpp: sub_step (advances with b2)", "nbody/nbody_solver_rkck.cpp", "nbody/nbody_solver_rkdp.cpp", "nbody/nbody_solver_rkdverk.cpp", "nbody/nbody_solver_rkf.cpp", "nbody/nbody_solver_rkgl.cpp", "nbody/nbody_solver_rklc.cpp"]}
{"id": "C19", "title": "Adaptive Runge-Kutta subdivision covers the step exactly", "statement": "Whatever the error estimates, the accepted leaf intervals of an adaptive step are contiguous, start at t, end at t+dt, have lengths dt/s^k with k at most max_recursion, and the recursion terminates; a leaf deeper than the root is created only when the parent error exceeded the threshold.", "quantifier": "all derivative functions, thresholds, recursion limits, subdivision counts >= 1", "why_tests_cant": "The recursion tree depends on run-time errors; only finitely many shapes can be tested.", "anchors": ["nbody/nbody_solver_rk_butcher.cpp: sub_step"]}
{"id": "C20", "title": "Adaptive Runge-Kutta with zero subdivisions drops the step", "statement": "A step whose error exceeds the threshold is never silently lost: the state after advise equals the result of integrating the whole step. (Violated for substep_subdivisions=0: state unchanged while time advances.)", "quantifier": "all derivative functions and configurations", "why_tests_cant": "Configuration corner reached only on large errors.", "anchors": ["nbody/nbody_solver_rk_butcher.cpp: sub_step, set_substep_subdivisions", "nbody/nbody_solvers.cpp"]}
{"id": "C21", "title": "Neville extrapolation evaluates the interpolating polynomial at zero step", "statement": "After update_table on levels 0..k with values T_j, extrapolate(k) returns the value at 0 of the polynomial of degree at most k in (1/n)^order interpolating the values at the substep counts n_0..n_k; hence if the values are a polynomial of degree at most k in h^order the limit h->0 is returned exactly.", "quantifier": "all vectors of values, all strictly increasing substep sequences, all levels", "why_tests_cant": "An algebraic identity for all tables and depths; buffers are swapped each update.", "anchors": ["nbody/nbody_extrapolator.cpp: nbody_extrapolator_neville"]}
{"id": "C22", "title": "Berrut extrapolation is a convex-like combination of the stored values", "statement": "extrapolate(k) of the Berrut extrapolator is a combination of stored values whose weights sum to one, so constants are reproduced; entry k itself is used. (Violated: only entries below k are used, and extrapolate(0) returns the zero vector.)", "quantifier": "all values and levels", "why_tests_cant": "Off-by-one in the number of levels used.", "anchors": ["nbody/nbody_extrapolator.cpp: nbody_extrapolator_berrut"]}
{"id": "C23", "title": "Bulirsch-Stoer step accounting", "statement": "advise(dt) restarts every level from the same initial state and time, uses n equal substeps of dt/n, stops at the first level >= 2 whose error estimate is below the threshold or at the last level, and ends at time t0+dt. With max_level 0, 1 or 2 the state is not the extrapolated one (0: unchanged).", "quantifier": "all derivative functions, all thresholds, all max_level", "why_tests_cant": "Loop exits depend on run-time error estimates.", "anchors": ["nbody/nbody_solver_bulirsch_stoer.cpp: advise, compute_substep"]}
{"id": "C24", "title": "Stetter midpoint scheme is time-reversible", "statement": "One step of the Stetter midpoint solver followed by one step with the opposite dt restores the internal pair of states exactly, for every derivative function of the state; this is the property extrapolation in even powers relies on.", "quantifier": "all derivative functions, states, step sizes", "why_tests_cant": "Identity over all right-hand sides.", "anchors": ["nbody/nbody_solver_midpoint_stetter.cpp: advise"]}
{"id": "C25", "title": "Space tree is a partition of the bodies", "statement": "After build, every body index occurs in exactly one leaf, whatever the nth_element implementation returns, left and right subtrees differ in size by at most one, the depth is at most ceil(log2 n) and the recursion terminates for every n >= 1 (for n = 0 it does not).", "quantifier": "all body counts, positions, all valid nth_element outcomes", "why_tests_cant": "Every count and every tie-breaking of an unspecified library permutation.", "anchors": ["nbody/nbody_space_tree.cpp: build, build_p", "nbody/nbody_space_heap.cpp: build_p"]}
{"id": "C26", "title": "Space tree nodes summarise exactly their bodies", "statement": "After build and after every rebuild with moved bodies, each node stores the total mass of the bodies below it, their centre of mass, and the tight bounding box, and every body below the node lies within the node radius of the stored centre of mass.", "quantifier": "all bodies with positive masses, all positions, any sequence of rebuilds", "why_tests_cant": "Aggregates at every node of every tree.", "anchors": ["nbody/nbody_space_tree.cpp: update, rebuild", "nbody/nbody_space_heap.cpp: update, rebuild"]}
{"id": "C27", "title": "Heap layout stays inside its arrays exactly when the body count is a power of two", "statement": "Building the heap layout accesses only indices below the array size if and only if the number of bodies is a power of two; then the leaves are exactly the upper half of the array.", "quantifier": "all body counts >= 1", "why_tests_cant": "Infinitely many counts; tests use powers of two.", "anchors": ["nbody/nbody_space_heap.cpp: build, build_p", "nbody/nbody_space_heap_func_priv.h"]}
{"id": "C28", "title": "Barnes-Hut traversal accounts for every body exactly once", "statement": "For every query point the traversal visits a set of nodes such that each body is below exactly one accepted node or is an unaccepted leaf (a leaf at zero distance); consequently the total mass attracting the point is the total mass minus the mass of coincident leaves, for every opening ratio.", "quantifier": "all trees, query points, ratios", "why_tests_cant": "The visited set depends on the geometry.", "anchors": ["nbody/nbody_space_tree.cpp: traverse", "nbody/nbody_space_heap.cpp: traverse"]}
{"id": "C29", "title": "Barnes-Hut never lets a body attract itself through its own cell", "statement": "If distance_to_node_radius_ratio >= 1 (and masses are positive), no accepted node contains the query body; for ratios below 1 this can fail.", "quantifier": "all bodies, trees and ratios", "why_tests_cant": "Geometric invariant over all configurations.", "anchors": ["nbody/nbody_space_tree.cpp: traverse, update", "nbody/nbody_engine_simple_bh.cpp: fcompute"]}
{"id": "C30", "title": "Barnes-Hut converges to direct summation", "statement": "If no internal node is accepted for the query point (in particular for every sufficiently large ratio when positions are not all equal) the Barnes-Hut force equals the direct sum; when the root is accepted it equals the force of the total mass at the centre of mass.", "quantifier": "all configurations", "why_tests_cant": "Equality for all configurations.", "anchors": ["nbody/nbody_space_tree.cpp: traverse", "nbody/nbody_engine_simple_bh.cpp"]}
{"id": "C31", "title": "Stackless traversal equals stack traversal and terminates", "statement": "For every heap size that is a power of two times two and every acceptance predicate, the stackless walk visits exactly the nodes the stack-based walk visits in the same order (left first), accepts the same set, and terminates; the explicit stack never holds more than 64 entries for any heap that fits in memory.", "quantifier": "all heap sizes 2^(k+1), all acceptance predicates", "why_tests_cant": "Exponential number of acceptance patterns.", "anchors": ["nbody/nbody_space_heap.cpp: traverse", "nbody/nbody_space_heap_stackless.cpp: traverse", "nbody/nbody_space_heap_func_priv.h: next_up, next_down, skip_idx"]}
{"id": "C32", "title": "All variants of the heap successor function agree", "statement": "The portable loop, the count-trailing-zeros variant and the CUDA find-first-set variant of next_down return the same index for every node index below 2^32-1.", "quantifier": "all node indices", "why_tests_cant": "All indices; the variants are selected by compiler and never run in one binary.", "anchors": ["nbody/nbody_space_heap_func_priv.h: next_down"]}
{"id": "C33", "title": "Body visitor enumerates every body exactly once", "statement": "The visitor traversal of the tree and of the heap calls the visitor exactly once for each body. (Violated for the pointer tree when bodies coincide or ratio is 0: an internal node is reported as a leaf with an invalid body number.)", "quantifier": "all trees and ratios", "why_tests_cant": "Depends on degenerate geometry.", "anchors": ["nbody/nbody_space_tree.h: traverse", "nbody/nbody_space_heap.h: traverse", "nbody/nbody_engine_simple_bh.cpp"]}
{"id": "C34", "title": "Tree rebuild schedule", "statement": "The Barnes-Hut engine performs a full build at the first evaluation, at every evaluation if tree_build_rate is 0, and at steps divisible by tree_build_rate; at all other evaluations the cell layout (which body is in which leaf) is unchanged while the geometry is refreshed.", "quantifier": "all histories of steps and rates", "why_tests_cant": "Histories.", "anchors": ["nbody/nbody_engine_simple_bh.cpp: fcompute"]}
{"id": "C35", "title": "Run loop stops at the requested time", "statement": "nbody_solver::run with max_step > 0 terminates, performs exactly ceil((max_time - t0)/dt) steps (0 if already reached), and the final time lies in [max_time, max_time+dt); with dt <= 0 and t0 < max_time it never returns.", "quantifier": "all t0, max_time, dt (exact arithmetic), all visitors and streams", "why_tests_cant": "Unbounded loops.", "anchors": ["nbody/nbody_solver.cpp: nbody_solver::run"]}
{"id": "C36", "title": "Dump schedule of a run", "statement": "The frames written by run have strictly increasing times; the first is at the initial time iff that time is <= 0; consecutive dumped times differ by at least dump_dt - 0.1*dt and by less than dump_dt + 0.9*dt (or by exactly dt when every step is dumped); each dumped frame is the engine state at that time; on a write failure run returns an error and writes nothing further.", "quantifier": "all time parameters, any number of steps, any failure point", "why_tests_cant": "Unbounded runs and failure points.", "anchors": ["nbody/nbody_solver.cpp: nbody_solver::run"]}
{"id": "C37", "title": "Stream round trip", "statement": "Any sequence of frames written to a freshly opened stream can be loaded and read back: same number of frames, same order, identical positions, velocities, step numbers (and times, up to the text rounding of time), for every maximum part size, provided there is at least one frame and one body and the box size is not 0. (Otherwise the written stream cannot be loaded at all; the writer does not complain.)", "quantifier": "all frame sequences, all part sizes, all body counts", "why_tests_cant": "Unbounded histories across part-file boundaries.", "anchors": ["nbody/nbody_data_stream.cpp: open, write", "nbody/nbody_data_stream_reader.cpp: load, seek, read"]}
{"id": "C38", "title": "Stream part files are split at frame boundaries", "statement": "Every frame lies entirely inside one part file at the recorded offset; part numbers are non-decreasing and increase by at most one; a part is closed only once it has reached max_part_size, so each part except the last has size >= max_part_size and < max_part_size + frame size.", "quantifier": "all frame sequences and part sizes", "why_tests_cant": "Histories.", "anchors": ["nbody/nbody_data_stream.cpp: write"]}
{"id": "C39", "title": "Resuming a stream appends and keeps earlier frames", "statement": "Opening a stream for append after closing it, and writing more frames, yields a stream that reads back as the old frames followed by the new ones; no old byte is changed.", "quantifier": "all histories of sessions", "why_tests_cant": "Any number of sessions and part sizes.", "anchors": ["nbody/nbody_data_stream.cpp: open", "nbody/nbody_data_stream_reader.cpp: get_last_file_n", "test/main/main.cpp"]}
{"id": "C40", "title": "A crash leaves a readable prefix", "statement": "If the process dies at any point during writing (the files contain a prefix of the bytes written, in flush order), every frame whose index line is complete is still readable and unchanged. (Violated for load(): a torn final index line makes load fail or yields a frame with a wrong offset.)", "quantifier": "all frame sequences and all crash points", "why_tests_cant": "Crash points at every byte.", "anchors": ["nbody/nbody_data_stream.cpp: write", "nbody/nbody_data_stream_reader.cpp: load"]}
{"id": "C41", "title": "Sequential reading yields every frame once and then the last frame again or an error", "statement": "After load, n successive read() calls return frames 0..n-1 in order; seek(k) then read returns frame k for every k in range; seek out of range fails and leaves the position unchanged. (Violated: reading again after the last frame, or seek(last) when it is already current and consumed, fails.)", "quantifier": "all streams, all call sequences of seek and read", "why_tests_cant": "Histories of calls.", "anchors": ["nbody/nbody_data_stream_reader.cpp: seek, read"]}
{"id": "C42", "title": "A stream writer can be reused for another stream", "statement": "After close() and open() of another name, the second stream is loadable. (Violated: the header is written only once per writer object.)", "quantifier": "all call histories", "why_tests_cant": "Object-lifetime state.", "anchors": ["nbody/nbody_data_stream.cpp: open, close, write"]}
{"id": "C43", "title": "A stream reader can be reused for another stream", "statement": "load() of a second stream behaves as on a fresh reader. (Violated: header values and the colours/masses-read flags survive close().)", "quantifier": "all call histories", "why_tests_cant": "Object-lifetime state.", "anchors": ["nbody/nbody_data_stream_reader.cpp: load, close, parse_header_line"]}
{"id": "C44", "title": "Text snapshot round trip", "statement": "save() followed by load() restores body count, positions, velocities, masses and radii, in order, for any number formatting that prints no blanks and slashes and whose parser inverts it; masses are multiplied by the factor of the chosen units, colours become white, and time, step and box size of the target object stay as they were.", "quantifier": "all body lists, all value lists", "why_tests_cant": "All bodies.", "anchors": ["nbody/nbody_data.cpp: save, load"]}
{"id": "C45", "title": "Text loader accepts exactly the documented lines", "statement": "load() returns true iff every non-blank, non-comment line has at least seven space-separated fields whose first seven (and eighth if present) parse as numbers; on success one body per such line in order. On failure the previous contents are lost and the bodies before the first bad line remain (not atomic). In every case all arrays have as many entries as the count says.", "quantifier": "all files", "why_tests_cant": "All texts.", "anchors": ["nbody/nbody_data.cpp: load"]}
{"id": "C46", "title": "Zeno loader reads exactly count records", "statement": "load_zeno_ascii succeeds exactly when the file has a body count, dimension 3, a non-empty line, and then count mass lines and 2*count vector lines with three columns each; on success there are exactly count bodies with these numbers. It never accesses an array out of bounds, and after a failure all arrays still agree with the count. Fields that are not numbers are not rejected but read as 0.", "quantifier": "all files", "why_tests_cant": "All texts.", "anchors": ["nbody/nbody_data.cpp: load_zeno_ascii"]}
{"id": "C47", "title": "Universe generator produces block-aligned body counts", "statement": "make_universe(n,...) with 1 <= n <= 2^64-64 creates exactly two galaxies of N bodies each, N the least multiple of 64 not below n; every galaxy has one central body holding 99.9% of its mass and (in exact arithmetic) the galaxy's mass is 1000; all stars lie within half of sx of their centre and (farther than 1e-4 from it) move at right angles to the centre with circular-orbit speed; the two galaxies have the same inner arrangement. The loop ends exactly when enough random triples fall in the sphere. n = 0 asks for 2^64-1 stars.", "quantifier": "all n, all random outcomes", "why_tests_cant": "Random positions and all counts.", "anchors": ["nbody/nbody_data.cpp: make_universe, add_galaxy, round_up"]}
{"id": "C48", "title": "Command-line parsing", "statement": "nbody_parse_arguments returns exactly the map in which each --name=value argument (with exactly one '=') binds name to value, later bindings override earlier ones, and every other argument is ignored; argument 0 is never used.", "quantifier": "all argument vectors", "why_tests_cant": "All argument lists.", "anchors": ["nbody/nbody_arg_parser.cpp: nbody_parse_arguments"]}
{"id": "C49", "title": "Engine factory decision table", "statement": "nbody_create_engine returns an engine exactly for the documented type names with valid traverse/layout values and null otherwise, and passes the parameters on unchanged; defaults apply for missing parameters.", "quantifier": "all parameter maps", "why_tests_cant": "All maps of strings.", "anchors": ["nbody/nbody_engines.cpp: nbody_create_engine", "nbody/nbody_engine_simple_bh.cpp: tree_layout_from_str"]}
{"id": "C50", "title": "Solver factory terminates and returns the requested solver", "statement": "nbody_create_solver returns the solver of the requested type or null for unknown names. (Violated for starter_solver=adams with type adams: unbounded recursion.)", "quantifier": "all parameter maps", "why_tests_cant": "All maps of strings.", "anchors": ["nbody/nbody_solvers.cpp: nbody_create_solver"]}
{"id": "C51", "title": "Multi-device all-gather distributes all blocks", "statement": "After synchronize_y / synchronize_f every device holds every device's block, for any power-of-two device count; for other device counts (accepted by the CUDA engine, rejected by OpenCL) some device misses a block.", "quantifier": "all device counts and contents", "why_tests_cant": "Device counts unavailable to tests.", "anchors": ["nbody/nbody_engine_opencl.cpp: synchronize_y, synchronize_f", "nbody/nbody_engine_cuda.cpp: synchronize_y, synchronize_f, select_devices"]}
{"id": "C52", "title": "Multi-device all-reduce sums every device once", "statement": "After synchronize_sum every device holds the sum of all devices' buffers for any power-of-two device count; for other counts some contributions are counted twice.", "quantifier": "all device counts and contents", "why_tests_cant": "Device counts unavailable to tests.", "anchors": ["nbody/nbody_engine_opencl.cpp: synchronize_sum", "nbody/nbody_engine_cuda.cpp: synchronize_sum"]}
{"id": "C53", "title": "Player velocity colour stays inside its lookup table", "statement": "The player colours every body by linear interpolation in its table of four colours, whatever the speeds in the frame, with the reference speed taken from the smallest box around the velocities of the first frame. (Violated: for a relative speed strictly between 3/4 and 1 it reads entry 4 of the 4-entry table, so a frame where a body has slowed down to 0.9 of the reference speed reads outside the table; if all bodies rest it converts NaN to an index.)", "quantifier": "all frames, all real speeds", "why_tests_cant": "Needs the open interval between samples; no test runs the player.", "anchors": ["player/wgt_nbody_view.cpp: get_color, compute_color_from_velosity, get_box, setup_view_box"]}
{"id": "C54", "title": "State comparison is reflexive and symmetric", "statement": "nbody_data::is_equal is reflexive for non-negative eps, symmetric, monotone in eps, exact for eps=0, and compares exactly count, mass, radius, position and velocity.", "quantifier": "all pairs of states, all eps", "why_tests_cant": "All states.", "anchors": ["nbody/nbody_data.cpp: is_equal"]}
{"id": "C55", "title": "Buffer group allocation is all-or-nothing", "statement": "create_buffers either returns the requested number of buffers or an empty list with every partially created buffer freed, whatever allocation fails.", "quantifier": "all counts and all failure points", "why_tests_cant": "Failure injection at each allocation.", "anchors": ["nbody/nbody_engine.cpp: create_buffers, free_buffers"]}
{"id": "C56", "title": "GPU tree refresh equals host tree refresh", "statement": "The device-side level-by-level update of leaf and node data computes, for every order in which work items of a level run, the same node masses, centres, boxes and radii as the host rebuild.", "quantifier": "all body counts 2^k, all positions, all work-item orders", "why_tests_cant": "Schedules and sizes.", "anchors": ["nbody/nbody_engine_opencl.cl: UpdateLeafBH, UpdateNodeBH", "nbody/nbody_engine_opencl.cpp: update_tree", "nbody/nbody_engine_cuda_impl.cu: kupdate_leaf_bh, kupdate_node_bh"]}
{"id": "C57", "title": "Feagin tables are complete and consistent to their printed precision", "statement": "The decimal Butcher tables of the Feagin 10/12/14 solvers have as many coefficients as the solver reads, strictly lower triangular rows that add up to their nodes, weights that add up to one, and satisfy the order conditions, within the precision to which they are printed.", "quantifier": "all rows, all rooted trees up to order 10, 12, 14 (8, 10, 12 for the embedded weights)", "why_tests_cant": "Errors in digit 20 of a coefficient do not show in a short run, and order 14 means more than 50000 conditions on 35 stages.", "anchors": ["nbody/nbody_solver_rkfeagin10.cpp", "nbody/nbody_solver_rkfeagin12.cpp", "nbody/nbody_solver_rkfeagin14.cpp", "README.md: table of solvers"]}
{"id": "C58", "title": "Forces are the gradient of the reported potential energy", "statement": "Above the distance cutoff the force between two bodies is minus the gradient of potential_energy. Hence the energy that print_statistics reports is constant along every exact motion under the accelerations the engines compute while all pairs stay above the cutoff, and the reported impulse and impulse moment are constant along every exact motion, so that their drift measures the error of the solver only. (Violated below the cutoff: there the potential energy is reported as 0 while the force is not zero, and the potential energy jumps by 10000 m1 m2 at the cutoff.)", "quantifier": "all numbers of bodies, positions, masses, exact motions", "why_tests_cant": "Derivative identities over the reals, along exact solutions that no test can run.", "anchors": ["nbody/nbody_data.cpp: force, potential_energy, print_statistics"]}
{"id": "C59", "title": "A heap object can be built again for other bodies", "statement": "Building an nbody_space_heap that was used before gives the same forces and visitor calls as building a new one. (Violated when the number of bodies decreases: leaves inherit radii of former inner nodes and forces are lost.)", "quantifier": "all sequences of builds", "why_tests_cant": "Needs reuse of one object with different sizes; tests make a new object each time.", "anchors": ["nbody/nbody_space_heap.cpp: build, build_p, traverse"]}
{"id": "C60", "title": "Tree layouts of the Barnes-Hut engine are interchangeable", "statement": "For a power-of-two number of bodies the layouts tree, heap and heap_stackless leave exactly the same derivative buffer, bit for bit, over every sequence of evaluations with any build rate, ratio and thread schedule.", "quantifier": "all sequences of evaluations, sizes 2^k, schedules, orders of equal elements", "why_tests_cant": "Tests compare a few runs within a tolerance.", "anchors": ["nbody/nbody_engine_simple_bh.cpp: fcompute", "nbody/nbody_space_tree.cpp", "nbody/nbody_space_heap.cpp", "nbody/nbody_space_heap_stackless.cpp"]}
{"id": "C62", "title": "Streams with different names do not disturb each other", "statement": "Writing one snapshot stream, new or resumed, leaves every file of another stream untouched, so that the other stream reads back as before. (Violated when one name extends the other by digits: part 10 of stream x and part 0 of stream x1 are the same file, and opening x1 destroys frames of x although x still loads.)", "quantifier": "all pairs of stream names, all contents, all part numbers", "why_tests_cant": "The clash needs eleven parts and a particular pair of names.", "anchors": ["nbody/nbody_data_stream.cpp: make_dat_name, make_idx_name, make_col_name, make_mass_name, open, write"]}
{"id": "C63", "title": "Initial state loading picks units and box", "statement": "load_initial accepts exactly the types Zeno, G1, SI, ADK in any capitalisation and leaves the object alone for any other; masses are scaled by the factor of the units; after success the box size is the whole part of the greatest of 1 and all coordinates, so it is at least 1 (a stream written from the state can be read back) and no coordinate reaches box + 1. Negative coordinates do not count, so bodies may lie outside the box [-box, box]; a coordinate of 2^64 or more makes the conversion undefined.", "quantifier": "all files, all types, all positions", "why_tests_cant": "All coordinates including negative and huge ones.", "anchors": ["nbody/nbody_data.cpp: load_initial, get_mass_factor"]}
{"id": "C64", "title": "Compensated accumulation keeps rounding errors from piling up", "statement": "With rounded arithmetic (every sum, difference and product exact up to a relative error u) the result of summation differs from the exact sum by at most 6u times the sum of the absolute values, and after any number of fmaddn_corr calls on the same state and correction buffers every element differs from its exact value by at most 8u times the absolute values of what was added - independently of the number of terms, up to 1/(12u) of them. Plain addition has no such bound.", "quantifier": "all numbers of terms, all values, all rounding errors within the model, all histories of calls", "why_tests_cant": "A bound over all rounding behaviours and all lengths; a test sees one platform and a few lengths.", "anchors": ["nbody/summation.h: summation_k, summation", "nbody/nbody_engine_simple.cpp: fmaddn_corr"]}
{"id": "C65", "title": "The iterating solvers iterate the equations of their scheme", "statement": "The trapezoidal solver performs the Euler predictor and refine+1 trapezoidal corrector steps and is of second order for autonomous systems; a converged iteration satisfies the trapezoidal rule. (It evaluates the corrector at the old time, so it is not the trapezoidal rule for time dependent systems.) One refinement sweep of an implicit Runge-Kutta solver evaluates each stage with the newest values of the others; a sweep leaves the stages unchanged exactly if they solve the stage equations; for a derivative with Lipschitz constant L each sweep of rkgl and rklc brings the stages closer to that solution by the factor |dt| L.", "quantifier": "all derivative functions, states, step sizes, refinement counts, tables without zero rows", "why_tests_cant": "Tests compare trajectories of two or three problems within a tolerance.", "anchors": ["nbody/nbody_solver_trapeze.cpp: advise", "nbody/nbody_solver_rk_butcher.cpp: sub_step_implicit, sub_step", "nbody/nbody_solver_rkgl.cpp", "nbody/nbody_solver_rklc.cpp"]}
{"id": "C66", "title": "A solver releases its buffers exactly once", "statement": "Destroying a solver after any number of steps releases every buffer that it, its starter, its internal solver and its extrapolator created, each exactly once, and no other buffer. (Violated: a solver destroyed before set_engine, and an adams solver destroyed before its first step, call a null engine, so the program crashes on exit after engine->init has failed or when the run has no step to do; if buffer creation fails the midpoint solver loses buffers.)", "quantifier": "all solver configurations, all numbers of steps, all buffers existing before", "why_tests_cant": "Needs all histories for every nesting of solvers; leaks and double releases do not show in results.", "anchors": ["nbody/nbody_solver_adams.cpp", "nbody/nbody_solver_bulirsch_stoer.cpp", "nbody/nbody_solver_rk_butcher.cpp", "nbody/nbody_solver_trapeze.cpp", "nbody/nbody_extrapolator.cpp", "nbody/nbody_engine.cpp: create_buffers, free_buffers", "test/main/main.cpp: main"]}
{"id": "C70", "title": "The GPU force kernels compute the direct sum in every execution", "statement": "When the bodies of each device are a multiple of the group size, fcompute of the OpenCL and CUDA engines ends on every device with the velocities and the accelerations of the softened direct sum over all other bodies, whatever the interleaving of work items, groups, devices and copies; the two engines give bit for bit the same numbers for the same group size whatever the number of devices and the way they exchange data. (Violated otherwise: with another number of bodies OpenCL throws, CUDA ends the program, leaves the result of some bodies as it was before the call, or reads outside the buffer of masses.)", "quantifier": "all numbers of devices, bodies and work items per group, all states, masses, arithmetic, interleavings with barriers", "why_tests_cant": "Tests run one schedule of one GPU with sizes that fit; races and stale elements depend on the schedule.", "anchors": ["nbody/nbody_engine_opencl.cl: ComputeBlockLocal", "nbody/nbody_engine_opencl.cpp: fcompute", "nbody/nbody_engine_cuda_impl.cu: kfcompute, kfcompute_xyz, fcompute_block", "nbody/nbody_engine_cuda.cpp: fcompute"]}
{"id": "C69", "title": "Engines are interchangeable", "statement": "Whatever sequence of operations a solver performs (derivative, clamp, copy, fill, all forms of fmadd), every direct-sum engine ends with the same contents in every buffer. For the OpenCL and CUDA engines this holds bit for bit, for any number of devices, in one context or several, and every interleaving; also between the sequential and the OpenMP engine; in exact arithmetic all of them, and the blocked engine, agree with Newtonian gravity. What a caller reads back does not depend on the devices. (Violated for sizes that do not fit: OpenCL throws, CUDA silently leaves out the last numbers of each device; a copy of a buffer to itself throws on OpenCL only; a corrected sum over a list with a missing buffer changes the target on OpenCL only.)", "quantifier": "all sequences of operations on all buffers, numbers of devices, bodies, group sizes that fit, arithmetic, interleavings", "why_tests_cant": "Tests run single operations or one trajectory per engine with a tolerance, on one device; agreement of every sequence of operations on any number of devices is out of reach.", "anchors": ["nbody/nbody_engine_opencl.cpp:715-740,1211-1467", "nbody/nbody_engine_cuda.cpp:249-497", "nbody/nbody_engine_simple.cpp", "nbody/nbody_engine_openmp.cpp", "nbody/nbody_engine.cpp:47-113"]}
{"id": "C72", "title": "The GPU Barnes–Hut engines agree with the host engine", "statement": "Over any history of derivative evaluations (tree built when due, refreshed on the devices otherwise), the OpenCL and CUDA Barnes–Hut engines succeed at every call and leave on every device exactly the derivative of the host Barnes–Hut engine that got the same calls; number of devices, exchange of data, textures, traversal (per body or per leaf, with or without a stack) and interleaving of the work items do not change any number. (Violated when the number of bodies is not a power of two: the heap is written out of bounds.)", "quantifier": "all histories of calls, states, masses other than zero, numbers of devices, layouts, traversals, interleavings; bodies 2^k with sizes that fit", "why_tests_cant": "A test evaluates one state on one GPU with a tolerance; races, stale nodes after a refresh and contributions lost or doubled in the exchange depend on history and schedule.", "anchors": ["nbody/nbody_engine_opencl.cpp:742-1188", "nbody/nbody_engine_opencl.cl:100-508", "nbody/nbody_engine_cuda_bh.cpp", "nbody/nbody_engine_cuda_bh_tex.cpp", "nbody/nbody_engine_cuda_impl.cu:100-720", "nbody/nbody_engine_simple_bh.cpp"]}
{"id": "C73", "title": "The error norm is the same on the GPU engines", "statement": "fmaxabs of the OpenCL engine (per-block maxima on each device's slice, then a maximum on the host) and of the CUDA engine (minimum and maximum of each device's slice by a parallel reduction, then a maximum on the host) gives the largest absolute value of the whole buffer and leaves every buffer as it was. So the embedded Runge-Kutta and Bulirsch-Stoer solvers take the same step-size decisions on every engine. The OpenCL engine throws when the number of blocks is not a multiple of 4; the default configuration (64 bodies, block 64) on one device is such a case.", "quantifier": "For all numbers of devices, block sizes, buffer contents, orders of work items, reduction trees and memory configurations that fit the engine.", "why_tests_cant": "A test evaluates one buffer on one device; which elements of a slice are compared, and by whom, depends on the device count, the block size and the schedule.", "anchors": ["nbody/nbody_engine_opencl.cpp:1469-1508", "nbody/nbody_engine_opencl.cl:566-589", "nbody/nbody_engine_cuda.cpp:499-530", "nbody/nbody_engine_cuda_impl.cu:807-818"]}
{"id": "C74", "title": "A solver takes the bodies to the same place on every engine", "statement": "The calls a solver makes on an engine (derivative, vector operations, copies, error norm), run on the sequential, OpenMP, blocked, OpenCL or CUDA engine, end without error and leave in the state buffer what the numerical scheme of the solver gives for softened gravity, after any number of steps of any sizes; the buffers a solver keeps for its next step also hold what the scheme keeps. Adaptive solvers make the same decisions on every engine. For any arithmetic, the results of the OpenCL engine do not depend on the number of devices. On OpenCL devices whose number of blocks is not a multiple of 4 the first step of an embedded Runge-Kutta solver throws.", "quantifier": "For all direct-sum engines, numbers of devices, schedules, solvers (Euler, midpoint, RK4, trapeze, Stetter, table-driven Runge-Kutta of every table and configuration, Adams started by any of the others, Bulirsch-Stoer with Neville's extrapolation), lists of step sizes, bodies and assignments of buffers.", "why_tests_cant": "Each pair of solver and engine would need runs on real devices, for every number of devices and every schedule; rounding hides small differences, and a single trajectory cannot show agreement on all of them.", "anchors": ["nbody/nbody_solver_euler.cpp:19-32", "nbody/nbody_solver_rk4.cpp:19-48", "nbody/nbody_solver_trapeze.cpp:26-56", "nbody/nbody_solver_midpoint_stetter.cpp:23-71", "nbody/nbody_solver_adams.cpp:30-84", "nbody/nbody_solver_rk_butcher.cpp:60-248", "nbody/nbody_solver_bulirsch_stoer.cpp:65-122", "nbody/nbody_extrapolator.cpp:122-181", "nbody/nbody_engine.h:58-86"]}
{"id": "C67", "title": "An interrupted and resumed simulation equals an uninterrupted one", "statement": "nbody run to an earlier end time and then resumed with a later one leaves a stream that, read frame by frame, gives bit for bit the stream of one run to the later end time, in any arithmetic, for engines without memory and solvers whose step is decided by the state (Euler, midpoint, RK4, trapeze, explicit Runge-Kutta without correction, Bulirsch-Stoer), without clamping, when the time of the last frame survives printing and is positive. Violated otherwise: with --clamp the resumed run has a box of size 0, Adams and Stetter start again, a rounded time shifts the clock, a stream with only the initial frame gets it twice.", "quantifier": "For all initial states, engines without memory, solvers as listed, end times, dump steps, part sizes, numbers of resumed frames, arithmetics and file contents.", "why_tests_cant": "A test compares one short run; every combination of solver state, dump schedule and interruption point would have to be tried, and equality of whole trajectories after an interruption is an invariant over all steps.", "anchors": ["test/main/main.cpp", "nbody/nbody_solver.cpp", "nbody/nbody_data_stream.cpp", "nbody/nbody_data_stream_reader.cpp", "nbody/nbody_solver_midpoint.cpp", "nbody/nbody_solver_rk_butcher.cpp", "nbody/nbody_solver_bulirsch_stoer.cpp"]}
{"id": "C68", "title": "What a command line does to the files", "statement": "nbody ends with 0 or -1. It ends with -1, having touched no file, when the stream to resume or the initial state cannot be loaded, or engine or solver are refused. Otherwise it touches only the files of the stream it writes: a fresh run leaves exactly the frames the run loop offers, loadable and readable in order; a resumed run keeps the old frames and appends. Options outside the known list are ignored, and a resumed run ignores --output and the options that choose the initial state. With a dump step that is not positive the old stream is gone and the new one cannot be loaded. Every step is made with the solver options of the command line, and those left out have their documented values.", "quantifier": "For all command lines, file systems, engines, solvers, numbers of steps, part sizes and arithmetics.", "why_tests_cant": "A test starts the program with a few command lines on a few files; that no other file is ever touched, and that every refused line leaves everything alone, are statements about all of them.", "anchors": ["test/main/main.cpp", "nbody/nbody_arg_parser.cpp", "nbody/nbody_engines.cpp", "nbody/nbody_solvers.cpp", "nbody/nbody_solver.cpp", "nbody/nbody_data_stream.cpp", "nbody/nbody_data_stream_reader.cpp"]}
{"id": "C75", "title": "The player shows the frame its slider stands at and records the frames in order", "statement": "Once the slider has been moved or something was recorded, the player holds exactly the data of the frame the slider stands at, whatever was shown, dragged, recorded or cancelled before. In every recording the i-th image has number i and pictures frame i. A recording that is not disturbed has an image of every frame, provided the stream has two frames or nothing was read before. (Violated: until the slider is moved the player shows bodies at the origin; a stream of one frame that was shown before records nothing; when slider or animation reach the last frame just before the recording does, the last image is missing; data behind the last indexed frame are shown under its name.)", "quantifier": "For all streams, sequences of slider events, repaints, recordings and cancellations, and all painting functions.", "why_tests_cant": "The order in which the event loop delivers slider and paint events between two recorded frames is not under a test's control.", "anchors": ["player/wgt_nbody_player.cpp", "player/wgt_nbody_player_control.cpp", "nbody/nbody_data_stream_reader.cpp"]}
{"id": "C76", "title": "Recorded images are complete, named by their frame and in order", "statement": "Whatever the thread pool does, every pushed image is saved exactly once, never more than one job above the limit is pending, and closing the compressor terminates. Different frames get different file names, so afterwards each frame's file holds its image and no other file has changed. The files lie in the chosen directory, named by the frame number with at least eight digits, and sorting by name sorts by frame up to frame 99999999. (Violated: a directory with %0, %1, %00, %01 or their forms with L in its name gets no image; they are saved to another, perhaps missing, directory and failures are not reported. From frame 100000000 on names are out of order.)", "quantifier": "For all directories, frame numbers, numbers of images, thread counts and schedules of the pool.", "why_tests_cant": "Schedules of the pool cannot be enumerated by a test, nor can all directory names.", "anchors": ["player/nbody_frame_compressor_image.cpp", "player/wgt_nbody_player.cpp"]}
{"id": "C77", "title": "The player's window shows the bodies, each pane once", "statement": "The four panes share out the window for every position of the split point; a double click into a pane makes it fill the window and another one divides it again; stereo cameras lie symmetrically across the line of sight. The box shown is that of the first painted frame whose bodies are not all at one point, enlarged by half its size on each side, and every body of that frame is visible in every pane as long as the scale is moderate and the box is between about 1 and 600 wide. (Violated beyond that: with a diagonal above 1333 at 100 % nothing at all is visible; and since the box never changes, the same frame gives different pictures depending on what was shown before.)", "quantifier": "For all frames, sequences of painted frames, window sizes, split points, scales and clicks.", "why_tests_cant": "A test would have to look at pixels for a few data sets; the near and far planes fail only for sizes of the system that it does not try.", "anchors": ["player/wgt_nbody_view.cpp", "player/wgt_nbody_view.h", "player/wgt_nbody_player_control.cpp"]}
{"id": "C71", "title": "The devices named on the command line are the devices used", "statement": "select_devices of the OpenCL engine accepts exactly the lists of entries platform:device,device,... separated by semicolons whose devices exist and can be built for, with a power of two of devices; a new engine then has exactly these devices in the order written, one context per entry, and knows whether all share one context. select_devices of the CUDA engine accepts exactly the comma separated lists of existing device numbers, replaces the devices by them, and changes nothing when it refuses. (Violated: a second call on an OpenCL engine adds to the devices instead of replacing them, a refused call leaves some, and then the flag for direct copies between devices can be wrong and the number of devices no power of two; the CUDA engine does not check the number at all.)", "quantifier": "For all texts, machines (numbers of platforms and devices, devices that cannot be built for), readings of numbers, and states of the engine.", "why_tests_cant": "Tests run on the few devices of one machine; lists over several platforms, and refusals in the middle of a list, never occur there.", "anchors": ["nbody/nbody_engine_opencl.cpp", "nbody/nbody_engine_cuda.cpp", "nbody/nbody_engines.cpp"]}
{"id": "C78", "title": "Smaller steps bring the simulation to the true motion", "statement": "For all masses, initial positions and velocities there is exactly one motion of the bodies under softened gravity for all time. For every solver, freshly made, there are constants such that on every direct-sum engine any sequence of steps, none longer than d, from a state within e of the beginning of the motion runs to the end and leaves every coordinate of every position and velocity within C(e+d) of the motion at that time; for the Feagin tables, whose weights are rounded to some sixty digits, within C(e+d+1e-55). In particular enough equal steps come as near as one likes.", "quantifier": "For all numbers of bodies, nonzero masses, motions, spans of time, sequences of positive step sizes (also unequal ones, with total within the span), engines (sequential, OpenMP, blocked, OpenCL and CUDA, any devices and interleavings), solvers (Euler, midpoint, RK4, trapezoidal with any number of iterations, Stetter, every explicit table with any subdivision settings with and without correction, the implicit tables with at least one sweep, Adams of every rank with and without correction, Bulirsch-Stoer with any number of levels).", "why_tests_cant": "Convergence is a statement about the limit of infinitely many runs with ever smaller steps for all initial data; a test compares one run with one reference, itself computed numerically.", "anchors": ["nbody/nbody_solver_euler.cpp", "nbody/nbody_solver_midpoint.cpp", "nbody/nbody_solver_rk4.cpp", "nbody/nbody_solver_trapeze.cpp", "nbody/nbody_solver_midpoint_stetter.cpp", "nbody/nbody_solver_rk_butcher.cpp", "nbody/nbody_solver_adams.cpp", "nbody/nbody_solver_bulirsch_stoer.cpp", "nbody/nbody_butcher_table.cpp", "nbody/nbody_extrapolator.cpp", "nbody/nbody_engine_simple.cpp", "nbody/nbody_engine_openmp.cpp", "nbody/nbody_engine_block.cpp", "nbody/nbody_engine_opencl.cpp", "nbody/nbody_engine_cuda.cpp"]}
{"id": "C79", "title": "Rounding errors of the direct sum are bounded by the number of roundings", "statement": "In rounded arithmetic with unit roundoff u, the force of one body on another has in every coordinate a relative error of at most gamma(15), gamma(K) = K u/(1 - K u). The derivative the direct-sum engines compute for n bodies copies the velocities unchanged and gives every coordinate of every acceleration with an error of at most gamma(K) times the sum of the sizes of the pulls, where K is n+16 for the sequential and the OpenMP engine, n+13 for the blocked engine and B + n/B + 13 for the OpenCL and CUDA engines with groups of B. Hence two engines differ by at most the sum of their bounds, and the net force is zero up to such an error.", "quantifier": "For all numbers of bodies, positions (also coinciding or arbitrarily close ones), velocities and masses, every rounded arithmetic of the standard model, all schedules, devices and groups.", "why_tests_cant": "Rounding errors are different for every input; a test compares two engines on a few configurations with a tolerance chosen by hand and cannot tell whether the tolerance holds for all others.", "anchors": ["nbody/nbody_data.cpp", "nbody/nbody_engine_simple.cpp", "nbody/nbody_engine_openmp.cpp", "nbody/nbody_engine_block.cpp", "nbody/nbody_engine_opencl.cl", "nbody/nbody_engine_cuda_impl.cu"]}
{"id": "C80", "title": "The error of the Barnes-Hut engines is bounded by the ratio", "statement": "With a distance to node radius ratio r >= 1 and positive masses, every acceleration computed by a Barnes-Hut engine differs from the direct sum by a vector no longer than 16/r times the strength of the pull at the body, sum of m_j/max(d_j^2,1e-8) over the other bodies; and no longer than 53/r^2 times it when no other body is nearer than 2e-4 (except at exactly the same place). The velocities are exact. Hence for given masses one ratio brings the error below any bound for all positions at once.", "quantifier": "For all numbers of bodies up to 2^63, positions, velocities, positive masses, ratios of at least one, histories of evaluations, build rates (fresh and refreshed trees), valid nth_element and schedules of the host engine; for 2^k bodies on GPUs all devices, layouts, traversals and interleavings.", "why_tests_cant": "The error depends on the positions and on the shape of a tree that may be refreshed many times since it was built; a test measures it for a few configurations against a tolerance chosen by hand.", "anchors": ["nbody/nbody_space_tree.cpp", "nbody/nbody_space_tree.h", "nbody/nbody_engine_simple_bh.cpp", "nbody/nbody_engine_opencl_bh.cpp", "nbody/nbody_engine_cuda_bh.cpp"]}
{"id": "C81", "title": "Every solver on every Barnes-Hut engine converges to the motion", "statement": "Every solver, just created, runs to the end on every new Barnes-Hut engine (pointer tree, heap with and without stack, OpenCL, CUDA with and without textures), whatever the step sizes, the tree build rate and the step numbers the engine reads; every derivative it gets is close to softened gravity (C80), the tree being the engine's own memory that survives between evaluations. For a true motion of the bodies there are constants C and d0 such that after steps none longer than d <= d0 from a state within e of the true one, the bodies are within C(e + d + eta + 1/ratio) of where they truly are (eta: rounding of the weights of the table). Hence enough equal steps and a large enough ratio bring the bodies as near as wanted.", "quantifier": "For all masses > 0, motions, time spans, solvers and their settings, engines, numbers of devices, build rates, sequences of step numbers, ratios >= 1, lists of step sizes, initial buffers and executions of the parallel loops; n <= 2^63 bodies for the pointer tree, a power of two for heaps and GPUs.", "why_tests_cant": "The tree is state that no solver call shows: a refresh instead of a rebuild, in the middle of a Runge-Kutta step, changes the derivative that the same state yields. Tests run one solver with one engine for some steps and compare with a tolerance.", "anchors": ["nbody/nbody_engine_simple_bh.cpp", "nbody/nbody_engine_opencl_bh.cpp", "nbody/nbody_engine_cuda_bh.cpp", "nbody/nbody_engine_cuda_bh_tex.cpp", "nbody/nbody_solver_rk_butcher.cpp", "nbody/nbody_solver_adams.cpp", "nbody/nbody_solver_bulirsch_stoer.cpp"]}
{"id": "C82", "title": "The error of a solver falls with the power of the step that its order says", "statement": "For a motion of the bodies under softened gravity in which no two bodies are exactly at the softening distance, and for every solver just created, there are constants C and d0 such that on every direct-sum engine steps none longer than d <= d0 from a state within e of the beginning of the motion run to the end and leave every coordinate of every position and velocity within C(e + d^p + eta) of the motion, and on every Barnes-Hut engine within C(e + d^p + eta + 1/ratio). The order p is 1 for euler, 2 for midpoint, midpoint-st and trapeze, 4 for rk4, rkck and rkdp, 5 for rkdverk, 8 for rkf, 10, 12, 14 for the Feagin tables (eta = 1e-56), 2 for rkgl and rklc (at least one sweep), min(rank, q+1) for adams with equal steps and a starter of order q, 6 for bs with three levels or more and 2 max_level if its threshold is not positive. With N equal steps over a given time the error is at most C/N^p.", "quantifier": "For all numbers of bodies, masses, motions off the softening distance, spans of time, sequences of positive steps (equal ones for Adams), solvers with all their settings, engines, devices and interleavings.", "why_tests_cant": "The order is the rate at which errors vanish as the steps go to zero, for all smooth motions; a test sees one slope between two runs of one problem, and rounding hides the high orders at the steps where the theory sets in.", "anchors": ["README.md:13-31", "nbody/nbody_solver_euler.cpp", "nbody/nbody_solver_midpoint.cpp", "nbody/nbody_solver_rk4.cpp", "nbody/nbody_solver_trapeze.cpp", "nbody/nbody_solver_midpoint_stetter.cpp", "nbody/nbody_solver_rk_butcher.cpp", "nbody/nbody_solver_adams.cpp", "nbody/nbody_solver_bulirsch_stoer.cpp", "nbody/nbody_butcher_table.cpp", "nbody/nbody_extrapolator.cpp"]}
{"id": "C83", "title": "The frames a run records lie near the true motion of the bodies", "statement": "Take a motion of n bodies under softened gravity over a time T and any solver the factory makes (Adams with any starter other than itself). There are constants K and d0 such that every run (`nbody_solver::run`) with that solver on any engine whose derivatives are those of gravity up to theta, with max step dt <= d0, from data whose bodies are within rho of the beginning of the motion, until a time the motion covers, returns 0; every frame handed to the stream, every state handed to the checks and the final state has the same number of bodies, masses and colours as the data, and its positions and velocities are within K(rho + dt^p + eta + theta) of where the motion has the bodies at the time recorded in the frame, p being the order of the solver (C82; 1 if two bodies come exactly to the softening distance). The frames carry the times start + k dt of the dump schedule (C36). With clamping to the box the same holds as long as the motion keeps that distance from the walls. Hence for an exact engine all frames are as near the motion as one likes once the step is small enough.", "quantifier": "For all numbers of bodies, masses, motions, spans of time, solvers and settings, engines with derivatives of any accuracy and any memory between calls, steps, dump and check intervals, start times, boxes.", "why_tests_cant": "It connects what ends up in the stream with the solution of a differential equation, for all small steps at once; a test can compare a few frames of a problem whose solution is known.", "anchors": ["nbody/nbody_solver.cpp:55-105", "nbody/nbody_solver.cpp:77", "nbody/nbody_solvers.cpp:3-134", "nbody/nbody_engine_simple.cpp:32-79", "nbody/nbody_data.cpp:177-181", "nbody/nbody_solver_adams.cpp:30-84"]}
{"id": "C84", "title": "The orders of the solvers are no higher than proved, so some documented orders are missed", "statement": "There is a motion of two bodies under the library's softened gravity (they swing through each other with period 2 pi, nearer than the softening distance) such that for every time T there are constants 0 < c <= C: N equal steps over the time T from exactly the beginning of that motion, for all large N and on every direct-sum engine, leave the bodies more than c/N^p and at most C/N^p from the motion. The order p is 1 for euler, 2 for midpoint and trapeze, 4 for rk4, rkck and rkdp (documented: 5), 5 for rkdverk, 8 for rkf (documented: 7), 2 for rkgl (documented: 6) and rklc (documented: 4), and min(rank, q+1) for adams with one of those of order q that do the same in every step as the starter: 2 with the default starter and any rank from 2 to 5. Hence for no higher power p' is the error O(1/N^p').", "quantifier": "For all times, numbers of steps from some number on, engines, settings of the solvers with a positive threshold or no recursion, ranks and starters of Adams.", "why_tests_cant": "A lower bound for all large N of an error that rounding hides from a test as soon as the steps are small; that a documented order is missed shows in a test as a slope between two runs only, which other causes can explain.", "anchors": ["README.md:13-31", "nbody/nbody_solver_rk_butcher.cpp", "nbody/nbody_solver_rkck.cpp", "nbody/nbody_solver_rkdp.cpp", "nbody/nbody_solver_rkgl.cpp", "nbody/nbody_solver_rklc.cpp", "nbody/nbody_solver_adams.cpp:30-84", "nbody/nbody_solvers.cpp:21-32"]}
{"id": "C85", "title": "In floating point the explicit solvers, Stetter and Adams-Bashforth follow the motion up to the truncation error and a share of rounding per step", "statement": "For every motion of bodies under the library's softened gravity (off the softening distance) and each of euler, midpoint, rk4, trapeze and the explicit Runge-Kutta tables (rk4, rkck, rkdp, rkdverk, rkf and the tables of Feagin, with any adaptive subdivision) there are constants such that a run in any arithmetic whose operations are correct up to a relative error u - also in the coefficients of the table, the step sizes, the softening constant, the forces and the error estimates that steer the subdivision - with steps between dmin and delta on any direct-sum engine (sequential, OpenMP, blocked, OpenCL, CUDA, every schedule and number of devices) ends without error within C (eps + delta^p + u/dmin) of the bodies, where p is the order of the solver and eps the error of the start; the constants depend on neither the arithmetic nor the engine. N equal steps: C (eps + 1/N^p + N u). Hence steps short enough and an arithmetic precise enough lead as near to the bodies as one likes. The same holds of Stetter's solver with p = 2, and of Adams-Bashforth of each rank with equal steps, its coefficients computed as the program computes them, started by any of these solvers: p is the rank or one more than the order of the starter, whichever is less.", "quantifier": "For all motions, arithmetics of unit roundoff u small against the shortest step, engines and executions, lists of steps, settings of the recursion.", "why_tests_cant": "The decisions of the adaptive recursion and all roundings differ between engines, schedules and precisions; a test compares a few runs with each other, not with the motion, and cannot separate truncation from rounding for all step sizes.", "anchors": ["nbody/nbody_solver_euler.cpp:17-31", "nbody/nbody_solver_midpoint.cpp", "nbody/nbody_solver_rk4.cpp", "nbody/nbody_solver_trapeze.cpp", "nbody/nbody_solver_rk_butcher.cpp", "nbody/nbody_solver_midpoint_stetter.cpp", "nbody/nbody_solver_adams.cpp:30-84", "nbody/nbody_engine_simple.cpp", "nbody/nbody_engine_openmp.cpp", "nbody/nbody_engine_block.cpp", "nbody/nbody_engine_opencl.cpp", "nbody/nbody_engine_cuda.cpp"]}
{"id": "C86", "title": "From the bodies put in to the bodies taken out", "statement": "init, followed by the creation of the solver's buffers, leaves every direct-sum engine (sequential, OpenMP, blocked, OpenCL or CUDA on any number of devices) holding exactly the bodies of the nbody_data on every device, whatever the memory held before; get_data returns the bodies the engine holds; so a program that puts bodies into an engine, makes steps with a solver of order p and takes the bodies out gets them within C (eps + delta^p) of the true motion, plus u / dmin in rounded arithmetic. If a device does not grant the memory, init reports it, and no solver gets an incomplete set of buffers. The nbody_data given to get_data has to have as many bodies as the engine.", "quantifier": "all numbers of bodies, devices and buffers, all positions, velocities and masses, all previous contents of the memory, all interleavings, all motions off the cutoff, all step sequences", "why_tests_cant": "Tests load one state into an engine of each kind and compare it within a tolerance; they cannot cover every number of devices, every interleaving of the copies or every earlier content of the memory, and they do not connect what was put in to the true motion.", "anchors": ["nbody/nbody_engine_opencl.cpp:541", "nbody/nbody_engine_opencl.cpp:583", "nbody/nbody_engine_opencl.cpp:1190", "nbody/nbody_engine_cuda.cpp:91", "nbody/nbody_engine_cuda.cpp:141", "nbody/nbody_engine_cuda.cpp:267", "nbody/nbody_engine_cuda_memory.cpp:4", "nbody/nbody_engine_simple.cpp:23"]}
{"id": "C87", "title": "With correction the rounding errors of the steps of the table-driven solver do not add up, without it they do", "statement": "A run of an explicit Runge-Kutta table (rk4, rkck, rkdp, rkdverk, rkf, Feagin 10, 12 and 14; with any adaptive subdivision) with correction on, in any arithmetic of unit roundoff u, with steps between dmin and delta on any direct-sum engine, ends without error within C (eps + delta^p + u + u^2/dmin) of the bodies, p being the order of the table and eps the error of the start. So for at most N <= 1/u steps of about equal length the error is C (eps + 1/N^p + u), whatever N: rounding costs no more than one rounding. Without correction this is false: one body with constant velocity in binary arithmetic of p bits loses exactly half a unit roundoff in every step of a suitable length, so that no such constants exist.", "quantifier": "For all motions off the softening distance, arithmetics of unit roundoff u, tables whose coefficients are correct up to a rounding, settings of the subdivision, direct-sum engines with every schedule and number of devices, and sequences of steps.", "why_tests_cant": "A test compares one run with correction against one without it; that the error stays bounded for every number of steps up to 1/u (about 10^16 in double precision) cannot be tried, and that no constants exist without correction is a statement about all arithmetics.", "anchors": ["nbody/nbody_solver_rk_butcher.cpp", "nbody/nbody_engine_simple.cpp", "nbody/nbody_engine.h", "README.md:13-31"]}
{"id": "C88", "title": "The lines a run prints describe its moments relative to the first line", "statement": "Every line of print_statistics carries step, time and number of computations of its moment, the computations since the line before, and, for the letters of the check list, the changes of momentum, angular momentum and energy in percent of their values at the first line, and the speed of the centre of mass since then; what is conserved is printed as 0 percent. (Violated: a conserved quantity that is zero is printed as not a number; the way of the centre of mass since the first line is divided by the time on the clock, so a run from time 0 prints 0, 1/2, 2/3, ... of the true speed, for Euler's, the midpoint, the classical Runge-Kutta and the trapeze solver on the direct-sum engine in particular.)", "quantifier": "For all numbers of bodies, masses of sum not zero, positions, velocities, check lists, sequences of reports, step lengths, report intervals and end times.", "why_tests_cant": "A test compares a printed value with a tolerance on one system; the factor by which the printed speed is wrong depends on the number of the report, and goes to one.", "anchors": ["nbody/nbody_data.cpp", "nbody/nbody_solver.cpp", "nbody/summation.h", "player/wgt_nbody_player.cpp"]}
{"id": "C89", "title": "The buttons of the player", "statement": "After any sequence of Start, Pause, Stop, Backward, Forward, passing time and moves of the slider, Start is enabled exactly if nothing is playing, Pause exactly if something is, Stop exactly if the animation is playing or paused; the slider stands at a frame of the stream and, once it has moved, the view shows that frame. Start plays a stream of N frames from the first to the last: after T milliseconds, however the timer cuts them, the slider stands at frame floor((N-1)T/5000), the frames shown increase, and after 5 seconds the last frame is shown and Start can be pressed again. Pausing and starting again loses nothing. Disagreements: Start goes on where the animation was, not where the user has put the slider; on a fresh player the first frame of the stream is not shown when it is played.", "quantifier": "all streams with fewer than 2^31 frames, all histories of buttons, ticks and slider moves", "why_tests_cant": "the histories are unbounded, and which button is enabled depends on the order of signals between three objects", "anchors": ["player/wgt_nbody_player_control.cpp:14", "player/wgt_nbody_player_control.cpp:155", "player/wgt_nbody_player_control.cpp:165", "player/wgt_nbody_player_control.cpp:178", "player/wgt_nbody_player_control.cpp:192", "player/wgt_nbody_player.cpp:60"]}
{"id": "C90", "title": "The writer of a stream on a disk that may be full", "statement": "However far the operating system takes the bytes of each call and whichever calls of open fail: (a) if nothing fails, the buffers of QFile and QTextStream are invisible: every write returns 0 and the files are those of an unbuffered writer, before and after close; (b) if a write returns -1, all frames written before are read back, after close, as they were; (c) if the positions of a frame have more than 16384 bytes, a write that returned 0 has put the whole frame into the data file, and if the status of the index stream is Ok the stream holds all frames including this one; (d) a failure to write the index line is not reported: the write returns 0, so does every later one, and no later line reaches the index file even if the disk has room again; (e) on a disk that takes no byte, opening a stream succeeds and every write returns 0 as long as all frames together have at most 16384 bytes, and every file is as before or empty; as soon as they have more (and parts are not smaller), one of the writes returns -1; (f) if colours, masses, positions and velocities have more than 16384 bytes each, a first write that returned 0 has put all of them into their files; (g) if a stream without parts is opened, every write returns 0 and the disk has room when the stream is closed, the data file holds all frames, however many calls were refused before; with parts this fails: bytes refused when a part is closed are lost without a word.", "quantifier": "all sequences of answers of the operating system (bytes taken per call, success of each open), all snapshots, all part sizes, all earlier files", "why_tests_cant": "A test on a real disk sees no failure; failures of single calls at every point of a run, with partial writes, cannot be enumerated", "anchors": ["nbody/nbody_data_stream.cpp:27", "nbody/nbody_data_stream.cpp:43", "nbody/nbody_data_stream.cpp:60", "nbody/nbody_data_stream.cpp:107", "nbody/nbody_data_stream.cpp:152", "nbody/nbody_data_stream.cpp:159", "nbody/nbody_data_stream.cpp:198", "nbody/nbody_solver.cpp:64"]}
{"id": "C91", "title": "The reported momentum, angular momentum and energy of a run stay near those at its start", "statement": "For a motion of the bodies whose pairs stay above the cutoff, and a solver of order r: there are K, a largest step and a largest deviation such that every run with smaller steps dt, from a start within rho of the motion and on an engine whose derivatives are off by at most theta, gets to its end, and in every frame of its stream, at every check and at the end the momentum, the angular momentum and the energy are within K(rho + dt^r + eta + theta) of those at the start (eta is the error of the printed coefficients of the Feagin tables, 0 for other solvers). The lines printed by print_statistics at the checks give, for each letter asked for whose quantity is not zero at the start, a number of percent that is at most K(rho + dt^r + eta + theta).", "quantifier": "all numbers of bodies, masses, motions above the cutoff, all solvers and ranks of the factory, all engines within theta, all step sizes below the bound, all run configurations, all counts of computations", "why_tests_cant": "The bound holds for all steps below a threshold and all motions; a test sees one motion at a few steps", "anchors": ["nbody/nbody_solver.cpp:55", "nbody/nbody_data.cpp:57", "nbody/nbody_data.cpp:349"]}
{"id": "C92", "title": "The tables of the benchmark and of the comparison with the ephemeris", "statement": "(a) compare_data gives the mean and the greatest distance of corresponding bodies; each is 0 exactly when all bodies coincide. (b) If the expected state has as many bodies as the run, the table that the comparison visitor prints has one row per body with its distance from the expected place at every check after the year 3002 and a last row with the means, and the line printed at the end is the least mean over all checks and the first time it occurs; with fewer expected bodies (or a file that could not be read) the first check reads outside an array, with more the printing does. (c) The table of distances has one row per body and one column per check. (d) run_bench puts into cell (i,j) the run of parameter set i with value j of the varied field, up to the time of that column if the time is what is varied; at the first run that fails it returns -1, leaves the later cells alone and runs nothing more. (e) The state that is saved as end_state and compared with expected_state is the state at the end of the run when max_time is a whole number of steps or exceeds one by more than a tenth of a step; when the clock comes within a tenth of a step of max_time without reaching it, the run goes on for another step but the state saved is the one before it, and with a check_step that is not positive it is the initial state.", "quantifier": "all numbers of bodies, all positions, all sequences of checks, all parameter sets and values, all results of the runs, all clocks, steps and maximal times", "why_tests_cant": "The step sizes and times at which the end state is one step old depend on the rounding of the clock; a test sees a few, and a table with the state of the wrong step looks like any other", "anchors": ["test/bench/bench.h:10", "test/bench/bench.h:26", "test/bench/bench.h:92", "test/bench/bench.h:120", "test/bench/bench.h:308", "test/solar/main.cpp:206", "test/solar/main.cpp:300", "test/solar/main.cpp:318", "nbody/nbody_data.cpp:60", "nbody/nbody_solver.cpp:84"]}
{"id": "C93", "title": "A recorded video holds the pictures that were drawn", "statement": "(a) For pictures whose width is a multiple of four, in particular those of 1920 times 1080 pixels the player renders, the image given to the video encoder has every pixel in its place and colour, whatever the unused bytes at the end of the lines hold; no byte outside the picture is read for any width. For every other width and at least two lines the second line begins with an unused byte, so the video is sheared, even for pictures of one colour. (b) The images of the video are the pictures of the recording, in order, from the first successful attempt to open the file on; in particular all of them if the file can be opened at once. Pictures before that, or all of them if the file can never be opened, are dropped without a word to the caller. (c) The name of a video ends in .avi: the name chosen if it does so in any mixture of cases, otherwise with .avi appended; images are recorded under the name chosen; nothing is recorded when the dialog is cancelled or the filter is neither of the two.", "quantifier": "all widths, heights, pictures and values of unused bytes, all numbers of frames, all outcomes of opening the file, all names", "why_tests_cant": "A test needs a display and an encoder, and the only width rendered hides the assumption on the length of a line", "anchors": ["player/nbody_frame_compressor_opencv.cpp:29", "player/nbody_frame_compressor_opencv.cpp:43", "player/nbody_frame_compressor_opencv.cpp:44", "player/wgt_nbody_player.cpp:86", "player/wgt_nbody_player.cpp:104", "player/wgt_nbody_view.cpp:116"]}
{"id": "C94", "title": "Text snapshots keep every bit of float and double numbers", "statement": "For every finite number of type float or double, denormal ones included, what save prints (a sign and seventeen significant digits in scientific notation) is a text without blanks and slashes that load reads back as exactly the same number, provided the printer and the reader of Qt round to nearest; so a state saved as text and loaded with its own units has the positions, velocities, masses and radii it had, bit for bit. With one digit less this would fail for the double next to one. For quadruple precision it fails: load reads doubles, so a quad is read back as it was exactly when it is a double; otherwise the result is a double, at most |x|/10^20 farther away than the nearest one; and the twenty-one digits that are printed are themselves too few, the quad next to one being printed as one.", "quantifier": "all finite values of the number types, all correctly rounding printers and readers, all states", "why_tests_cant": "A test can try some of the 2^64 doubles; which precision suffices for all of them is a theorem about powers of two and ten.", "anchors": ["nbody/nbody_data.cpp:417-440", "nbody/nbody_data.cpp:442-512", "nbody/nbtype_quad.h:55-62"]}
{"id": "C95", "title": "The times of recorded frames are kept to six digits", "statement": "The index of a stream keeps the time of a frame with six significant digits. So whatever double the time of a frame is, the index can be read; the time that is read differs from that of the frame by at most its hundred-thousandth part; times that have no more than six digits come back as they were; later frames never get earlier times; and a time that was read once stays the same however often the stream is copied. (Violated: that all times come back. All times from a power of ten to the two-hundred-thousandth part above it are read as that power of ten, so after a million steps of length one five frames in a row have the same time, and a run resumed there has a wrong clock.)", "quantifier": "all doubles (denormal ones included), all printers and readers that round to nearest", "why_tests_cant": "A test writes a few frames with short times, for which nothing is lost.", "anchors": ["nbody/nbody_data_stream.cpp:56-64", "nbody/nbody_data_stream.cpp:154-157", "nbody/nbody_data_stream_reader.cpp:152-155"]}
{"id": "C96", "title": "What a GPU kernel reads through a texture is what is in the buffer", "statement": "For every buffer content: a single number, or a group of four numbers, that a kernel of the texture variant of the CUDA Barnes-Hut engine reads through the texture the buffer gives for that size is exactly the number, or the four consecutive numbers, in the buffer, for float and for double (whose halves are put together from 32-bit channels), for groups of doubles up to number 2^30. However often and in whatever order of devices the textures of a buffer are asked for with one size of elements, every answer is the texture for that size, at most one is made per device, and the destructor destroys exactly those made. (Asking one buffer for both sizes, which the engine does not do, would give the texture of the first size for both, whose use has no defined result.)", "quantifier": "all buffers, indices, number types with textures, sequences of requests and devices", "why_tests_cant": "A test on a GPU tries one number type, one tree size and one order of requests.", "anchors": ["nbody/nbody_engine_cuda_memory.cpp:48-130", "nbody/nbody_engine_cuda_impl.cu:233-273", "nbody/nbody_engine_cuda_bh_tex.cpp:178-195"]}
{"id": "C97", "title": "How many steps a run can make", "statement": "In a build whose numbers have p bits (float 24, double 53): a run to a time of less than 2^(p-1) steps returns 0, whatever the step and the solver: rounding makes each step of the clock at least half and at most one and a half steps long, so the run takes at most twice as many steps as it should and ends less than one and a half steps after the requested time. While the multiples of the step are representable the number of steps and the clock are exact. (Violated: that every run returns. The clock never passes 2^(p+1) steps, so a run to a later time, in a float build one of more than 33 million steps, goes on for ever; for a step that is a power of two the limit is exactly 2^p steps, 16777216 in a float build.)", "quantifier": "all steps, requested times, solvers, precisions and ways to round ties", "why_tests_cant": "The failure needs tens of millions of steps to show, and then the symptom is a test that does not end; the limit depends on the step.", "anchors": ["nbody/nbody_data.cpp:177-181", "nbody/nbody_solver.cpp:55-105", "nbody/nbtype.h:19-26"]}
