{"id": "C01", "title": "Grain identity transfer is injective and stays within an order parameter", "statement": "When grains are matched between two tracking calls, every currently detected grain is given at most one previous grain identity, no two current grains are given the same previous identity, the inherited grain existed at the previous call, and it lived on the same order parameter as the current grain. Consequently the runtime checks 'order parameter of the matched grain differs' and 'not all grains mapped' inside a tracking call can never fire.", "quantifier": "all sets of old grains and new grains, any number of segments per grain, any geometry, any distance values (ties included), any number of order parameters", "why_tests_cant": "the outcome depends on the relative geometry of all grains at once (conflicts, chains of stolen matches); samples cannot cover all conflict patterns", "anchors": ["include/pf-applications/grain_tracker/tracking.h:transfer_grain_ids", "include/pf-applications/grain_tracker/tracking.h:extract_grain_indices_per_op", "include/pf-applications/grain_tracker/tracker.h:Tracker::track"]}
{"id": "C02", "title": "Grain identifiers are unique and new grains get fresh ones", "statement": "After a successful tracking call all grains have pairwise distinct identifiers, and a grain that was not matched to a previous grain receives an identifier larger than every identifier known at the previous call.", "quantifier": "all old grain tables, all detection results, all thresholds and all settings of the flag allowing new grains", "why_tests_cant": "uniqueness must hold for every mixture of matched, new and skipped grains over the whole history of the run", "anchors": ["include/pf-applications/grain_tracker/tracker.h:Tracker::track", "include/pf-applications/grain_tracker/tracking.h:transfer_grain_ids"]}
{"id": "C03", "title": "Point-to-grain lookup stays consistent with the grain table after renaming", "statement": "After tracking, the particle found at any cell resolves to exactly the identifier its grain received: every lookup entry that pointed to detected grain g before renaming points to the new identifier of g afterwards (to 'no grain' if g was skipped), whatever chains or swaps of identifiers occur, and it keeps its segment number.", "quantifier": "all detection results, all identifier permutations, chains, collisions between old and new identifiers", "why_tests_cant": "in-place renaming through a sequence of overwrites can corrupt entries for particular permutations only", "anchors": ["include/pf-applications/grain_tracker/tracker.h:Tracker::track", "include/pf-applications/grain_tracker/tracker.h:Tracker::get_grain_and_segment"]}
{"id": "C04", "title": "Every detected grain is accounted for by a tracking call", "statement": "In a tracking call each detected grain is exactly one of: matched and kept, registered as a new grain, skipped because it is unmatched and its maximum order parameter value does not exceed the new-grain threshold, or the call raises the inconsistency exception; the exception is raised exactly when new grains are forbidden and an unmatched grain exceeds the threshold. A matched grain is flagged growing exactly when its measure strictly increased.", "quantifier": "all old tables, detections, thresholds, flag settings", "why_tests_cant": "a case analysis over every combination of per-grain outcomes and flags", "anchors": ["include/pf-applications/grain_tracker/tracker.h:Tracker::track"]}
{"id": "C05", "title": "A failed tracking call leaves the tracker unchanged", "statement": "If a tracking call raises the inconsistency exception (so the driver rejects the step and retries with a smaller time step), the table of grains is the one that was in place before the call, so that the retry matches against the same previous grains.", "quantifier": "all tracker states and all detections that make the call fail", "why_tests_cant": "needs a failing detection at a particular moment of the history; a property of an exceptional path", "anchors": ["include/pf-applications/grain_tracker/tracker.h:Tracker::track", "applications/sintering/include/pf-applications/sintering/driver.h:run (ExcGrainsInconsistency handler)"]}
{"id": "C06", "title": "Grain numbering at detection is contiguous and periodic images are merged", "statement": "At first detection grains are numbered 0..n-1 without gaps, two particles belong to the same grain exactly when they are connected through periodic boundaries (directly or transitively), the segments of a grain are numbered 0..m-1 without gaps, each particle is a unique (grain, segment) pair, and the internal consistency check on the number of grains never fires.", "quantifier": "all numbers of order parameters, particles and periodic connections", "why_tests_cant": "grouping is transitive over arbitrary connection graphs; numbering runs over several order parameters", "anchors": ["include/pf-applications/grain_tracker/tracker.h:Tracker::detect_grains", "include/pf-applications/grain_tracker/periodicity_graph.h:PeriodicityGraph::build_groups"]}
{"id": "C07", "title": "Global segment index is a bijection", "statement": "After a successful setup or tracking call in which no grain was skipped, the global index of a grain segment is smaller than the total number of segments, different segments have different indices and every index is used, so per-segment data accumulated in a flat array never alias.", "quantifier": "all grain tables and lookup tables", "why_tests_cant": "aliasing appears only for particular shapes of the lookup table", "anchors": ["include/pf-applications/grain_tracker/tracker.h:Tracker::build_inverse_mapping", "include/pf-applications/grain_tracker/tracker.h:Tracker::get_grain_segment_index"]}
{"id": "C08", "title": "Overlapping grains never share an order parameter after reassignment", "statement": "Whenever order parameter reassignment completes without an exception, no two grains whose safety zones overlap carry the same order parameter, on the fast path and on the full colouring path alike; the number of order parameters used does not exceed the configured maximum after a full colouring, otherwise the call fails.", "quantifier": "all sets of grains and overlap relations, fast and full mode, forced or not, any limit", "why_tests_cant": "quantifies over all graphs; the fast path takes data dependent decisions (order by degree, fallback)", "anchors": ["include/pf-applications/grain_tracker/tracker.h:Tracker::reassign_grains", "include/pf-applications/grain_tracker/grain.h:Grain::overlaps"]}
{"id": "C09", "title": "Order parameter identifiers in use are gap-free after reassignment", "statement": "After reassignment the order parameters in use are exactly 0..k-1 where k is the reported number of active order parameters, the renumbering that removes gaps keeps the relative order of order parameters and never merges two different ones, and the reassignment flag is reported whenever any grain changed its order parameter.", "quantifier": "all sets of used order parameters with any gaps, all grain tables", "why_tests_cant": "arbitrary sets of gaps; off-by-one errors appear only for particular gap patterns", "anchors": ["include/pf-applications/grain_tracker/tracker.h:Tracker::reassign_grains", "include/pf-applications/grain_tracker/tracking.h:extract_active_order_parameter_ids"]}
{"id": "C10", "title": "Remapping moves every grain's values to its new order parameter without loss", "statement": "At every mesh cell, after remapping, the values a grain had in its previous order parameter are found in its new order parameter, order parameters that were vacated and not taken over are zero, and order parameters not involved keep their values, for arbitrary simultaneous moves including swaps and longer cycles.", "quantifier": "all numbers of order parameters, all sets of simultaneous moves at a cell, all field values", "why_tests_cant": "every permutation and chain structure of moves must work; tests sample a few cycles", "anchors": ["include/pf-applications/grain_tracker/tracker.h:Tracker::remap_new", "include/pf-applications/grain_tracker/remap_graph.h:RemapGraph"]}
{"id": "C11", "title": "Remapping schedule is complete, ordered and cycle-free", "statement": "Cycle resolution followed by rearrangement returns every requested move exactly once (cycle-closing moves are replaced by one move into and one move out of temporary storage), orders the moves so that an order parameter is read and cleared before it is overwritten, and its internal lookups never fail.", "quantifier": "all finite move graphs (arbitrary vertices, parallel edges, several cycles)", "why_tests_cant": "quantifies over all directed multigraphs", "anchors": ["include/pf-applications/grain_tracker/remap_graph.h:RemapGraph::resolve_cycles", "include/pf-applications/grain_tracker/remap_graph.h:RemapGraph::rearrange", "include/pf-applications/grain_tracker/remap_graph.h:RemapGraph::add_remapping"]}
{"id": "C12", "title": "Flood filling finds exactly the connected regions above the threshold", "statement": "Local particle detection gives two cells the same particle number exactly when they are connected by a path of locally owned neighbouring cells whose values all exceed the threshold; cells not exceeding the threshold get no number; numbers are 0..n-1; detection always terminates; the recorded maximum is the maximum over the region.", "quantifier": "all meshes (finite neighbour relations that are symmetric), all value fields, all thresholds", "why_tests_cant": "connectivity is a reachability statement over all graphs", "anchors": ["include/pf-applications/grain_tracker/distributed_stitching.h:run_flooding", "include/pf-applications/grain_tracker/distributed_stitching.h:run_flooding_prep"]}
{"id": "C13", "title": "Distributed particle stitching is independent of the partition", "statement": "After stitching, two locally detected particles (on any ranks) obtain the same global number exactly when they are connected through chains of touching ghost/owner particles; the global numbers are 0..n-1; the iterative exchange terminates; both implemented algorithms induce the same grouping.", "quantifier": "all numbers of ranks (including ranks without particles), all local particle counts, all inter-rank contact graphs", "why_tests_cant": "depends on the number of ranks and on arbitrary chains across ranks", "anchors": ["src/grain_tracker/distributed_stitching.cc:perform_distributed_stitching", "src/grain_tracker/distributed_stitching.cc:perform_distributed_stitching_via_graph", "src/grain_tracker/distributed_stitching.cc:number_of_stitched_particles", "src/grain_tracker/distributed_stitching.cc:connected_components"]}
{"id": "C14", "title": "Global particle maxima do not depend on the partition", "statement": "The maximum order parameter value reported for a particle is the maximum over all its cells on all ranks, irrespective of how the particle is cut by the partition.", "quantifier": "all partitions, in particular particles whose local pieces on one rank are disconnected", "why_tests_cant": "the failing case needs a particle entering the same rank twice", "anchors": ["include/pf-applications/grain_tracker/distributed_stitching.h:compute_particles_max_values"]}
{"id": "C15", "title": "Particle measure, centre and radius are partition independent and enclosing", "statement": "The measure and barycentre of a particle are the sums over all its cells irrespective of which rank owns them or in which order they are visited, and the bounding radius reaches at least every cell centre plus half the cell diameter of the particle.", "quantifier": "all assignments of cells to particles and to ranks", "why_tests_cant": "quantifies over all partitions and orders of visiting", "anchors": ["include/pf-applications/grain_tracker/distributed_stitching.h:compute_particles_info", "include/pf-applications/grain_tracker/distributed_stitching.h:compute_particles_radii"]}
{"id": "C16", "title": "Grain geometry aggregates and overlap test are sound and symmetric", "statement": "A grain's maximum radius, maximum value and total measure are the maximum, maximum and sum over its segments for every order of adding them; the distance between grains and the overlap test are symmetric; the overlap test may answer 'no' only if the true distance is not smaller than the requested buffer; the transfer zones derived from nearest neighbour distances never overlap.", "quantifier": "all grains with any number of segments, all buffers", "why_tests_cant": "real valued geometry over arbitrary many segments", "anchors": ["include/pf-applications/grain_tracker/grain.h:Grain::add_segment", "include/pf-applications/grain_tracker/grain.h:Grain::overlaps", "include/pf-applications/grain_tracker/grain.h:Grain::distance", "include/pf-applications/grain_tracker/grain.h:Grain::transfer_buffer", "include/pf-applications/grain_tracker/grain.h:Grain::add_neighbor"]}
{"id": "C17", "title": "Block vector structural operations behave like list operations", "statement": "Inserting a block and removing it at the same position is the identity, removing and reinserting restores the vector, moving a block from i to j equals removing it and inserting it at j with all other blocks keeping their order, resizing keeps the leading blocks, and the sequence of operations that strips the stationary blocks before an external integrator and puts them back restores the original layout.", "quantifier": "all vectors, all positions, all sequences of operations", "why_tests_cant": "arbitrary sequences and positions", "anchors": ["include/pf-applications/lac/dynamic_block_vector.h:insert_block", "include/pf-applications/lac/dynamic_block_vector.h:remove_block", "include/pf-applications/lac/dynamic_block_vector.h:move_block", "include/pf-applications/lac/dynamic_block_vector.h:reinit", "include/pf-applications/time_integration/time_marching.h:TimeMarchingArkode"]}
{"id": "C18", "title": "Element access in a block vector addresses the blocks in order", "statement": "A global element index addresses the element obtained by concatenating all blocks in their current order, after every sequence of structural operations on the vector.", "quantifier": "all vectors and all histories of structural operations", "why_tests_cant": "stale index tables appear only for particular histories", "anchors": ["include/pf-applications/lac/dynamic_block_vector.h:operator()", "include/pf-applications/lac/dynamic_block_vector.h:collect_sizes", "include/pf-applications/lac/dynamic_block_vector.h:create_view"]}
{"id": "C19", "title": "Changing the number of order parameters keeps mechanics fields attached", "statement": "When the number of active order parameters grows or shrinks, concentration, chemical potential, the surviving order parameters and the displacement components are all retained in the solution vectors, in this order; only vacated order parameters disappear and only zero order parameters are appended.", "quantifier": "all numbers of blocks, all numbers of added or removed order parameters, with and without displacement components", "why_tests_cant": "depends on the interplay of three block counts; the coupled case with shrinking is rarely exercised", "anchors": ["applications/sintering/include/pf-applications/sintering/driver.h:run_grain_tracker (component count change)", "include/pf-applications/lac/dynamic_block_vector.h:move_block"]}
{"id": "C20", "title": "Solution history holds the solutions of the last accepted steps", "statement": "After every accepted step the history holds the current solution followed by the solutions of the most recent accepted steps in order, a rejected step restores the solution of the last accepted step and leaves the older entries unchanged, and selecting current, recent and old entries yields exactly those positions.", "quantifier": "all sequences of accepted and rejected steps, all integrator orders", "why_tests_cant": "must hold for every accept/reject pattern", "anchors": ["include/pf-applications/time_integration/solution_history.h:SolutionHistory", "applications/sintering/include/pf-applications/sintering/driver.h:run (time loop)"]}
{"id": "C21", "title": "BDF weights are consistent for arbitrary step sizes", "statement": "For BDF1, BDF2 and BDF3 the weights sum to zero and the discrete time derivative of every polynomial of degree at most the order is exact at the new time, for all positive, variable step sizes; during start-up the weights equal those of the highest order for which step sizes are available.", "quantifier": "all positive step size sequences, all polynomial data", "why_tests_cant": "an algebraic identity in real step sizes", "anchors": ["include/pf-applications/time_integration/time_schemes.h:BDF1Scheme", "include/pf-applications/time_integration/time_schemes.h:BDF2Scheme", "include/pf-applications/time_integration/time_schemes.h:BDF3Scheme", "include/pf-applications/time_integration/time_integrators.h:compute_time_derivative"]}
{"id": "C22", "title": "Stored step sizes are the actual last step sizes", "statement": "At every attempted step the step sizes used for the weights are the attempted step followed by the sizes of the last accepted steps in order (zero where no such step exists), whatever pattern of failures, halvings and growth preceded.", "quantifier": "all histories of accepted and rejected steps", "why_tests_cant": "arbitrary accept/reject patterns over the run", "anchors": ["include/pf-applications/time_integration/time_integrator_data.h:update_dt", "include/pf-applications/time_integration/time_integrator_data.h:replace_dt", "applications/sintering/include/pf-applications/sintering/driver.h:run (time loop)"]}
{"id": "C23", "title": "Time integrator data survive saving and loading", "statement": "Writing the time integrator data to a restart file and reading it back yields the same order, the same step sizes and the same weights, for every implemented scheme, implicit and explicit.", "quantifier": "all schemes and all stored step sizes", "why_tests_cant": "must hold for every scheme and order, including the degenerate ones", "anchors": ["include/pf-applications/time_integration/time_integrator_data.h:save", "include/pf-applications/time_integration/time_integrator_data.h:load"]}
{"id": "C24", "title": "Explicit time stepping equals the classical scheme", "statement": "One explicit step advances the time dependent blocks exactly by the forward Euler or the classical fourth order Runge-Kutta formula for du/dt = -M^-1 R(t,u) with the stage times t, t+dt/2, t+dt/2, t+dt, ends at time t+dt, and evaluates stationary blocks algebraically from the last state.", "quantifier": "all right hand sides, states, step sizes", "why_tests_cant": "a functional identity for arbitrary right hand sides", "anchors": ["include/pf-applications/time_integration/time_marching.h:TimeMarchingExplicit::make_step", "include/pf-applications/time_integration/time_schemes.h:RungeKutta4Scheme", "include/pf-applications/time_integration/time_schemes.h:ForwardEulerScheme"]}
{"id": "C25", "title": "Nonlinear solver returns only converged solutions", "statement": "If the nonlinear solver returns normally, the last residual satisfies the absolute tolerance or the relative tolerance with respect to the initial residual; with damping the residual norm strictly decreases from iteration to iteration; at most the maximum number of iterations is performed; in all other cases, in particular for not-a-number residuals, an exception is raised.", "quantifier": "all residual functions, linear solver results, tolerances, iteration limits", "why_tests_cant": "quantifies over all residual sequences including not-a-number", "anchors": ["include/pf-applications/lac/solvers_nonlinear.h:DampedNewtonSolver::solve", "include/pf-applications/lac/solvers_nonlinear.h:NewtonSolverSolverControl::check"]}
{"id": "C26", "title": "Time loop reaches the final time exactly and always ends", "statement": "For every pattern of step failures, the simulation either stops at the final time (within tolerance) after finitely many step attempts or aborts with the minimum time step message; simulated time strictly increases with every accepted step and never exceeds the final time, provided the first step fits into the remaining interval.", "quantifier": "all oracles deciding success, failure and good convergence of every attempt; all growth factors, limits and start times", "why_tests_cant": "termination and bounds over all infinite failure patterns", "anchors": ["applications/sintering/include/pf-applications/sintering/driver.h:run (time loop)"]}
{"id": "C27", "title": "A rejected step has no effect except a halved step size", "statement": "After a rejected step the time, the step counter, the solution and the older history entries equal those before the attempt, the step size is halved, and the run aborts exactly when the halved step is not larger than the configured minimum.", "quantifier": "all states and all failing attempts", "why_tests_cant": "property of every failure point of the loop", "anchors": ["applications/sintering/include/pf-applications/sintering/driver.h:run (process_failure)"]}
{"id": "C28", "title": "The step size respects the configured bounds", "statement": "After step control an enlarged step size never exceeds the configured maximum nor the remaining time, the step size never decreases except through a failure or the remaining time, and every attempted step size stays above the configured minimum once a failure has occurred.", "quantifier": "all histories of accepted and rejected steps", "why_tests_cant": "bounds over all histories", "anchors": ["applications/sintering/include/pf-applications/sintering/driver.h:run (time step adaptation)"]}
{"id": "C29", "title": "A restarted run continues like the uninterrupted run", "statement": "Resuming from a restart snapshot with full history gives the same sequence of step sizes, the same integrator weights and the same times as the run that was not interrupted.", "quantifier": "all histories up to the snapshot, all continuation patterns", "why_tests_cant": "compares two executions for every interruption point", "anchors": ["applications/sintering/include/pf-applications/sintering/driver.h:run (restart output)", "applications/sintering/include/pf-applications/sintering/driver.h:Problem (restart constructor)", "include/pf-applications/time_integration/time_integrator_data.h:TimeIntegratorData"]}
{"id": "C30", "title": "Restart snapshots survive a crash while writing", "statement": "After the first complete snapshot, at every crash point, including in the middle of writing a snapshot, at least one complete snapshot is available; with a limit of m snapshots the m most recent complete ones are kept.", "quantifier": "all crash points, all limits on the number of snapshots, all numbers of snapshots", "why_tests_cant": "crash points inside a multi-file write are not reachable by unit tests", "anchors": ["applications/sintering/include/pf-applications/sintering/driver.h:run (restart output)"]}
{"id": "C31", "title": "Restart and output schedule", "statement": "Snapshots scheduled by number of calls are taken at steps 1, 1+k, 1+2k, ... for interval k independently of interruptions; snapshots scheduled by simulation time are at least the interval apart; after every accepted step less than one output interval has passed since the last output; the final state is always output and saved.", "quantifier": "all intervals, all sequences of time steps, all interruption points", "why_tests_cant": "quantifies over all step sequences", "anchors": ["src/base/timer.cc:TimerPredicate", "applications/sintering/include/pf-applications/sintering/driver.h:run (output and restart)"]}
{"id": "C32", "title": "The predictor yields the linear extrapolation and never destroys the state", "statement": "If the linear predictor is enabled the initial guess of a step is the linear extrapolation of the last two solutions in time, or the last solution if no second one is available.", "quantifier": "all schemes, step sizes, restart and start-up situations", "why_tests_cant": "start-up, restart and failure situations combine", "anchors": ["applications/sintering/include/pf-applications/sintering/driver.h:run (predictor)", "include/pf-applications/time_integration/solution_history.h:extrapolate"]}
{"id": "C33", "title": "History entries are kept on a common order parameter numbering", "statement": "Whenever order parameters are renumbered by the grain tracker, all solution vectors that enter the next time step use the same numbering.", "quantifier": "all step sequences, all positions at which tracking happens, all integrator orders", "why_tests_cant": "depends on the interleaving of tracking, committing and stepping", "anchors": ["applications/sintering/include/pf-applications/sintering/driver.h:run_grain_tracker", "applications/sintering/include/pf-applications/sintering/driver.h:run (check_inconsistency)", "include/pf-applications/time_integration/solution_history.h:commit_old_solutions"]}
{"id": "C34", "title": "Mesh subdivision keeps the requested resolution", "statement": "The pair (prime, refinements) chosen for a requested number of divisions is the best approximation among the considered candidates, and harmonising refinements over the directions does not change the resolved number of cells in any direction.", "quantifier": "all requested division numbers, all prime limits, all dimensions", "why_tests_cant": "number theoretic claim over all integers", "anchors": ["src/grid/grid_tools.cc:get_primes", "src/grid/grid_tools.cc:decompose_to_prime_tuple", "src/grid/grid_tools.cc:adjust_divisions_to_primes"]}
{"id": "C35", "title": "Refinement marking respects the level limits", "statement": "After marking, no cell at the maximum level is refined, no cell at the minimum level is coarsened, cells above the maximum level are coarsened, and cells inside the interface below the maximum level are refined and never coarsened.", "quantifier": "all cells, levels, limits and indicator values", "why_tests_cant": "all combinations of flags and levels", "anchors": ["include/pf-applications/grid/grid_tools.h:prepare_coarsening_and_refinement"]}
{"id": "C36", "title": "Piecewise linear profiles interpolate and stay within bounds", "statement": "The temperature-like profile returns the given value at each given point, lies between the neighbouring values in between, is constant outside (or linearly extrapolated if requested), for any order of adding points.", "quantifier": "all point sets, all insertion orders, all arguments", "why_tests_cant": "real valued interpolation for arbitrary many points", "anchors": ["include/pf-applications/numerics/functions.h:Function1DPiecewise"]}
{"id": "C37", "title": "Clamping the solution is exact, local and idempotent", "statement": "Limiting vector values forces every selected entry into the admissible interval, leaves entries already inside and unselected entries unchanged, and applying it twice has no further effect.", "quantifier": "all vectors, masks and bounds", "why_tests_cant": "all inputs", "anchors": ["include/pf-applications/numerics/phasefield_tools.h:limit_vector_values"]}
{"id": "C38", "title": "Free energy derivatives are exact", "statement": "The implemented first and second derivatives of the bulk free energy with respect to concentration and every order parameter are the mathematical derivatives of the implemented free energy, and the fast mixed-derivative product equals the sum over all other order parameters.", "quantifier": "all concentrations, all numbers and values of order parameters", "why_tests_cant": "identity over the reals for arbitrarily many order parameters", "anchors": ["applications/sintering/include/pf-applications/sintering/free_energy.h:FreeEnergy::Evaluation", "applications/sintering/include/pf-applications/sintering/free_energy.h:apply_d2f_detaidetaj", "include/pf-applications/numerics/power_helper.h:PowerHelper"]}
{"id": "C39", "title": "Mobility is non-negative and its linearisation exact", "statement": "For non-negative coefficients and order parameters the scalar mobility is non-negative for every concentration, and the linearised mobility equals the derivative of the mobility wherever the concentration lies in [0,1].", "quantifier": "all concentrations, order parameter values, coefficients, directions", "why_tests_cant": "identity over the reals, arbitrarily many order parameters", "anchors": ["applications/sintering/include/pf-applications/sintering/mobility.h:MobilityScalar", "applications/sintering/include/pf-applications/sintering/mobility.h:MobilityTensorial"]}
{"id": "C40", "title": "Cut-off storage addresses exactly the relevant components", "statement": "With the grain cut-off enabled, the compressed per-cell storage contains exactly the values of the non-grain components and of the relevant grains in order, its extents match the precomputed offsets, and a grain that is not relevant is never looked up.", "quantifier": "all masks, all numbers of grains, cells and quadrature points", "why_tests_cant": "offset arithmetic for arbitrary masks", "anchors": ["applications/sintering/include/pf-applications/sintering/operator_sintering_data.h:set_component_mask", "applications/sintering/include/pf-applications/sintering/operator_sintering_data.h:fill_quadrature_point_values", "applications/sintering/include/pf-applications/sintering/operator_sintering_data.h:get_grain_to_relevant_grain"]}
{"id": "C41", "title": "Advection velocity is taken from the right grain", "statement": "The advection velocity returned for an order parameter at a cell is the velocity computed from the data of that order parameter's grain, with and without cut-off.", "quantifier": "all cut-off masks and all order parameters", "why_tests_cant": "fails only for particular masks", "anchors": ["applications/sintering/include/pf-applications/sintering/advection.h:AdvectionVelocityData::get_velocity", "applications/sintering/include/pf-applications/sintering/advection.h:AdvectionVelocityData::get_relevant_id"]}
{"id": "C42", "title": "Particle table reading is faithful", "statement": "Reading a comma separated line yields its fields in order such that joining them with commas gives the line back, the number of fields is the number of commas plus one, and every line after the header produces exactly one particle numbered consecutively.", "quantifier": "all input texts", "why_tests_cant": "all texts", "anchors": ["applications/sintering/src/csv_reader.cc:CSVRow", "applications/sintering/include/pf-applications/sintering/particle.h:read_particles"]}
{"id": "C43", "title": "Restart solution files restore the solution", "statement": "Writing several distributed vectors to one file and reading it back with the same partition restores every vector on every rank; the file regions of different ranks do not overlap and leave no gaps.", "quantifier": "all numbers of ranks, vectors and local sizes", "why_tests_cant": "offset arithmetic over arbitrary partitions", "anchors": ["include/pf-applications/base/solution_serialization.h:SolutionSerialization"]}
{"id": "C44", "title": "The initial particle packing is enclosed by the computed domain", "statement": "The domain computed from a particle packing encloses every particle and is the smallest such box.", "quantifier": "all particle packings, any position in space", "why_tests_cant": "fails only for packings in particular octants", "anchors": ["applications/sintering/include/pf-applications/sintering/initial_values_cloud.h:InitialValuesCloud"]}
{"id": "C45", "title": "Energy parameters reproduce the physical energies", "statement": "The computed free energy coefficients reproduce the given surface and grain boundary energies through the equilibrium relations gamma_s = sqrt(2)/6 sqrt(kappa_c+kappa_p) sqrt(A+7B) and gamma_gb = 2/sqrt(3) sqrt(B kappa_p), in scaled units.", "quantifier": "all admissible energies, widths and scales", "why_tests_cant": "identity over the reals", "anchors": ["applications/sintering/src/tools.cc:compute_energy_params"]}
{"id": "C46", "title": "Saved grains are restored", "statement": "Saving the grain table and loading it into an empty tracker restores every grain with all its segments and attributes, and the set of active order parameters can be reconstructed from it.", "quantifier": "all grain tables", "why_tests_cant": "all tables", "anchors": ["include/pf-applications/grain_tracker/tracker.h:Tracker::save_grains", "include/pf-applications/grain_tracker/tracker.h:Tracker::load_grains", "include/pf-applications/grain_tracker/grain.h:Grain::serialize"]}
{"id": "C47", "title": "Remote point attains the radius", "statement": "If the remote points are requested, the remote point of each particle is the extent of one of its furthest cells, so that its distance from the centre of the particle equals the radius, for every distribution of the cells over ranks.", "quantifier": "all meshes, partitions and particle numberings", "why_tests_cant": "all partitions", "anchors": ["include/pf-applications/grain_tracker/distributed_stitching.h:compute_particles_radii"]}
{"id": "C48", "title": "Block vector arithmetic acts on the concatenation of the blocks", "statement": "The inner product, the Euclidean, absolute-sum and maximum norms, the mean value, linear combinations and scaled copies of block vectors equal those of the vectors obtained by concatenating the blocks; a vector counts as zero exactly if all elements are zero.", "quantifier": "all vectors, all block counts and block sizes", "why_tests_cant": "all layouts", "anchors": ["include/pf-applications/lac/dynamic_block_vector.h:l2_norm", "include/pf-applications/lac/dynamic_block_vector.h:linfty_norm", "include/pf-applications/lac/dynamic_block_vector.h:mean_value", "include/pf-applications/lac/dynamic_block_vector.h:sadd"]}
{"id": "C49", "title": "The mesh created from the interface width resolves it", "statement": "The mesh created from the interface width has, after the initial global and delayed refinements, cells no larger than the interface width divided by the requested number of elements per interface in every direction.", "quantifier": "all domain sizes, interface widths, divisions per interface and prime limits", "why_tests_cant": "fails only for particular divisors", "anchors": ["include/pf-applications/grid/grid_tools.h:create_mesh_from_interface"]}
{"id": "C50", "title": "Rotation follows the torque", "statement": "The rotation of a grain is driven in the direction of the torque: the rigid body rotation computed from the forces acting on a grain performs non-negative work with these forces, and the two dimensional computation equals the three dimensional one for forces and points in the plane.", "quantifier": "all forces, points of action, grain centres and non-negative mobilities", "why_tests_cant": "identity over the reals; sign errors look plausible in simulations", "anchors": ["include/pf-applications/base/tensor.h:cross_product", "applications/sintering/include/pf-applications/sintering/advection.h:AdvectionCellData", "applications/sintering/include/pf-applications/sintering/advection.h:get_rotation_velocity", "applications/sintering/include/pf-applications/sintering/operator_advection.h:do_evaluate_forces"]}
{"id": "C51", "title": "Bulk free energy is non-negative and vanishes exactly in pure phases", "statement": "For positive coefficients the bulk free energy is non-negative for all concentrations between 0 and 2 and all order parameters, and zero exactly in the pure phases: the void (concentration and all order parameters zero) and the interior of one grain (concentration one, one order parameter one, all others zero).", "quantifier": "all concentrations in the range, all numbers and values of order parameters, all positive coefficients", "why_tests_cant": "inequality over the reals in arbitrarily many variables", "anchors": ["applications/sintering/include/pf-applications/sintering/free_energy.h:FreeEnergy"]}
{"id": "C52", "title": "The Jacobian kernel is the derivative of the residual kernel", "statement": "At every quadrature point the linearised sintering operator applied to an increment equals the derivative of the residual (including the time derivative and advection) along this increment, in the values and gradients of all components.", "quantifier": "all states with concentration in [0,1], all increments, velocities, coefficients and numbers of order parameters", "why_tests_cant": "identity over the reals; an inconsistent Jacobian only shows as slow Newton convergence", "anchors": ["applications/sintering/include/pf-applications/sintering/operator_sintering_generic.h:SinteringOperatorGenericQuad", "applications/sintering/include/pf-applications/sintering/operator_sintering_generic.h:SinteringOperatorGenericResidualQuad"]}
{"id": "C53", "title": "Rotation is about the centre of the grain", "statement": "The velocity field supplied for a grain is the rigid body motion about the centre stored in the grain tracker, whatever the number of cells of the grain and their distribution over ranks.", "quantifier": "all grains, cell counts and partitions", "why_tests_cant": "only wrong away from the origin", "anchors": ["applications/sintering/include/pf-applications/sintering/operator_advection.h:do_evaluate_forces", "applications/sintering/include/pf-applications/sintering/advection.h:AdvectionVelocityData"]}
{"id": "C54", "title": "The advection data produced by the operators can be read by the kernels", "statement": "After the forces have been evaluated, the index tables read by the kernels for every cell lie within the tables that have been written, and every cell obtains the entries of the segments it belongs to.", "quantifier": "all meshes, grain tables and numbers of order parameters", "why_tests_cant": "memory safety", "anchors": ["applications/sintering/include/pf-applications/sintering/operator_advection.h:evaluate_forces", "applications/sintering/include/pf-applications/sintering/advection.h:AdvectionVelocityData"]}
{"id": "C55", "title": "The Jacobian kernel reads the linearisation point that has been stored", "statement": "The values and gradients of the linearisation point which the Jacobian kernel reads at a cell and quadrature point are those of the current solution that have been stored for this cell, quadrature point and component.", "quantifier": "all numbers of order parameters, cells and quadrature points, scalar and tensorial mobility, with and without advection", "why_tests_cant": "stride arithmetic; wrong entries only slow down or break Newton's method", "anchors": ["applications/sintering/include/pf-applications/sintering/operator_sintering_generic.h:SinteringOperatorGenericQuad", "applications/sintering/include/pf-applications/sintering/operator_sintering_data.h:fill_quadrature_point_values"]}
{"id": "C56", "title": "Forces between grains are equal and opposite", "statement": "At every quadrature point the forces which the grains exert on each other sum up to zero over all order parameters, so that the advection forces do not move the packing as a whole.", "quantifier": "all values and gradients of order parameters, concentrations, coefficients and sets of relevant order parameters, with and without filter", "why_tests_cant": "identity over the reals for arbitrarily many grains", "anchors": ["applications/sintering/include/pf-applications/sintering/operator_advection.h:do_evaluate_forces"]}
{"id": "C57", "title": "Initial fields are physical", "statement": "The initial order parameters and concentration lie in [0,1], are 1 in the core of a particle and 0 outside of its interface, decrease monotonically through the interface, and the concentration at a point is at least every order parameter and 1 at most.", "quantifier": "all points, radii, interface widths, directions and numbers of order parameters", "why_tests_cant": "inequalities over the reals", "anchors": ["applications/sintering/include/pf-applications/sintering/initial_values_spherical.h:is_in_sphere", "applications/sintering/include/pf-applications/sintering/initial_values_ch_ac.h:do_value", "applications/sintering/include/pf-applications/sintering/initial_values_array.h:op_value"]}
{"id": "C58", "title": "Generated arrangements give every grain exactly one order parameter", "statement": "The tables of the circle, hypercube and cloud arrangements assign every particle to exactly one order parameter within the table, numbered consecutively, and touching particles get different order parameters.", "quantifier": "all numbers of particles and order parameters", "why_tests_cant": "combinatorics of tables of arbitrary size", "anchors": ["applications/sintering/include/pf-applications/sintering/initial_values_circle.h:InitialValuesCircle", "applications/sintering/include/pf-applications/sintering/initial_values_hypercube.h:InitialValuesHypercube", "applications/sintering/include/pf-applications/sintering/initial_values_cloud.h:InitialValuesCloud"]}
{"id": "C59", "title": "The contact plane of two overlapping particles is the plane of their intersection", "statement": "For two overlapping particles the plane stored for the contact contains the circle in which their surfaces intersect, and both particles store the same plane.", "quantifier": "all centres and radii of overlapping particles", "why_tests_cant": "identity over the reals with a case distinction", "anchors": ["applications/sintering/include/pf-applications/sintering/initial_values_cloud.h:InitialValuesCloud"]}
{"id": "C60", "title": "Values of clouds of particles", "statement": "The value of an order parameter of a cloud at a point is the value of the only one of its particles which reaches there; it is always defined and lies in [0,1].", "quantifier": "all clouds and points", "why_tests_cant": "needs the colouring to keep particles of the same order parameter apart, including their interfaces", "anchors": ["applications/sintering/include/pf-applications/sintering/initial_values_cloud.h:op_value", "applications/sintering/include/pf-applications/sintering/initial_values_cloud.h:InitialValuesCloud"]}
{"id": "C61", "title": "Local frames of contacts are orthonormal", "statement": "The rotation built for a contact is orthonormal and its first axis is the direction of the contact, for all pairs of different centres.", "quantifier": "all pairs of different points, two and three dimensions", "why_tests_cant": "degenerate directions are exceptional points which sampling misses", "anchors": ["applications/sintering/include/pf-applications/sintering/initial_values_cloud.h:InitialValuesCloud"]}
{"id": "C62", "title": "Necks between particles are a partition of unity", "statement": "In the neck between two particles the two order parameters sum up to one across the grain boundary, and outside of the boundary layer only the particle on its own side is visible.", "quantifier": "all contacts and points of the neck", "why_tests_cant": "identity over the reals", "anchors": ["applications/sintering/include/pf-applications/sintering/initial_values_cloud.h:op_value"]}
{"id": "C63", "title": "Polygonal microstructures are sampled consistently", "statement": "A point is inside of a polygon cut in two if and only if it is inside of exactly one of its pieces; the distance to a contour is the smallest distance to its points; the values lie in [0,1] and do not jump at the contour; skipping grains by their bounding boxes changes no value.", "quantifier": "all polygons and points", "why_tests_cant": "geometry over the reals for polygons of any size", "anchors": ["applications/sintering/include/pf-applications/sintering/initial_values_microstructure.h:InitialValuesMicrostructure"]}
{"id": "C64", "title": "Grain growth: derivatives, linearisation and output are consistent", "statement": "The derivatives of the grain growth energy are its derivatives, the linearised operator is the derivative of the residual, the operator applying the mixed derivatives does so, and the output fields contain the quantities of their names.", "quantifier": "all order parameters, gradients, numbers of grains and time integration weights", "why_tests_cant": "identities over the reals with loops over any number of grains", "anchors": ["applications/sintering/include/pf-applications/sintering/operator_grain_growth.h:GrainGrowthFreeEnergy", "applications/sintering/include/pf-applications/sintering/operator_grain_growth.h:do_vmult_kernel", "applications/sintering/include/pf-applications/sintering/operator_grain_growth.h:do_evaluate_nonlinear_residual", "applications/sintering/include/pf-applications/sintering/operator_grain_growth.h:do_add_data_vectors_kernel"]}
{"id": "C65", "title": "Grand potential model: derivatives and linearisation are consistent", "statement": "The implemented derivatives of the interpolation functions and grand potentials are the derivatives of the implemented functions, and the linearised operator is the derivative of the residual.", "quantifier": "all states, parameters and numbers of order parameters", "why_tests_cant": "identities over the reals with piecewise polynomials", "anchors": ["applications/sintering/include/pf-applications/sintering/operator_grand_potential_greenquist.h:GreenquistFreeEnergy", "applications/sintering/include/pf-applications/sintering/operator_grand_potential_greenquist.h:do_vmult_kernel", "applications/sintering/include/pf-applications/sintering/operator_grand_potential_greenquist.h:do_evaluate_nonlinear_residual"]}
{"id": "C66", "title": "Inelastic strain rates and their derivatives", "statement": "The inelastic strain rate is a symmetric tensor, vanishes before the start time, does not depend on the numbering of the grains, and its implemented derivatives with respect to the divergences, the concentration and the order parameters are the derivatives of the implemented rate.", "quantifier": "all concentrations, order parameters, gradients and parameters", "why_tests_cant": "cut-offs make the derivatives piecewise, which sampling of smooth states misses", "anchors": ["applications/sintering/include/pf-applications/sintering/inelastic.h:InelasticStrains"]}
{"id": "C67", "title": "The Courant check is exact", "statement": "The check of the Courant condition returns true if and only if on all ranks, for all cells, all order parameters with a velocity and all quadrature points the distance travelled within the time step is smaller than the diameter of the cell; it refuses to work with diameters of an outdated mesh.", "quantifier": "all meshes, partitions, velocities and time steps", "why_tests_cant": "nested early exits and unused lanes for inputs of any size", "anchors": ["applications/sintering/include/pf-applications/sintering/cfl_checker.h:check_courant", "applications/sintering/include/pf-applications/sintering/cfl_checker.h:precompute_cell_diameters"]}
{"id": "C68", "title": "Boxes and plane sections classify points consistently", "statement": "A point has weight one in the integrals over a control box if and only if it is strictly inside, and the classification inside/boundary/outside agrees with the weights; a cell is reported as cut if the box boundary crosses it; the intersection of an edge with a plane is the point of the edge on the plane, the value there is the linear interpolant, and after clipping the interpolant along a cut edge takes the iso value exactly at the plane.", "quantifier": "all boxes, points, cells, edges, planes and values", "why_tests_cant": "geometry over an ordered field in any dimension; tolerances make the cases at the faces easy to miss by testing", "anchors": ["include/pf-applications/grid/bounding_box_filter.h:position", "include/pf-applications/grid/bounding_box_filter.h:filter", "include/pf-applications/grid/bounding_box_filter.h:intersects", "include/pf-applications/grid/bounding_box_filter.h:intersect_line_plane", "include/pf-applications/grid/grid_tools.h:filter_mesh_withing_bounding_box", "applications/sintering/include/pf-applications/sintering/projection.h:build_projection"]}
{"id": "C69", "title": "Control boxes are proper and their outputs do not overwrite each other", "statement": "The automatic control box is a proper box inside of the domain whenever it is used; degenerate boxes of the input are dropped and the others kept in order; the whole domain is processed unless switched off; different boxes write to different names, and the suffix of a box does not depend on whether the whole domain is processed as well.", "quantifier": "all domains, paddings, radii and lists of boxes", "why_tests_cant": "for all inputs, including the corner cases in which the padding uses up the domain", "anchors": ["applications/sintering/include/pf-applications/sintering/driver.h:output_result"]}
{"id": "C70", "title": "The average coordination number", "statement": "The reported number is the sum of the numbers of neighbours over all grains inside of the box divided by the number of these grains; it is the same on all ranks and does not depend on the distribution of the cells.", "quantifier": "all meshes, partitions, grain assignments and boxes", "why_tests_cant": "packing, exchange and unpacking of nested containers of any size", "anchors": ["applications/sintering/include/pf-applications/sintering/postprocessors.h:compute_average_coordination_number"]}
{"id": "C71", "title": "Mesh quality", "statement": "The reported mesh quality is one minus the largest variation of an order parameter in a cell; both functions reporting it agree, the result lies in [0,1] for order parameters in [0,1] and does not depend on the partition.", "quantifier": "all meshes, partitions and solutions", "why_tests_cant": "minima over nested ranges of any size and over ranks", "anchors": ["applications/sintering/include/pf-applications/sintering/postprocessors.h:estimate_mesh_quality_min", "applications/sintering/include/pf-applications/sintering/postprocessors.h:output_mesh_quality_and_min"]}
{"id": "C72", "title": "The box of the shrinkage encloses the material", "statement": "The box reported for the shrinkage contains every point at which the concentration exceeds the threshold, it is the smallest such box up to the resolution of the refined points, and it does not depend on the partition.", "quantifier": "all meshes, partitions and concentrations", "why_tests_cant": "running minima over cells, candidate cells and ranks", "anchors": ["applications/sintering/include/pf-applications/sintering/postprocessors.h:estimate_shrinkage"]}
{"id": "C73", "title": "Pores are the connected regions of the void", "statement": "Two cells get the same local pore number if and only if they are connected through cells in which all blocks stay below the threshold within the box; the contour data mark exactly the pores that do not touch the boundary of the domain, independent of the partition.", "quantifier": "all meshes with mutual neighbours, thresholds, boxes and partitions", "why_tests_cant": "recursion over the mesh, for meshes of any size", "anchors": ["applications/sintering/include/pf-applications/sintering/postprocessors.h:run_flooding", "applications/sintering/include/pf-applications/sintering/postprocessors.h:detect_pores", "applications/sintering/include/pf-applications/sintering/postprocessors.h:output_porosity_contours_vtu"]}
{"id": "C74", "title": "The ellipsoid of a particle has the stated centre, axes and radii", "statement": "A point is inside the ellipsoid if and only if the sum of its squared coordinates along the axes divided by the squared radii is at most one; scaling by a factor multiplies all radii by it; the radii computed from the moments of inertia are those of the homogeneous ellipsoid with these moments; an ellipsoid built from its quadratic form has the radii of the surface on which the form vanishes.", "quantifier": "all centres, orthonormal axes, radii, moments and points", "why_tests_cant": "algebra over the real numbers; quadratic forms in matrix notation", "anchors": ["include/pf-applications/grain_tracker/ellipsoid.h:Ellipsoid", "include/pf-applications/grain_tracker/ellipsoid.h:get_radii_from_inertia"]}
{"id": "C75", "title": "The distance of two ellipsoids", "statement": "The distance computed for two ellipsoids is the smallest distance of a point of one to a point of the other, zero if they intersect, and does not depend on their order.", "quantifier": "all pairs of ellipsoids and iteration limits", "why_tests_cant": "iteration with a convergence criterion, bounded by a maximum number of iterations", "anchors": ["include/pf-applications/grain_tracker/ellipsoid.h:distance"]}
{"id": "C76", "title": "The elliptical representation of a particle encloses all its cells", "statement": "The ellipsoid computed for a particle contains all cells of the particle on all ranks, and its centre is the barycentre of the particle.", "quantifier": "all particles, cells and partitions", "why_tests_cant": "running maxima over cells and ranks", "anchors": ["include/pf-applications/grain_tracker/elliptical_helpers.h:scale_elliptical_representations", "include/pf-applications/grain_tracker/tracker.h:Tracker"]}
{"id": "C77", "title": "The rotation of a particle", "statement": "The rotation computed from two frames of principal axes is the rotation that maps one frame to the other, whichever of the three ways of computing it is used.", "quantifier": "all right-handed orthonormal frames", "why_tests_cant": "matrix identities over the real numbers", "anchors": ["include/pf-applications/grain_tracker/motion.h:rotation_tensor_from_axes", "include/pf-applications/grain_tracker/motion.h:rotation_via_quaternions"]}
{"id": "C78", "title": "Constrained unknowns in the application of an operator", "statement": "Applying an operator to a vector ignores the entries of constrained unknowns, writes for each of them the diagonal value one times its entry to the destination, and leaves the source as it was, for block vectors and for vectors in which the components of a point are stored together.", "quantifier": "all operators, index sets without repetition and source vectors", "why_tests_cant": "loops over constrained indices, arbitrary operators", "anchors": ["applications/sintering/include/pf-applications/sintering/operator_base.h:vmult"]}
{"id": "C79", "title": "Splitting a vector into blocks and merging it again", "statement": "The fast copies between a block vector and a vector in which the components of a point are stored together put each entry at its place, are inverse to each other, and are undefined exactly if sizes do not match.", "quantifier": "all numbers of blocks per group and sizes", "why_tests_cant": "loops over pieces of arbitrary size", "anchors": ["include/pf-applications/numerics/vector_tools.h:split_up_fast", "include/pf-applications/numerics/vector_tools.h:merge_fast"]}
{"id": "C80", "title": "Displacement constraints of the coupled operators", "statement": "The coupled operators act as the identity on displacement unknowns that are constrained or lie at points with small concentration, do not use their entries for the other unknowns, and leave the source unchanged, in the matrix-free and in the matrix-based variant.", "quantifier": "all operators, constraint lists and source vectors", "why_tests_cant": "loops over lists of indices in pre- and postprocessing steps", "anchors": ["applications/sintering/include/pf-applications/sintering/operator_sintering_coupled_monolithic.h:SinteringOperatorCoupledMonolithic", "applications/sintering/include/pf-applications/sintering/operator_sintering_coupled_base.h:SinteringOperatorCoupledBase"]}
{"id": "C81", "title": "Domain integrals count each cell once", "statement": "The integrals over the domain are the sums over all cells of all ranks of the weighted values at the quadrature points, and unused lanes do not contribute.", "quantifier": "all meshes, partitions and lane widths", "why_tests_cant": "sums over batches, lanes and ranks", "anchors": ["applications/sintering/include/pf-applications/sintering/operator_base.h:calc_domain_quantities"]}
{"id": "C82", "title": "The material law is Hooke's law", "statement": "The stress computed from a displacement gradient is the one of an isotropic elastic body by Hooke's law, for plane strain, plane stress and in space; rotations cause no stress, the law is symmetric and the stress does no negative work.", "quantifier": "all moduli, Poisson's ratios and displacement gradients", "why_tests_cant": "algebra over fields; matrices", "anchors": ["applications/structural/include/pf-applications/structural/stvenantkirchhoff.h:StVenantKirchhoff", "applications/structural/include/pf-applications/structural/tools.h:apply_l", "applications/sintering/include/pf-applications/sintering/operator_sintering_coupled_base.h:get_stress"]}
{"id": "C83", "title": "Prescribed displacements in the elastic operator", "statement": "The elastic operator is linear, acts as the identity on unknowns with prescribed displacements, and its residual vanishes there if and only if the displacement has the prescribed value.", "quantifier": "all cell contributions, prescribed values and vectors", "why_tests_cant": "loops over constrained indices, arbitrary cell contributions", "anchors": ["applications/structural/include/pf-applications/structural/operator_elastic_linear.h:LinearElasticOperator"]}
{"id": "C84", "title": "Clamping removes rigid motions", "statement": "Clamping a section constrains, in each requested direction, exactly the unknowns in the plane through the origin, and for the other directions the point at the origin, independent of the partition and without listing an unknown twice, such that no rigid motion respects all constraints.", "quantifier": "all meshes, partitions, origins and requested directions", "why_tests_cant": "loops over cells, faces and ranks; linear algebra of rigid motions", "anchors": ["applications/sintering/include/pf-applications/sintering/boundary_conditions.h:clamp_section", "applications/sintering/include/pf-applications/sintering/boundary_conditions.h:clamp_section_within_particle", "applications/sintering/include/pf-applications/sintering/boundary_conditions.h:clamp_domain"]}
{"id": "C85", "title": "The origin for clamping", "statement": "The origin is the centre of the segment nearest to the centre of the domain, among the growing grains if these are preferred; the vertex used is the nearest vertex of a cell around it on exactly one rank, and the particle is the largest one at this cell.", "quantifier": "all grains, ranks, meshes and orders of traversal", "why_tests_cant": "running minima and maxima over lists", "anchors": ["applications/sintering/include/pf-applications/sintering/boundary_conditions.h:find_center_origin", "applications/sintering/include/pf-applications/sintering/boundary_conditions.h:find_containing_cell_and_dof_index"]}
{"id": "C86", "title": "Preconditioner operators are diagonal blocks", "statement": "The Cahn-Hilliard, Allen-Cahn and blocked Allen-Cahn operators assembled for the block preconditioner are the diagonal blocks of the linearised sintering operator, including the advection terms, for any number of order parameters.", "quantifier": "all parameters, states at a quadrature point, velocities and increments", "why_tests_cant": "A block that is not the diagonal block (wrong sign, wrong coefficient, wrong component in the advection term) makes the preconditioner fit worse the faster particles move; the linear solver needs more iterations or fails.", "anchors": ["applications/sintering/include/pf-applications/sintering/preconditioners.h:OperatorCahnHilliard::do_vmult_kernel", "applications/sintering/include/pf-applications/sintering/preconditioners.h:OperatorAllenCahn::do_vmult_kernel", "applications/sintering/include/pf-applications/sintering/operator_sintering_generic.h:precondition_advection_ac"]}
{"id": "C87", "title": "Approximated Allen-Cahn blocks", "statement": "The labels all, const, max and avg select the second derivative of the block itself, none, the one of largest absolute value and the mean; other labels are rejected; dropping small entries removes exactly those below the tolerance relative to the largest one and keeps symmetry; zero diagonals become one; inactive blocks contribute nothing.", "quantifier": "all lists of second derivatives, labels, matrices, tolerances", "why_tests_cant": "A user who selects an approximation gets the one that is named; a zero diagonal makes the incomplete factorisation fail.", "anchors": ["applications/sintering/include/pf-applications/sintering/preconditioners.h:OperatorAllenCahnBlocked::to_value", "applications/sintering/include/pf-applications/sintering/preconditioners.h:OperatorAllenCahnBlocked::get_block_system_matrix"]}
{"id": "C88", "title": "Every block is preconditioned once", "statement": "The block preconditioner passes the first two blocks, the order parameters and the displacements to their parts, each block exactly once; the block versions of AMG and ILU apply the preconditioner of its own matrix, or of the only matrix, to every block, for any number of blocks.", "quantifier": "all numbers of blocks and approximations", "why_tests_cant": "A block that is skipped, taken twice or taken with a preconditioner that does not exist gives a wrong search direction or an access beyond the array.", "anchors": ["applications/sintering/include/pf-applications/sintering/preconditioners.h:BlockPreconditioner2::vmult", "include/pf-applications/lac/preconditioners.h:BlockAMG::vmult", "include/pf-applications/lac/preconditioners.h:BlockILU"]}
{"id": "C89", "title": "Cell-wise and point-wise preconditioners", "statement": "The preconditioner with inverses of cell matrices weights the cells around an unknown so that the weights add up to one, is symmetric and positive semidefinite for such blocks and does not depend on the partition; entries of rows of other ranks are found; the point-wise preconditioner solves the system of the diagonal blocks.", "quantifier": "all meshes, blocks, vectors, partitions", "why_tests_cant": "CG needs a symmetric preconditioner; results that depend on the partition cannot be reproduced.", "anchors": ["include/pf-applications/lac/preconditioners.h:InverseBlockDiagonalMatrix", "include/pf-applications/lac/preconditioners.h:InverseComponentBlockDiagonalMatrix"]}
{"id": "C90", "title": "Work vectors fit the system", "statement": "Preconditioners that merge the blocks use work vectors of the current size whenever they are applied after an update for the current system.", "quantifier": "all sequences of changes of the system, clear, update and application", "why_tests_cant": "Work vectors of an earlier mesh or number of order parameters are accessed beyond their end.", "anchors": ["include/pf-applications/lac/preconditioners.h:AMG", "include/pf-applications/lac/preconditioners.h:ILU", "include/pf-applications/lac/preconditioners.h:InverseComponentBlockDiagonalMatrix"]}
{"id": "C91", "title": "Linear solvers and the fallback to GMRES", "statement": "If Bicgstab does not converge within its own limit, GMRES starts from the same first guess with the limit of the control; the limit of the control is as before, the number of steps reported is the number made, and each label selects its solver.", "quantifier": "all solvers, guesses, limits, labels", "why_tests_cant": "A fallback that continues from a diverged vector or with the small limit fails; wrong numbers of steps mislead the step size control and statistics.", "anchors": ["include/pf-applications/lac/solvers_linear.h:SolverBicgstabWrapper", "include/pf-applications/lac/solvers_linear.h:create"]}
{"id": "C92", "title": "Product with the Jacobian by finite differences", "statement": "The product is the difference quotient of the residual of the time step (with forces of the advection evaluated at the same point) with a step that is zero only for the zero vector, for every admissible interleaving of the loops; exact for affine residuals; the linearisation point is the same afterwards; this holds for all wrappers of the residual.", "quantifier": "all residuals, vectors, step length methods, schedules of the cell loops", "why_tests_cant": "A wrong product gives wrong Newton directions; a linearisation point that is not restored corrupts the solution of all later products.", "anchors": ["include/pf-applications/lac/jacobian_operator.h:JacobianFree", "include/pf-applications/lac/residual_wrapper.h:ResidualWrapperBase", "applications/sintering/include/pf-applications/sintering/residual_wrapper.h:ResidualWrapperAdvection"]}
{"id": "C93", "title": "Numerical tangent matrix", "statement": "Every entry in the pattern is within the tolerance of the derivative for affine residuals, whatever the matrix contained before; the state is the same afterwards; other entries are untouched.", "quantifier": "all residuals, patterns, states, previous matrices", "why_tests_cant": "The matrix is used in place of the tangent and for preconditioners; stale entries belong to an earlier solution.", "anchors": ["include/pf-applications/lac/evaluation.h:calc_numeric_tangent", "applications/sintering/include/pf-applications/sintering/operator_base.h:initialize_system_matrix"]}
{"id": "C94", "title": "Bit masks", "statement": "A bit is reported as set exactly if it was given to the mask; any_bit_of reports whether one of the bits was given.", "quantifier": "all lists of bits", "why_tests_cant": "The masks decide which parts of the free energy are evaluated.", "anchors": ["include/pf-applications/base/mask.h:Mask", "include/pf-applications/base/mask.h:is_bit_set", "include/pf-applications/base/mask.h:any_bit_of"]}
{"id": "C95", "title": "Options on the command line", "statement": "The first argument may be a file; each option --name=value or --name=\"value\" sets exactly that parameter to exactly that value, in order, after the file; anything else is refused; the parameters are checked at the end.", "quantifier": "all command lines", "why_tests_cant": "Options that are ignored or changed silently give a simulation with other parameters than asked for.", "anchors": ["include/pf-applications/base/input.h:parse_params"]}
{"id": "C96", "title": "Names of scopes", "statement": "Inside any nesting of scopes, also with exceptions, the name is made of the names of the scopes around, and the stack is the same after a scope as before.", "quantifier": "all nestings of scopes, sequences, exceptions and handlers", "why_tests_cant": "A mismatch throws in a destructor and ends the program.", "anchors": ["include/pf-applications/base/scoped_name.h:ScopedName"]}
{"id": "C97", "title": "Cells with hanging nodes", "statement": "A cell of the rank is marked exactly if a coarser active cell shares a face or an edge with it; the weight of marked cells is the parameter times 10000, of others 10000.", "quantifier": "all meshes with consistent numbering of lines, all parameters", "why_tests_cant": "The weights balance the load between ranks.", "anchors": ["include/pf-applications/grid/constraint_helper.h:Helper", "include/pf-applications/grid/constraint_helper.h:hanging_nodes_weighting"]}
{"id": "C98", "title": "Sparsity pattern of cells", "statement": "The pattern of a cell has every pair of unknowns whose entry of a cell matrix with values and gradients can differ from zero, for all components.", "quantifier": "all elements, quadratures, numbers of components", "why_tests_cant": "Entries that are not in the pattern cannot be stored; matrices would be wrong or the assembly fails.", "anchors": ["include/pf-applications/dofs/dof_tools.h:make_sparsity_pattern"]}
{"id": "C99", "title": "Reading grains from contours", "statement": "Every contour of a file of contours becomes one grain with exactly its points, with its order parameter as written in the list, found under that order parameter; files that are not of this form are refused.", "quantifier": "all files, interface widths and directions", "why_tests_cant": "Grains that are lost or read from memory that is not part of the file give another microstructure than the one measured.", "anchors": ["applications/sintering/include/pf-applications/sintering/initial_values_microstructure_imaging.h:InitialValuesMicrostructureImaging", "applications/sintering/include/pf-applications/sintering/initial_values_microstructure.h:op_value"]}
{"id": "C100", "title": "Reading Voronoi cells", "statement": "Every cell of a Voronoi file becomes one grain with exactly the listed corners in the given order; grains that share a corner get different order parameters; files that are cut or empty are refused.", "quantifier": "all files, colourings meeting the contract, interface widths and directions", "why_tests_cant": "Grains with a common corner and the same order parameter merge; cut files give another microstructure.", "anchors": ["applications/sintering/include/pf-applications/sintering/initial_values_microstructure_voronoi.h:InitialValuesMicrostructureVoronoi"]}
{"id": "C101", "title": "Tangent used in a Newton step", "statement": "In every Newton step the linear system has the tangent that the parameters ask for (analytic, numerical, or by differences), taken at the current solution, whatever earlier solves left behind; a preconditioner that is updated is made from a tangent at the current solution.", "quantifier": "all configurations, states, sequences of steps and updates", "why_tests_cant": "A stale or other tangent gives slow or failing Newton iterations and makes comparisons of tangents meaningless.", "anchors": ["include/pf-applications/time_integration/time_marching.h:TimeMarchingImplicit"]}
{"id": "C102", "title": "Report of nonlinear residuals", "statement": "For every check of convergence the report has the norm of the residual, of each physical quantity and their ratios to the first ones, and the linear iterations of that step; quantities cover every block of the residual once; reporting has no influence on convergence, with every nonlinear solver.", "quantifier": "all residuals, sequences of checks, numbers of blocks", "why_tests_cant": "The report is what users see of the convergence; reading blocks that do not exist ends the program.", "anchors": ["include/pf-applications/time_integration/time_marching.h:TimeMarchingImplicit", "applications/sintering/include/pf-applications/sintering/driver.h:nl_quantities_to_check"]}
{"id": "C103", "title": "Nonlinear solvers are exchangeable", "statement": "The wrappers of NOX and SNES return the solution and the number of steps of the wrapped solver, throw exactly if it did not converge, count steps of failed solves as the damped solver does, and update the preconditioner in the steps that the parameters ask for.", "quantifier": "all solvers, limits, sequences of solves", "why_tests_cant": "The time loop relies on the exception and on the numbers to change the step size.", "anchors": ["include/pf-applications/lac/solvers_nonlinear_snes.h:SNESSolver", "include/pf-applications/lac/solvers_nonlinear.h:NonLinearSolverWrapper"]}
{"id": "C104", "title": "Fields in output files", "statement": "Exactly the blocks with a name are written, in order, also for sections; consecutive equal names are written as one vector or tensor exactly if there are as many as such a field has components.", "quantifier": "all numbers of blocks, lists of names, dimensions", "why_tests_cant": "Missing or mixed up fields make the results unusable.", "anchors": ["include/pf-applications/numerics/output.h:BlockVectorWrapper", "include/pf-applications/numerics/output.h:build_default_output", "include/pf-applications/numerics/data_out.h:get_nonscalar_data_ranges"]}
{"id": "C105", "title": "Printed grains do not depend on numbering", "statement": "The list of grains that is printed does not depend on the numbers of grains, the order of segments and how a sort resolves ties.", "quantifier": "all maps of grains, all sorts that meet the standard", "why_tests_cant": "The lists are compared between runs and numbers of processes in tests.", "anchors": ["include/pf-applications/grain_tracker/output.h:print_grains_invariant"]}
{"id": "C106", "title": "Residuals and tangents of the small applications", "statement": "The residual of the Allen-Cahn and Cahn-Hilliard applications is that of the implicit Euler scheme for the gradient flow of the double well energy, the right-hand side of the explicit ones that of the explicit scheme, and the product with the tangent is the derivative of the residual at the linearisation point.", "quantifier": "all meshes, degrees, vectors, parameters", "why_tests_cant": "A wrong residual gives wrong results, a wrong tangent destroys convergence.", "anchors": ["applications/allen_cahn/allen_cahn_impl.cc:NonLinearOperator", "applications/allen_cahn/allen_cahn_impl_two_components.cc:NonLinearOperator", "applications/cahn_hilliard/cahn_hilliard_impl.cc:NonLinearOperator", "applications/allen_cahn/allen_cahn.cc:Test"]}
{"id": "C107", "title": "Conservation and time in the Cahn-Hilliard applications", "statement": "The amount of the component is constant in time, also with failed steps and changing step sizes; the time of the loop is the time of the solution; the concentration moves along the gradient of its own chemical potential.", "quantifier": "all meshes, initial values, sequences of step sizes and failures", "why_tests_cant": "Conservation is the defining property of the equation; output is labelled with the time.", "anchors": ["applications/cahn_hilliard/cahn_hilliard_impl.cc:run", "applications/cahn_hilliard/cahn_hilliard.cc:run"]}
{"id": "C108", "title": "Kim-Kim-Suzuki model", "statement": "The concentrations of the phases make up the concentration with equal chemical potentials, their gradients and the driving forces are derivatives of these and of the energy, every explicit Runge-Kutta method keeps the sum of the phases and the amount, and if the phases sum up to one no evaluation divides by zero.", "quantifier": "all meshes, states, tables of Runge-Kutta methods, numbers of steps", "why_tests_cant": "Otherwise phases appear from nothing or the run ends in NaN.", "anchors": ["applications/grand_potential/kks.cc:evaluate_rhs", "applications/grand_potential/kks.cc:calc_grad_ca"]}
{"id": "C109", "title": "Damped Newton scheme of the small applications", "statement": "On return the vector meets a tolerance and was reached by as many accepted steps as are counted, each with the least number of halvings that reduces the residual sufficiently, and the norm of the residual decreases in every step; an exception is thrown exactly if the damping, the linear solver or the limit fail (also for NaN), and leaves the last accepted vector. Precondition: the preconditioner is not to be updated every zero steps.", "quantifier": "all operators, norms with NaN, linear solvers, limits, tolerances", "why_tests_cant": "The time loops trust the vector after a return and restart after an exception.", "anchors": ["include/pf-applications/lac/newton.h:NewtonSolver"]}
{"id": "C110", "title": "Modes of the sintering programs", "statement": "The program starts with exactly the initial values (or the restart, or the help) that the command line asks for and with the parameters behind them; anything else is refused with an exception: unknown modes, missing arguments and files, radii and numbers of particles that are not positive, too many order parameters.", "quantifier": "all command lines", "why_tests_cant": "A misunderstood command line wastes a simulation.", "anchors": ["applications/sintering/include/pf-applications/sintering/runner.h:runner"]}
{"id": "C111", "title": "Direct neighbours of particles", "statement": "Two particles are direct neighbours exactly if they have different order parameters and share a cell or a face; the relation is symmetric, known on all ranks and independent of the partition.", "quantifier": "all meshes, partitions, particle numberings", "why_tests_cant": "Direct neighbours get the distance zero, which decides about the reassignment of order parameters.", "anchors": ["include/pf-applications/grain_tracker/distributed_stitching.h:get_direct_neighbors"]}
{"id": "C112", "title": "Distances of particles by fronts", "statement": "The fronts growing from the particles come to an end on every mesh and partition, fill the void, and for every two regions that share a face the length of the shortest way across such a face is recorded; on uniform meshes every cell belongs to a nearest particle; the result is independent of the partition.", "quantifier": "all meshes, partitions, particles", "why_tests_cant": "A distance that is missing lets two grains with the same order parameter approach each other without remapping.", "anchors": ["include/pf-applications/grain_tracker/distributed_stitching.h:run_flooding_prep", "include/pf-applications/grain_tracker/distributed_stitching.h:estimate_particle_distances"]}
{"id": "C113", "title": "Distances of wavefront representations", "statement": "The tables of distances are filled within their bounds; the distance of two representations is symmetric, the estimated one within an order parameter, zero for direct neighbours and finite for all close particles; the printed offset is half of the smallest distance.", "quantifier": "all meshes, partitions, particles, order parameters", "why_tests_cant": "The grain tracker compares these distances with the buffer to find neighbours.", "anchors": ["include/pf-applications/grain_tracker/tracker.h:detect_grains", "include/pf-applications/grain_tracker/representation.h:RepresentationWavefront"]}
{"id": "C114", "title": "Fields provided by the operators", "statement": "For every set of requested fields the operators add exactly the components of these fields known to them to the output, under every name the quantity with that name at every quadrature point; no value is left unwritten and nothing is written beyond the allocated vectors; fields that cannot be computed are refused.", "quantifier": "all numbers of order parameters, dimensions, sets of fields, quadrature points, operators", "why_tests_cant": "Quantities under wrong names are not noticed; writing beyond a vector corrupts memory.", "anchors": ["applications/sintering/include/pf-applications/sintering/operator_sintering_base.h:do_add_data_vectors_kernel", "applications/sintering/include/pf-applications/sintering/operator_sintering_generic.h:do_add_data_vectors_kernel", "applications/sintering/include/pf-applications/sintering/operator_sintering_coupled_monolithic.h:do_add_data_vectors_kernel", "applications/sintering/include/pf-applications/sintering/operator_grain_growth.h:do_add_data_vectors_kernel", "applications/sintering/include/pf-applications/sintering/operator_grand_potential_greenquist.h:do_add_data_vectors_kernel", "applications/sintering/include/pf-applications/sintering/operator_base.h:get_vector_output_entries_mask"]}
{"id": "C115", "title": "Integrals over the domain", "statement": "Every column of the table has the label of its integrand and is the integral over all cells of all ranks in use, restricted by the filter of the box; unused order parameters are zero; unknown labels are refused, the default labels are accepted by every operator; the free energy is the sum of bulk and interface energy.", "quantifier": "all labels, filters, partitions, batches, states", "why_tests_cant": "The integrals are the scalar results of a simulation.", "anchors": ["applications/sintering/include/pf-applications/sintering/operator_sintering_base.h:build_domain_quantities_evaluators", "applications/sintering/include/pf-applications/sintering/operator_grain_growth.h:build_domain_quantities_evaluators", "applications/sintering/include/pf-applications/sintering/operator_grand_potential_greenquist.h:build_domain_quantities_evaluators", "applications/sintering/include/pf-applications/sintering/operator_base.h:do_calc_domain_quantities"]}
{"id": "C116", "title": "File of particle contours round trip", "statement": "The file of contours of the particles that are written by all ranks, whatever the order of the ranks, is read back by the visualisation script as the same particles: numbers, order parameters, representation (centre and radius, or box) up to rounding of the printed numbers, and the points of the contours; the bounding box covers the domain. Preconditions: the header is shorter than 2^32 characters.", "quantifier": "all grains, partitions, orders of the ranks, number formats that parse what they print", "why_tests_cant": "The pictures and measurements of a simulation are made from these files.", "anchors": ["applications/sintering/include/pf-applications/sintering/postprocessors.h:output_grain_contours", "applications/sintering/include/pf-applications/sintering/postprocessors.h:write_grain_contours_tex", "include/pf-applications/grain_tracker/representation.h:save"]}
{"id": "C117", "title": "File of projected contours", "statement": "The file of contours in a section is read by the same script as the circles in which the plane cuts the spheres of the particles, with their centres and radii, and the bounding box of the section.", "quantifier": "all spheres, planes, ranks", "why_tests_cant": "The section shows the particles at the right places with the right sizes.", "anchors": ["applications/sintering/include/pf-applications/sintering/projection.h:output_grain_contours_projected"]}
{"id": "C118", "title": "Section of the mesh", "statement": "The section of the mesh with a plane orthogonal to an axis covers each point of the section of the domain with the plane exactly once, with cells that have the values of the solution interpolated along the edges.", "quantifier": "all meshes of boxes, directions, locations, values", "why_tests_cant": "A section with doubled, missing or wrong cells gives wrong contours and projected quantities.", "anchors": ["applications/sintering/include/pf-applications/sintering/projection.h:build_projection"]}
{"id": "C119", "title": "Grain boundaries and their area", "statement": "The mesh of the grain boundaries has exactly the pieces of the level surfaces of the grains where the product of the grain with the others is above the limit; the area is half of their measure inside of the box over all ranks, it decreases with the limit and is zero for a single grain; the area of the surface is the measure of the level surface of the concentration.", "quantifier": "all meshes, nodal values, pieces, limits, boxes, ranks", "why_tests_cant": "The areas are results of a simulation that are compared with experiments.", "anchors": ["applications/sintering/include/pf-applications/sintering/postprocessors.h:build_grain_boundaries_mesh", "applications/sintering/include/pf-applications/sintering/postprocessors.h:compute_grain_boundaries_area", "applications/sintering/include/pf-applications/sintering/postprocessors.h:compute_surface_area"]}
{"id": "C120", "title": "Estimate of the overhead", "statement": "The histogram has the number of cells with each number of grains over all ranks, the estimate is the number of cells for all blocks relative to the cells needed if every order parameter had its own mesh, in percent above one.", "quantifier": "all meshes, partitions, numbers of blocks", "why_tests_cant": "The printed numbers decide whether separate meshes pay off; a failing report ends the simulation.", "anchors": ["applications/sintering/include/pf-applications/sintering/postprocessors.h:estimate_overhead"]}
{"id": "C121", "title": "Schedule of refinement and grain tracking", "statement": "A run refines the mesh exactly after the steps that are multiples of the frequency and tracks the grains after every step or every multiple of the frequency, whatever steps fail; whenever the solver is called, the data of the tracker, the boundary conditions and the diameters of the cells belong to the current mesh; the solution belongs to the counted step; a restart continues the schedule.", "quantifier": "all parameters, sequences of accepted and failed steps, restarts", "why_tests_cant": "Forces and boundary conditions computed with data of an old mesh are wrong without notice.", "anchors": ["applications/sintering/include/pf-applications/sintering/driver.h:run"]}
{"id": "C122", "title": "Coarsened copies and statistics of the mesh", "statement": "The copy of the mesh coarsened k times is the mesh without the cells of the k finest levels, with the values of the solution at the vertices; the printed numbers of cells are those of the mesh: with and without hanging nodes, in families that were not refined, and of the uniformly refined mesh with as many levels; the totals do not depend on the partition.", "quantifier": "all meshes, partitions, numbers of coarsening steps, dimensions", "why_tests_cant": "Evaluations on coarsened meshes and reports on adaptivity rely on it.", "anchors": ["include/pf-applications/grid/grid_tools.h:coarsen_triangulation", "applications/sintering/include/pf-applications/sintering/driver.h:initialize"]}
{"id": "C123", "title": "Steps with ARKODE", "statement": "A step of size dt from the time t integrates the time-dependent equations from t to t+dt starting at the given solution, with the stationary unknowns in their places satisfying their equations whenever the right-hand side is evaluated, and afterwards all unknowns are at t+dt; also after failed steps.", "quantifier": "all operators, equation types, integrators, sequences of step sizes, failures", "why_tests_cant": "The driver relies on it for the time it prints and for repeated steps.", "anchors": ["include/pf-applications/time_integration/time_marching.h:TimeMarchingArkode", "include/pf-applications/lac/dynamic_block_vector.h:insert_block"]}
{"id": "C124", "title": "Table of scalar results", "statement": "After any number of outputs with a label the file of the table has one line with the names of the columns and one row for each output, in order, with the number and the time of the output; every quantity asked for has, in the whole domain and in every box, exactly one column, under the same name in all rows, and the row has its value there.", "quantifier": "all configurations of quantities and boxes, sequences of outputs, failures and refinements, files left by earlier runs", "why_tests_cant": "The table is the main scalar result of a simulation and is read by scripts by the names of the columns.", "anchors": ["applications/sintering/include/pf-applications/sintering/driver.h:output_result", "applications/sintering/include/pf-applications/sintering/output.h:advanced_output", "applications/sintering/src/postprocessors.cc:write_table"]}
{"id": "C125", "title": "Tables of grains and pores", "statement": "The table of the grains has one line for each grain in the order of the numbers of the grains, with its number, measure, radius, largest value and order parameter, the centre if it has a single segment, and with the volume, forces, torques and the velocity of this grain at the current solution; the table of the pores has one line for each pore with its measure, radius and centre.", "quantifier": "all grains, numbers of segments, sequences of evaluations and trackings, dimensions two and three", "why_tests_cant": "Forces assigned to the wrong grains are not noticed; the files are evaluated by scripts.", "anchors": ["applications/sintering/include/pf-applications/sintering/postprocessors_stats.h:output_grains_stats", "applications/sintering/include/pf-applications/sintering/postprocessors_stats.h:output_porosity_stats", "applications/sintering/include/pf-applications/sintering/advection.h:get_translation_velocity_for_grain"]}
{"id": "C126", "title": "Material data are those of the current time in the chosen units", "statement": "The mobilities and energies of a realistic material are the physical ones (Arrhenius law, Einstein relation) measured in the chosen units of time, length and energy, defined and not negative for every profile of positive temperatures; and every evaluation of the equations during a run uses the material of the time it belongs to.", "quantifier": "all material data, scales, temperature profiles, times, schemes, predictors and sequences of accepted and failed steps", "why_tests_cant": "the mobility is a member updated once per step, stages and post-processing use it at other times", "anchors": ["applications/sintering/include/pf-applications/sintering/mobility.h:ProviderRealistic::calculate", "applications/sintering/include/pf-applications/sintering/operator_sintering_data.h:set_time", "applications/sintering/include/pf-applications/sintering/driver.h:run"]}
{"id": "C127", "title": "Fluxes by mechanism", "statement": "The fluxes by volume, vapour, surface and grain boundary diffusion written to the output add up to the flux in the equation of the concentration, their divergences to the rate of the concentration; none of them points up the gradient of the chemical potential, the surface flux is tangential to the surface; the matrices of the derivatives used by the preconditioner and the grand potential model are the derivatives of the mobility and the terms of the linearisation.", "quantifier": "all coefficients, states at quadrature points, numbers of order parameters, dimensions, meshes, solvers", "why_tests_cant": "The fluxes explain which mechanism drives sintering; matrices that differ from the mobility spoil the preconditioner or the convergence.", "anchors": ["applications/sintering/include/pf-applications/sintering/mobility.h:MobilityScalar", "applications/sintering/include/pf-applications/sintering/mobility.h:MobilityTensorial", "applications/sintering/include/pf-applications/sintering/operator_postproc.h:do_evaluate_rhs", "applications/sintering/include/pf-applications/sintering/preconditioners.h:OperatorCahnHilliard"]}
{"id": "C128", "title": "Output does not change the course of a run", "statement": "The time and the number of the step advance exactly if the solution of the step is taken, also if divergences of fluxes are asked for and their linear solver fails.", "quantifier": "all parameters, reachable states of the time loop, outcomes of the solvers", "why_tests_cant": "A run whose time advances without its solution gives wrong results at all later times.", "anchors": ["applications/sintering/include/pf-applications/sintering/driver.h:run"]}
{"id": "C129", "title": "Parameters of a run", "statement": "Every member of Parameters has one entry of its own, and a run sets exactly the members whose entries are given: each gets the value given last (file first, then options), all others keep their initial value. A run is refused exactly if a file cannot be read, an option names no entry, or a value is not accepted by the pattern; --Path.To.Option=value reaches the entry with this path; initial values are accepted by their own patterns.", "quantifier": "all command lines, files, values", "why_tests_cant": "Wrong binding of an entry silently runs another simulation than the one that was asked for.", "anchors": ["applications/sintering/include/pf-applications/sintering/parameters.h:32-318", "applications/sintering/include/pf-applications/sintering/parameters.h:319-379", "applications/sintering/include/pf-applications/sintering/parameters.h:415-1171", "include/pf-applications/base/input.h:30-83"]}
{"id": "C130", "title": "Initial guess of a time step", "statement": "The solver of a time step starts from the guess named by the predictor, computed from the solutions on the present mesh with the present numbering: the last solution (None and failed attempts with Linear), the straight line through the last two solutions (Linear), one step of the Euler method or of the midpoint rule (Euler, Midpoint). The guess influences nothing else: accepted solutions, steps and what is restored after a failure do not depend on it.", "quantifier": "all reachable states of the time loop, schemes, step sizes, solutions, refinements and remappings", "why_tests_cant": "A wrong guess costs iterations or makes Newton fail; with explicit schemes it becomes the result.", "anchors": ["applications/sintering/include/pf-applications/sintering/driver.h:2001-2058", "include/pf-applications/time_integration/solution_history.h:204-215"]}
{"id": "C131", "title": "Choice of implementations", "statement": "Every text that a selection of the parameters offers chooses the implementation of this name (time scheme, refinement and mesh, direction of the interface, representation of grains, material, plane type, preconditioners with their additional data, linear and nonlinear solver, orthogonalization, clamping), for every accepted command line and every program; runs whose choices do not fit together are refused by an exception before the first step.", "quantifier": "all accepted command lines, initial values, programs", "why_tests_cant": "A text that silently picks another implementation gives results for another model; an alternative that never works is a trap.", "anchors": ["applications/sintering/include/pf-applications/sintering/driver.h:initialize", "applications/sintering/include/pf-applications/sintering/driver.h:run", "applications/sintering/include/pf-applications/sintering/preconditioners.h:create_preconditioner", "applications/sintering/include/pf-applications/sintering/preconditioners.h:BlockPreconditioner2", "include/pf-applications/lac/preconditioners.h:create", "include/pf-applications/lac/solvers_linear.h:create", "include/pf-applications/time_integration/time_schemes.h:create_time_scheme", "include/pf-applications/time_integration/time_marching.h:TimeMarchingImplicit"]}
{"id": "C132", "title": "Remapping by transfer zones", "statement": "With the option for the older remapping (use_old_remap) the values of every grain whose order parameter changes are found in its new order parameter in the whole zone of the grain, order parameters that are left are zero there, and all other values of current grains are unchanged; the call does not fail on consistent tables, and both ways of remapping agree.", "quantifier": "all tables of grains, meshes, solutions, representations, orders of the graph algorithms", "why_tests_cant": "An order parameter that is overwritten before it is moved or wiped by a grain that is gone destroys the microstructure.", "anchors": ["include/pf-applications/grain_tracker/tracker.h:650-1021", "include/pf-applications/grain_tracker/remap_graph.h", "include/pf-applications/grain_tracker/grain.h:transfer_buffer"]}
{"id": "C133", "title": "Assembled matrices agree with the operators", "statement": "The matrix assembled for an operator (initialize_system_matrix, compute_matrix) applied to a vector gives, in all rows of unconstrained unknowns, what the operator gives without matrix; rows and columns of constrained unknowns have entries on the diagonal only; the matrices per component (initialize_block_system_matrix) are the parts of the operator which act within a component.", "quantifier": "all meshes, elements, numbers of components, linear local operators, constraints (hanging nodes, periodic boundaries), previous contents of the matrix", "why_tests_cant": "Direct solvers and algebraic preconditioners use the assembled matrix in place of the operator; with another matrix Newton's method converges to another solution or not at all.", "anchors": ["include/pf-applications/matrix_free/tools.h:29-346", "applications/sintering/include/pf-applications/sintering/operator_base.h:187-222, 419-494, 543-613, 697-790", "applications/sintering/include/pf-applications/sintering/driver.h:618-646"]}
{"id": "C134", "title": "Values written by several ranks", "statement": "When the mesh is cut at a box (filter_mesh_withing_bounding_box), an entry that ranks other than its owner changed is set to one of the values these ranks wrote, independently of the order of the ranks; if its owner changed it, the value of the owner stays; entries nobody wrote to stay as they are.", "quantifier": "all numbers of ranks, distributions of entries, sequences of writes, values before", "why_tests_cant": "A wrong value at the rim of the box shifts the iso-surface there, and the result would depend on the number of processes.", "anchors": ["include/pf-applications/grid/grid_tools.h:124-156, 231-470"]}
{"id": "C135", "title": "Leaving out irrelevant order parameters", "statement": "With the table of relevant order parameters (set_component_mask) the contribution of a cell to residual, product with the Jacobian and diagonal equals that of the loop over all order parameters, for every block; the product is available for all vector types.", "quantifier": "all parameters, states, increments, tables, numbers of order parameters up to the compiled maximum, vector types, modes of the time derivative", "why_tests_cant": "The cut-off is meant as an optimisation; a different residual would freeze order parameters and a different Jacobian would spoil Newton's method.", "anchors": ["applications/sintering/include/pf-applications/sintering/operator_sintering_generic.h:392-615, 875-1086", "applications/sintering/include/pf-applications/sintering/operator_base.h:187-356, 366-392, 700-711", "applications/sintering/include/pf-applications/sintering/instantiation.h:97-150"]}
{"id": "C136", "title": "Levels of the mesh, multigrid arrays and mesh statistics", "statement": "No cell becomes finer than the depth of refinement allows; the arrays for the multigrid levels have an entry for every level of the mesh; the statistics report the number of cells of the uniformly refined mesh and the number of cells in fine batches.", "quantifier": "all sequences of refinements, increases and decreases of the depth, flags of the estimator, dimensions, numbers of coarse cells", "why_tests_cant": "The multigrid arrays are sized once from the parameters while the quality loop raises the depth without bound; an access beyond the last level is not checked in release mode.", "anchors": ["applications/sintering/include/pf-applications/sintering/driver.h:672-706, 746-838, 1398-1403, 2660-2690"]}
{"id": "C137", "title": "Answers of the grain tracker after a run", "statement": "After every run of the grain tracker (search, transfer of identities, reassignment, remapping) the question which grain is in an order parameter at a cell is answered by a grain of the table that is kept in this order parameter and has the segment named; contours are written with the number of the grain they belong to.", "quantifier": "all sequences of runs, particles, contacts, settings", "why_tests_cant": "Contours, coordination numbers, advection and boundary conditions rely on these answers.", "anchors": ["include/pf-applications/grain_tracker/tracker.h:148-399, 1079-1121", "applications/sintering/include/pf-applications/sintering/driver.h:1515-1729", "applications/sintering/include/pf-applications/sintering/postprocessors.h:466-494"]}
{"id": "C138", "title": "Remapping on several ranks", "statement": "Remapping of grains gives the same solution for every distribution of the mesh to ranks; the copies of the ranks agree with the owners when the tracker looks at them again.", "quantifier": "all meshes, distributions, grains, values", "why_tests_cant": "Otherwise a simulation depends on the number of processes it runs on.", "anchors": ["include/pf-applications/grain_tracker/tracker.h:425-649", "applications/sintering/include/pf-applications/sintering/driver.h:1515-1732", "include/pf-applications/grain_tracker/distributed_stitching.h:36-88"]}
{"id": "C139", "title": "Past solutions seen by a step", "statement": "The residual of every step reads the solutions of the last accepted steps, transferred to the present mesh and the present numbering of the order parameters, with current ghost values; restart files contain the same; a failed step leaves them as they were.", "quantifier": "all sequences of passes of the time loop with refinement, grain tracker, predictor, failures and saving, all orders", "why_tests_cant": "A history in different numberings, or without ghost values, makes the time derivative wrong without any message.", "anchors": ["include/pf-applications/time_integration/solution_history.h:81-183", "applications/sintering/include/pf-applications/sintering/driver.h:1371-1447, 1515-1732, 1938-2058, 2163-2202, 2318-2345, 2550-2592, 2663-2692", "applications/sintering/include/pf-applications/sintering/operator_sintering_generic.h:927-972"]}
{"id": "C140", "title": "Blocks of the past solutions at a refinement", "statement": "At a refinement every block of every past solution is set up for and transferred to the new mesh, the error is estimated from the order parameters of the current solution only, and the residual finds in every past solution the blocks it reads.", "quantifier": "all histories, numbers of blocks, components and order parameters, steps with changes of the number of components", "why_tests_cant": "Otherwise blocks are accessed behind the end of the vector, or the mesh follows the wrong fields.", "anchors": ["applications/sintering/include/pf-applications/sintering/driver.h:1371-1447", "include/pf-applications/grid/grid_tools.h:933-1012", "include/pf-applications/lac/dynamic_block_vector.h:174-203", "applications/sintering/include/pf-applications/sintering/operator_sintering_generic.h:927-972"]}
{"id": "C141", "title": "Estimate of superfluous cells", "statement": "The estimate of the overhead of a common mesh counts for every cell the order parameters present in it, independently of the distribution of the cells; the coarsening of the mesh of every order parameter ends with a mesh that cannot be coarsened further; the percentage is the rounded excess of cells and not negative.", "quantifier": "all vectors, numbers of blocks, meshes, distributions of cells, thresholds, balance conditions", "why_tests_cant": "The numbers guide the choice of data structures; the function runs inside of the simulation and must not fail.", "anchors": ["applications/sintering/include/pf-applications/sintering/postprocessors.h:955-1137", "applications/sintering/include/pf-applications/sintering/driver.h:1462-1463"]}
{"id": "C142", "title": "The grain tracker at output", "statement": "Contours, statistics and coordination numbers are written with the numbers of the grains that are in the order parameter at this place; whether such output is written or not changes neither the further course of the simulation nor the numbers of the grains.", "quantifier": "all sequences of runs of the tracker and of outputs, particles, settings", "why_tests_cant": "Output is meant to observe. A simulation that ends, or numbers grains in another way, because something is written cannot be compared with one without.", "anchors": ["applications/sintering/include/pf-applications/sintering/driver.h:2959-2977, 2513-2533", "applications/sintering/include/pf-applications/sintering/postprocessors.h:466-494", "include/pf-applications/grain_tracker/tracker.h:148-348, 703-740"]}
{"id": "C143", "title": "Repeated attempts after an inconsistency of the grains", "statement": "If the tracker finds an inconsistency within a step, the step is repeated with a smaller step size, and the repeated attempt compares its grains with those before the step: a rejected attempt leaves nothing behind in the tracker. In any case no grain gets a number that was not known before the step.", "quantifier": "all numbers of attempts, all particles seen in them, with and without output for debugging", "why_tests_cant": "The check exists to recover from an inconsistency. If a rejected attempt replaces what is known, smaller steps cannot help and wrong states may be accepted.", "anchors": ["applications/sintering/include/pf-applications/sintering/driver.h:2163-2202, 2318-2324, 2502-2505", "include/pf-applications/grain_tracker/tracker.h:148-306"]}
{"id": "C144", "title": "Vectors that share blocks", "statement": "Block vectors hold shared pointers. Vectors made by construction, copy, move, swap and changes of the number of blocks never share a block and behave as values: an operation on one vector changes no other. Views and vectors made of the blocks of others show the blocks of these and writing to them changes these blocks and nothing else.", "quantifier": "all sequences of operations on any number of vectors", "why_tests_cant": "Views are used by the preconditioners, the explicit time marching, the grain tracker and the refinement. An unintended common block would let one field overwrite another without any error.", "anchors": ["include/pf-applications/lac/dynamic_block_vector.h:44-95, 125-291, 383-537, 582", "include/pf-applications/time_integration/solution_history.h:110-122", "applications/sintering/include/pf-applications/sintering/driver.h:1399-1433"]}
{"id": "C145", "title": "Life of the preconditioners", "statement": "In every run, whatever the sequence of solves, refinements, changes of the number of order parameters and failed steps, a preconditioner is applied only with matrices of the present mesh and number of components, computed from the data of the latest Newton step in which an update was due; no application happens before the first update after a change. The report of the memory never ends the run.", "quantifier": "all runs, all classes of preconditioners, all numbers of components, all limits of the Newton solver", "why_tests_cant": "Matrices of a former mesh or a former number of components would be used silently or lead to accesses outside of arrays; the invalidation is spread over driver, Newton solver, operators and preconditioners.", "anchors": ["include/pf-applications/lac/preconditioners.h:79-1064", "applications/sintering/include/pf-applications/sintering/operator_base.h:95-107, 417-502, 543-613, 640-657", "applications/sintering/include/pf-applications/sintering/preconditioners.h:568-630, 1154-1186, 1259-1303", "include/pf-applications/time_integration/time_marching.h:170-207, 528-532", "include/pf-applications/lac/solvers_nonlinear.h:247-298, 351-356", "applications/sintering/include/pf-applications/sintering/driver.h:1402-1414, 1624-1628, 2190-2194, 2410-2445"]}
{"id": "C146", "title": "Grid at start and at restart", "statement": "The domain contains the packing with the wanted margin; every direction gets at least one coarse cell and the finest cells are no larger than wanted; the coarse grid and n_global_levels_0 do not depend on how much of the refinement is done globally at start; and the files of any run can be read by a run with the same parameters of the grid (any number of ranks if stored flexibly), which then has the same coarse grid and number of levels.", "quantifier": "all packings, all three kinds of initial mesh, all kinds of initial refinement, all parameters, all numbers of ranks", "why_tests_cant": "Triangulation::load requires the same unrefined coarse grid; if the restarted run builds another one, or repartitions when it must not, the restart fails or the vectors are lost.", "anchors": ["applications/sintering/include/pf-applications/sintering/driver.h:222-243, 318-452, 472-484, 502-607, 2573-2609", "include/pf-applications/grid/grid_tools.h:599-780"]}
{"id": "C147", "title": "Files with surfaces and spheres", "statement": "A file with contours of grains has every piece of the surface of every order parameter in every cell exactly once, with its order parameter, its rank and the number of its grain, and nothing else; the file with the surface of the concentration and that with grains as spheres have every piece and every segment once, so that they do not depend on the number of ranks; and the vector has its ghost values afterwards exactly if it had them before.", "quantifier": "all meshes with or without coarsening and box, all marching cubes, all numbers of ranks, blocks and cells, all states of the tracker a simulation reaches", "why_tests_cant": "These files are what grains and areas are measured from after a run; repeated or added elements and wrong numbers falsify the statistics.", "anchors": ["applications/sintering/include/pf-applications/sintering/postprocessors.h:426-536, 634-851", "applications/sintering/include/pf-applications/sintering/projection.h:386-413", "include/pf-applications/grain_tracker/output.h:197-253"]}
{"id": "C148", "title": "Names of the files of an output", "statement": "An output writes exactly the files asked for, debugging outputs always the fields. No output of a run overwrites a file of an earlier one except the tables, which are meant to be written again; within an output every file is written once under a name of its own; the files of a label are numbered in order without gaps from zero; and a restarted run goes on with the numbers of the snapshot, so that it overwrites nothing written before it.", "quantifier": "all parameters of output, all sequences of outputs with all labels, boxes and sections, all snapshots", "why_tests_cant": "Results lost because another file has the same name cannot be recovered after a simulation of days.", "anchors": ["applications/sintering/include/pf-applications/sintering/driver.h:2733-2758, 2783-2786, 2840-2880, 2949-2960, 3072-3110, 3140-3201", "applications/sintering/include/pf-applications/sintering/output.h:126-325"]}
{"id": "C149", "title": "Clamped bar", "statement": "The program for linear elasticity ends with the displacement that takes the prescribed values and is in equilibrium with the load everywhere else, the same one whether conditions are attached by hand or put into constraints and whether there is a matrix or not; with prescribed values different from zero, too.", "quantifier": "all stiffnesses, loads, sets of clamped nodes, all four ways of running, all initial displacements, all linear solvers of Krylov type", "why_tests_cant": "The program is the only check of the elastic operator; a displacement that depends on the way of imposing conditions, or conditions that are ignored, make stresses of the coupled simulations wrong.", "anchors": ["applications/structural/clamped_bar.cc:46-290", "applications/structural/include/pf-applications/structural/operator_elastic_linear.h:65-300", "applications/sintering/include/pf-applications/sintering/operator_base.h:293-353"]}
{"id": "C150", "title": "Weighted forces of grains", "statement": "With weighted forces every segment of a grain gets its volume and the sum, over the segments it is in contact with, of the integrated force divided by the integrated contact; forces obey action and reaction, depend neither on batches nor on ranks nor on the unit of length, and nothing is written outside the arrays.", "quantifier": "all meshes, distributions over batches and ranks, order parameters, tables of relevant order parameters, numberings of segments, parameters and filters", "why_tests_cant": "The forces move the grains; forces that do not balance let the whole packing drift, and forces that vanish in small units silently switch off shrinkage.", "anchors": ["applications/sintering/include/pf-applications/sintering/operator_advection.h:389-800"]}
{"id": "C151", "title": "Timers", "statement": "The time and the number of calls printed for a section are those of all executions of scopes with its full name, also of scopes left by an exception; no section is entered twice at a time; statistics are printed for exactly the enabled timers that exist, in the order of their construction; all ranks decide alike whether statistics are due and take part in the same collective operations.", "quantifier": "all nestings of scopes, exceptions, handlers, sequences of constructions and destructions of timers, clocks of all ranks, intervals", "why_tests_cant": "Printing is collective: ranks that decide differently or have other sections block the run; a timer that is gone but still registered is a wild pointer.", "anchors": ["src/base/timer.cc:82-365", "include/pf-applications/base/timer.h:25-153", "include/pf-applications/base/scoped_name.h:20-47"]}
{"id": "C152", "title": "Amount of material", "statement": "The integral of the concentration over the domain is the same after every accepted step of a run, whatever the mobilities, the velocities of the grains, the order of the scheme, the step sizes and the rejected attempts are. The entries of the residual of the concentration sum up to the discrete time derivative of this integral; a full Newton step with the exact increment leaves no imbalance, a damped one the share that is left; rates of explicit schemes change no amount.", "quantifier": "all meshes, solutions, histories, coefficients, velocities, BDF schemes and step sizes, all runs", "why_tests_cant": "Sintering redistributes material; loss or gain of it falsifies shrinkage and density, the main results of a simulation.", "anchors": ["applications/sintering/include/pf-applications/sintering/operator_sintering_generic.h:393-448", "applications/sintering/include/pf-applications/sintering/operator_sintering_generic.h:876-1006", "applications/sintering/include/pf-applications/sintering/operator_sintering_generic.h:101-190", "include/pf-applications/lac/solvers_nonlinear.h:285-345", "applications/sintering/include/pf-applications/sintering/driver.h:1924-2707"]}
{"id": "C153", "title": "Energy of the microstructure", "statement": "Without advection the free energy written to the table of results never grows: it does not while the discretised equations of concentration, chemical potential and order parameters hold, for every mesh and all coefficients that are not negative, and it falls at least as fast as the order parameters move; an implicit step leads to a solution with at most the energy of the previous one.", "quantifier": "all meshes, quadrature rules, solutions, numbers of grains, coefficients without negative ones, orders and weights of the time integrator", "why_tests_cant": "Sintering is driven by the decrease of the free energy; a wrong sign, factor or derivative in residual or reported energy breaks this.", "anchors": ["applications/sintering/include/pf-applications/sintering/operator_sintering_generic.h:254-308", "applications/sintering/include/pf-applications/sintering/operator_sintering_generic.h:876-1006", "applications/sintering/include/pf-applications/sintering/operator_sintering_base.h:395-553", "applications/sintering/include/pf-applications/sintering/free_energy.h:111-161", "applications/sintering/include/pf-applications/sintering/mobility.h:439-472"]}
{"id": "C154", "title": "Order parameters are interchangeable", "statement": "The number of the order parameter a grain is stored in has no physical meaning: moving grains to other order parameters (also differently from place to place, as remapping does) together with their old solutions and velocities leaves the residual and the tangent of concentration and chemical potential and the free energy unchanged, and moves the entries of order parameters along; solutions stay solutions. An order parameter that is not in use changes nothing and keeps being unused.", "quantifier": "all meshes, solutions, histories, velocities, coefficients, numbers of order parameters and renumberings", "why_tests_cant": "Grains share order parameters and are remapped in the middle of a run; if the equations depended on the numbers, every remapping would change the physics.", "anchors": ["applications/sintering/include/pf-applications/sintering/operator_sintering_generic.h:101-190", "applications/sintering/include/pf-applications/sintering/operator_sintering_generic.h:254-308", "applications/sintering/include/pf-applications/sintering/operator_sintering_generic.h:876-1006", "applications/sintering/include/pf-applications/sintering/free_energy.h:111-161", "applications/sintering/include/pf-applications/sintering/mobility.h:439-472"]}
{"id": "C155", "title": "The hand-written kernel of the benchmarks computes the weak form", "statement": "The optimised matrix-vector product of the benchmarks (interpolation in place by planes and columns, derivatives as differences of the two points of a part, operation at the points, transposed steps back, adding into the vector) yields for every degree of freedom the integral of the weak form of linear elements on the parts of the cells, whatever the operation at the points and the number of parts; the version with the operation written in by hand agrees with the general one; what earlier cells left in the work arrays does not matter. This holds for all meshes and dimensions the program accepts.", "quantifier": "all numbers of parts, operations at points (also nonlinear and varying), boxes, meshes, vectors, symmetric two-point rules", "why_tests_cant": "The benchmark compares the speed of variants of the same operator; a kernel with a wrong index or sign, or one that skips work, would be measured as the fast one.", "anchors": ["benchmarks/operators.h:131-639", "benchmarks/layer_wise.likwid.cc:130-183"]}
{"id": "C156", "title": "Interactions have a finite range and pure phases are at rest", "statement": "The equations (residual and tangent) of a node depend only on the solution, the old solutions and the velocities at the nodes that share an element with it; arrangements apart from each other therefore evolve independently, each as if alone. The inside of grains and the void are at rest: there the equations hold for the unchanged solution with every consistent time integration, also inside of a grain that moves without net flux.", "quantifier": "all meshes, solutions, histories, velocities, coefficients, time integration weights", "why_tests_cant": "Grains that are far from each other must not influence each other, and regions without interfaces must not change; the assignment of grains to shared order parameters relies on it.", "anchors": ["applications/sintering/include/pf-applications/sintering/operator_sintering_generic.h:101-190", "applications/sintering/include/pf-applications/sintering/operator_sintering_generic.h:254-308", "applications/sintering/include/pf-applications/sintering/operator_sintering_generic.h:876-1006", "applications/sintering/include/pf-applications/sintering/free_energy.h:111-161"]}
{"id": "C157", "title": "The equations do not depend on the orientation of the frame", "statement": "Turning or mirroring the frame of coordinates, i.e. mesh, velocities and all gradients together, leaves residual and tangent of all unknowns unchanged; the flux given by the tensorial mobility, its linearisation the reported fluxes of all diffusion mechanisms, the forces on grains and the velocities of their rotation are turned with the frame.", "quantifier": "all meshes, dimensions, orthogonal maps, solutions, histories, velocities, coefficients", "why_tests_cant": "Material and mobility are isotropic apart from the directions given by surfaces and grain boundaries; a mistake in a tensor component or projection shows as a dependency on the axes.", "anchors": ["applications/sintering/include/pf-applications/sintering/operator_sintering_generic.h:101-190", "applications/sintering/include/pf-applications/sintering/operator_sintering_generic.h:254-308", "applications/sintering/include/pf-applications/sintering/operator_sintering_generic.h:876-1006", "applications/sintering/include/pf-applications/sintering/mobility.h:756-916", "applications/sintering/include/pf-applications/sintering/mobility.h:580-664", "include/pf-applications/base/tensor.h:137-188", "applications/sintering/include/pf-applications/sintering/operator_advection.h:268-363", "applications/sintering/include/pf-applications/sintering/advection.h:104-152"]}
{"id": "C158", "title": "Benchmark of the grain tracker", "statement": "The benchmark rejects calls that are incomplete, name no known mode or have numbers that are not positive, and uses the documented defaults; it ends, tries every number of grains per row from two to the given one with every number of order parameters from two to the number of grains per row, reads and writes only blocks that exist, and every repetition of the measured remapping moves the grains.", "quantifier": "all command lines, sizes, initial values, meshes, results of the search for grains", "why_tests_cant": "Its numbers guide the choice between implementations of the tracker; they are worthless if something else is measured.", "anchors": ["applications/sintering/grain_tracker_throughput.cc:155-296", "applications/sintering/grain_tracker_throughput.cc:343-463", "include/pf-applications/base/performance.h:25-67", "include/pf-applications/grain_tracker/tracker.h:1166-1174"]}
{"id": "C159", "title": "Fields written per cell", "statement": "The file with the pores contains exactly the cells that lie in a pore, each once, with the global number of the pore; the fields with the translation velocities show in every cell and for every order parameter the velocity of the grain represented there and zero elsewhere, with and without cut-off, under names that differ.", "quantifier": "all meshes, ids, tables, batches of cells, velocities", "why_tests_cant": "The fields are inspected by the user to see pores and the motion of the grains.", "anchors": ["applications/sintering/include/pf-applications/sintering/postprocessors.h:1278-1356", "applications/sintering/include/pf-applications/sintering/postprocessors.h:1894-1946", "applications/sintering/include/pf-applications/sintering/advection.h:183-245"]}
{"id": "C160", "title": "Statistics of a run", "statement": "At the end of a run the numbers of steps, failed attempts, non-linear and linear iterations and evaluations of the residual are those of the work done, separately for accepted steps and failed attempts and each piece of work counted once; the largest step is the largest accepted one and the averages are numbers.", "quantifier": "all sequences of attempts, ways to fail, numbers of iterations, restarts", "why_tests_cant": "The numbers are used to judge solvers and to compare settings.", "anchors": ["include/pf-applications/lac/solvers_nonlinear.h:34-113", "include/pf-applications/lac/solvers_nonlinear.h:247-386", "include/pf-applications/lac/solvers_nonlinear.h:437-491", "include/pf-applications/time_integration/time_marching.h:129-241", "applications/sintering/include/pf-applications/sintering/driver.h:2162-2210", "applications/sintering/include/pf-applications/sintering/driver.h:2369-2385", "applications/sintering/include/pf-applications/sintering/driver.h:2468-2505", "applications/sintering/include/pf-applications/sintering/driver.h:2711-2725"]}
{"id": "C161", "title": "Runs in a pure phase", "statement": "A run that starts in a pure phase (void everywhere or one grain everywhere) reaches the end of time in that phase: in every pass the residual is defined and zero, the Newton solver returns without iterations, no step is rejected and the solution is unchanged, whatever the unused entries of the history hold.", "quantifier": "all meshes, parameters, implicit schemes, step sizes, tolerances, fair choices of refinement, sanity check and predictor in every pass", "why_tests_cant": "A driver that changes a state of rest creates motion from nothing.", "anchors": ["applications/sintering/include/pf-applications/sintering/driver.h:1924-2707", "applications/sintering/include/pf-applications/sintering/operator_sintering_generic.h:878-1006", "include/pf-applications/lac/solvers_nonlinear.h:93-117", "include/pf-applications/lac/solvers_nonlinear.h:247-357", "include/pf-applications/time_integration/time_schemes.h:27-153", "include/pf-applications/time_integration/time_marching.h:129-136"]}
{"id": "C162", "title": "Initial values of the debug mode", "statement": "The debug mode starts from two grains side by side: at and around every node of the grid of two squares (cubes) all components have the intended values, with the concentration the sum of the order parameters and both layers the same in three dimensions; other points are rejected; the mesh made for these values has its nodes among those of the table.", "quantifier": "all points, components, dimensions, boundary factors", "why_tests_cant": "The mode is for comparing results by hand; it has to start and with known values.", "anchors": ["applications/sintering/include/pf-applications/sintering/initial_values_debug.h:24-131", "applications/sintering/include/pf-applications/sintering/runner.h:329-340", "applications/sintering/include/pf-applications/sintering/driver.h:502-547"]}
{"id": "C163", "title": "Ownership of the entries of block vectors", "statement": "The index set of locally owned elements of a block vector has exactly the positions of the entries that the process owns in some block; over all processes every position is owned once; a vector is reported as zero if and only if all its entries are zero.", "quantifier": "all vectors, also views and vectors with moved blocks; all distributions over processes", "why_tests_cant": "External solvers and constraints built from these sets rely on them.", "anchors": ["include/pf-applications/lac/dynamic_block_vector.h:173-203", "include/pf-applications/lac/dynamic_block_vector.h:242-259", "include/pf-applications/lac/dynamic_block_vector.h:539-580"]}
{"id": "C164", "title": "Output and checks that involve all processes", "statement": "The merged log of the grain tracker is printed by the first process only and has every event of every process once, in ascending order, whatever the distribution of the events over processes; the check of a size that has to be the same on all processes stops all of them or none, and stops if and only if two sizes differ; both functions that print a list put the separator between neighbours and nowhere else.", "quantifier": "all logs, sizes, numbers of processes, lists and separators", "why_tests_cant": "Logs have to be the same for any number of processes; a check that stops only some processes leaves the others waiting.", "anchors": ["include/pf-applications/grain_tracker/tracker.h:1873-1894", "include/pf-applications/base/debug.h:21-27", "include/pf-applications/base/debug.h:50-76"]}
{"id": "C165", "title": "Splitting and merging of vectors cell by cell", "statement": "The versions of splitting and merging that loop over cells copy the values by component and node: each part holds the components of the full vector it stands for, the full vector those of all parts, entries of no cell of the process stay as they are, and splitting followed by merging gives back the vector, for two and for three parts.", "quantifier": "all meshes, numbers of components and nodes per cell, numberings of degrees of freedom, vectors", "why_tests_cant": "These versions are the reference for the fast ones; a wrong offset mixes up concentration, chemical potential and order parameters.", "anchors": ["include/pf-applications/numerics/vector_tools.h:123-190", "include/pf-applications/numerics/vector_tools.h:215-305", "include/pf-applications/numerics/vector_tools.h:329-397", "include/pf-applications/numerics/vector_tools.h:422-514"]}
{"id": "C166", "title": "Particles written for visualisation", "statement": "The program that writes packings for visualisation writes each particle once with its centre, number, radius and the order parameter it has in the table; close particles are written with different order parameters; different input files have different output files.", "quantifier": "all packings, colourings and lists of input files", "why_tests_cant": "The written order parameters are used to look for collisions before a run; lost output goes unnoticed.", "anchors": ["applications/sintering/sintering_print_particles.cc:32-121"]}
{"id": "C167", "title": "Transformed packings", "statement": "The script that transforms packings keeps their shape: all distances and radii are multiplied by the factor asked for, and particles touch afterwards exactly if they did before; centring puts the middle of the packing at the origin.", "quantifier": "all packings, offsets, factors and angles", "why_tests_cant": "Centring works for packings that start at the origin, which is what examples tend to do.", "anchors": ["applications/sintering/scripts/transform_packing.py:19-95"]}
{"id": "C168", "title": "Short labels of files", "statement": "The labels of files in plots are the parts of their names between the longest common start and the longest common end; they are not empty, and different files have different labels.", "quantifier": "all lists of names", "why_tests_cant": "Fails for names without a common end and for names that are the start of others, which examples with file endings do not have.", "anchors": ["applications/sintering/scripts/library.py:42-117"]}
{"id": "C169", "title": "Repair of packings", "statement": "The repair of a packing ends, gives a connected packing, makes no particle smaller, leaves connected packings as they are, bridges two components at their smallest gap and enlarges the smallest number of particles.", "quantifier": "all packings, tolerances and strategies; components and spanning trees by contract", "why_tests_cant": "The pair with nearest centres is not the one with the smallest gap if radii differ; tests with equal particles do not show it.", "anchors": ["applications/sintering/scripts/check_particle_connectivity.py:80-99", "applications/sintering/scripts/check_particle_connectivity.py:112-161", "applications/sintering/scripts/check_particle_connectivity.py:204-301"]}
{"id": "C170", "title": "Contacts of spheres", "statement": "Each pair of spheres that touch is found exactly once, with the smaller number first, with the gap of this pair and in order; the arrays are filled completely and the assertion on their size holds.", "quantifier": "all packings, numbers of spheres and orders of the neighbours; the search tree by contract", "why_tests_cant": "Four searches, segmented arrays, a permutation and a sort in place with index arithmetic; a gap of another pair or an entry that is not set would look like a valid one.", "anchors": ["applications/sintering/scripts/contacts.py:19-63", "applications/sintering/scripts/contacts.py:65-158", "applications/sintering/scripts/contacts.py:160-204"]}
{"id": "C171", "title": "Tables of densification", "statement": "The table of each folder goes to the file named after this folder and holds the results of its files only; the share of covered points counts each point once, and the coordination number is the mean number of contacts, in two and three dimensions.", "quantifier": "all lists of folders and files, coverages and packings", "why_tests_cant": "Folders without output shift the names of all later tables, skipped files leave rows with arbitrary values, and two dimensions fail in a function for three; complete runs in three dimensions show none of it.", "anchors": ["applications/sintering/scripts/densification_analysis.py:76-120", "applications/sintering/scripts/densification_analysis.py:193-216", "applications/sintering/scripts/densification_analysis.py:229-236", "applications/sintering/scripts/contacts.py:112-117"]}
{"id": "C172", "title": "Copies of results", "statement": "Every file of a folder that fits the masks is copied once to the name derived from the destination; of job files only one is copied unless all are wanted; without masks the solution log is copied.", "quantifier": "all lists of files, masks and options", "why_tests_cant": "The default of an option with several values is a single string, and the loop ends at the first job file with all other files of the mask; calls with explicit masks for one kind of file do not show it.", "anchors": ["applications/sintering/scripts/copy_results.py:9-17", "applications/sintering/scripts/copy_results.py:50-81"]}
