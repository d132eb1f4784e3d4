# Formal model of hpsint: design

The code under study is hpsint/hpsint (C++), read as text in `/repo`; it is never built or run here.
The model and proofs are in Lean 4 under `lean/Verif`.

## Layout

* `Verif/Model/*.lean` executable model definitions. Each carries a comment with the file and lines it models.
* `Verif/Spec/*.lean` specifications, independent of the helpers of the model.
* `Verif/Lemmas/*.lean` helper lemmas.
* `Verif/Props/*.lean` the property theorems, each next to a concrete `example` meeting its hypotheses.

`MANIFEST.json` maps properties (`properties.jsonl`) to theorems. `seeded/LOG.jsonl` logs mutation tests of the model.

## Trusted base

1. The Lean 4.33.0 kernel, and the Mathlib library as installed (its theorems are checked by the same kernel; its
   definitions of reals, derivatives, matrices, sums enter the statements).
2. Axioms: every theorem named in `MANIFEST.json` depends on at most `propext`, `Classical.choice` and `Quot.sound`
   (`#print axioms` is run for all of them before every commit). No further axioms, no `sorry`, no `native_decide`, no
   `bv_decide`, no `implemented_by`, no `unsafe`.
3. The transcription of the C++ text into the model. It is done by hand, function by function, with file and line numbers
   at each definition; the mutation tests check that the theorems notice wrong transcriptions, they cannot check that the
   transcription itself is right.
4. The idealisations listed under "Modelling conventions", and the contracts of external code:
   * MPI: `allreduce`, `exscan`, `gather`, `all_gather`, `bcast` and point-to-point messages are functions of the
     contributions of all ranks; messages arrive complete, in any order. `MPI_Exscan` leaves rank 0 untouched.
     MPI-IO: a write at an offset followed by a read at the same offset returns the data.
   * deal.II: `BoundingBox::point_inside` (closed box enlarged by the relative tolerance), triangulation accessors,
     `get_dof_values`, refinement flags, `SolutionTransfer` (any function), sparsity pattern colouring (proper colouring).
   * boost: connected components (labelling contract, met by an executable instance), depth first search visitor events
     (contract, met by an executable instance), archives (token streams).
   * `std::sort` (sorted permutation), `std::map`/`std::set` (ordered association lists), `std::stod` and friends (partial
     parsers), `cos`, `sin`, `sqrt` (only through the named properties).

## Modelling conventions

* `unsigned int` values are `Nat` unless wrap-around matters; `numbers::invalid_unsigned_int` is `none` or a
  distinguished constant, stated at each definition.
* `std::map` is an association list sorted by key, or a function with finite key list; iteration order is ascending.
* Exceptions (`AssertThrow`, `throw`) are a distinct outcome; undefined behaviour (out-of-bounds access, dereferencing
  `end()`, reading an uninitialised variable, conversion of a non-representable float) is a further distinct outcome.
  `Assert` (debug only) is not a guard.
* Floating point numbers are idealised as elements of an ordered field (usually an arbitrary `Field` with
  `LinearOrder` and `IsStrictOrderedRing`, or `Rat`, or the reals where analysis is needed). Rounding is not modelled.
  Not-a-number is modelled where the control flow depends on it (nonlinear solver, contact planes, contours, Courant check).
* Loops with data dependent length and recursions over meshes carry a `fuel` argument; the theorems give a sufficient
  amount.
* MPI ranks are lists indexed by rank; collective operations are functions of all ranks' contributions.
* deal.II, boost and Zoltan functions are parameters with their documented contract as hypothesis, or small models.
* SIMD: kernels are modelled for one lane, except where lanes matter (cut-off tables, index tables of the advection, Courant
  check).
* A property that the code violates is kept in full in `properties.jsonl`; the negation is proved for a concrete witness or,
  where possible, for all inputs of a class (`..._violated`, `..._ub`, `..._undefined`), and the part that holds is proved
  under the needed hypothesis (`..._partial`).

## What is modelled

| code | module |
|------|--------|
| grain_tracker/tracking.h (transfer of grain ids) | `Model/Tracking` |
| grain_tracker/tracker.h: `track`, `detect_grains`, `build_inverse_mapping`, `reassign_grains`, `remap_new`, save/load | `Model/Track`, `Detect`, `Inverse`, `Reassign`, `Remap`, `Serialize` |
| grain_tracker/periodicity_graph.h, remap_graph.h, grain.h, segment.h, representation.h, motion.h (parts) | `Model/Detect`, `Remap`, `Grain`, `Info` |
| grain_tracker/distributed_stitching.{h,cc}: flooding, local connectivity, both stitching algorithms, maxima, particle info, radii, remote points | `Model/Flood`, `Connect`, `Stitch`, `Info` |
| lac/dynamic_block_vector.h, lac/solvers_nonlinear.h (damped Newton) | `Model/BlockVector`, `Newton` |
| time_integration/*.h (schemes, data, history, explicit marching) | `Model/TimeData`, `Explicit`, `TimeLoop` |
| sintering/driver.h: time loop, component changes, snapshots and restart, output schedule, predictor, control boxes | `Model/TimeLoop`, `Restart`, `BlockVector`, `BoxFilter` |
| grid/grid_tools.{h,cc}: subdivisions, mesh creation, marking, clipping | `Model/Mesh`, `BoxFilter` |
| grid/bounding_box_filter.h, sintering/projection.h (sections) | `Model/BoxFilter` |
| numerics/functions.h, phasefield_tools.h, power_helper.h | `Model/Numerics`, `FreeEnergy` |
| sintering/free_energy.h, mobility.h, operator_sintering_generic.h (residual and Jacobian kernel), tools.cc | `Model/FreeEnergy`, `Mobility`, `SinteringKernel` |
| sintering/operator_sintering_data.h (cut-off storage) | `Model/Cutoff` |
| sintering/advection.h, operator_advection.h | `Model/Advection` |
| sintering/operator_grain_growth.h, operator_grand_potential_greenquist.h, inelastic.h, cfl_checker.h | `Model/GrainGrowth`, `Greenquist`, `Inelastic` |
| sintering/csv_reader.cc, particle.h, base/solution_serialization.h | `Model/Csv`, `Serialize` |
| sintering/initial_values*.h | `Model/InitialValues`, `Cloud`, `Microstructure` |
| sintering/postprocessors.h: coordination number, mesh quality, shrinkage, pores | `Model/Coordination`, `Quality`, `Pores` |
| `grain_tracker/ellipsoid.h`, `motion.h`, `elliptical_helpers.h`, elliptical part of `representation.h`, `tracker.h:1402-1460` | `Ellipsoid` |
| `sintering/operator_base.h:223-353, 844-934`, `numerics/vector_tools.h` (fast split and merge), `operator_sintering_coupled_base.h:66-80`, `operator_sintering_coupled_monolithic.h:63-173, 327-391` | `OpBase` |
| `structural/tools.h`, `material.h`, `stvenantkirchhoff.h`, `operator_elastic_linear.h`, `get_stress` of the coupled operators | `Structural` |
| `sintering/boundary_conditions.h`, `driver.h:1735-1830` (mask of directions) | `Clamp` |
| `sintering/preconditioners.h`, `operator_sintering_generic.h:799-874`, `lac/preconditioners.h` without GMG (factorisations are parameters) | `PrecondOperators` |
| `lac/solvers_linear.h` (iterations of deal.II are parameters) | `LinearSolvers` |
| `lac/jacobian_operator.h`, `lac/residual_wrapper.h`, `sintering/residual_wrapper.h`, `lac/evaluation.h`, `operator_base.h:419-494` (content of the matrix); contract of `MatrixFree::cell_loop` with pre and post operations in `Spec/JacobianFree` | `JacobianFree` |
| `base/mask.h`, `base/input.h`, `base/scoped_name.h` | `BaseTools` |
| `grid/constraint_helper.h`, `dofs/dof_tools.h` (numbering of lines and of `FESystem` are contracts) | `ConstraintHelper` |
| `initial_values_microstructure_imaging.h`, `initial_values_microstructure_voronoi.h`, `initial_values_microstructure.h:199-212, 271-277, 318-361` (conversions of texts to numbers and the stream are parameters) | `Readers` |
| `time_integration/time_marching.h:85-520`, `driver.h:1286-1312`, `lac/solvers_nonlinear_snes.h:215-400`, `lac/solvers_nonlinear.h:418-520` (the wrapped solvers are parameters) | `NewtonSetup` |
| `numerics/output.h:35-118`, `numerics/data_out.h:22-65`, `grain_tracker/output.h:66-163` (`DataOut` is the list of fields, `std::sort` by its contract) | `Output` |
| `applications/allen_cahn/*.cc`, `applications/cahn_hilliard/*.cc`, `applications/grand_potential/kks.cc` (kernels, Newton set-up, time loop, Runge-Kutta; mesh, initial values and output not) | `Apps` |
| `lac/newton.h` | `SimpleNewton` |
| `sintering/runner.h` (conversions of texts, files and initial values are parameters) | `Runner` |
| `grain_tracker/distributed_stitching.h:527-1149` (distances by fronts, direct neighbours), `tracker.h:1243-1251, 1366-1400`, `representation.h:313-400` (mesh through accessors; distances as integers) | `Wavefront` |
| `operator_base.h:936-961`, `do_add_data_vectors_kernel` of all operators (values by their meaning; projection to nodes not) | `OutputFields` |
| `build_domain_quantities_evaluators` of all operators, `operator_base.h:660-688, 843-934` (bulk energy a parameter) | `DomainIntegrals` |
| `postprocessors.h:306-425, 545-630` (contours), `representation.h:145-156, 239-258, 350-370` (`save`), `projection.h:249-383`, reader `build_tex_packings.py:202-260` (number format is a parameter) | `ContourFile` |
| `projection.h:86-246` (sections of meshes of boxes) | `Section` |
| `postprocessors.h:112-304, 852-950` (grain boundaries and areas; marching cubes is a parameter), `953-1138` (overhead; coarsening is a parameter) | `GrainBoundary` |
| `driver.h:1456-1460, 1471-1489, 1593-1596, 1831-1892, 1935-1994, 2163-2202, 2204-2388, 2449-2466, 2480-2505, 2634-2694` (what is executed when in the time loop; vectors and meshes are numbers) | `Schedule` |
| `grid_tools.h:43-122` (`coarsen_triangulation`), `driver.h:745-825` (statistics of the mesh; meshes are trees) | `MeshStats` |
| `time_marching.h:827-1166` (`TimeMarchingArkode`), `dynamic_block_vector.h:262-291` (the integrator of SUNDIALS is a parameter; step size control not modelled) | `Arkode` |
| `driver.h:187, 1388-1395, 1453-1460, 1532-1539, 1718-1725, 1907-1922, 1967-1974, 2179-2186, 2516-2533` (calls of `output_result`), `driver.h:2735-2757, 2992-3100, 3115-3132, 3157-3182, 3201`, `output.h:72-128`, `postprocessors.cc:18-51` (names of columns and lines of the table; values and their text are parameters) | `OutputTable` |
| `postprocessors_stats.h:31-304`, `advection.h:317-320, 351-363, 405-428` (tables of grains and pores; values of displacements and pores are parameters) | `GrainStats` |
| `mobility.h:29-236` (providers of the mobilities, both materials), `operator_sintering_data.h:51-61, 424-435` (time of the data), `driver.h:855-933, 1996-1999` (material of the run and when it is updated) | `Model/Material.lean` |
| `mobility.h:311-435, 536-560, 579-755, 918-951` (contributions to the mobility and matrices of derivatives), `tensor.h:125-188`, `operator_postproc.h:55-198`, `operator_sintering_base.h:268-287`, `driver.h:2465-2505` (fluxes, divergences and their failure; mass matrix and solver are parameters) | `MobilityParts` |
| `parameters.h` (members, initial values, declarations, `parse`, `set`, `check`; `ParameterHandler` by contract, number and list patterns and the syntax of files are parameters) | `Params` |
| `driver.h:2001-2058`, `solution_history.h:204-215` (predictors within the pass of the time loop; residual, transfer and sanity checks are parameters) | `Guess` |
| `driver.h:205-233, 381-391, 671-690, 859, 971-981, 1035-1042, 1104-1175, 1467-1482, 1735-1822`, `time_schemes.h:213-227`, `preconditioners.h:467-480, 942-1092, 1112`, `lac/preconditioners.h:1365-1454`, `solvers_linear.h:96-102, 421-474`, `time_marching.h:95-125, 342-520`, `initial_values.h:44-56` (which implementation a text chooses; the implementations are labels) | `Choice` |
| `tracker.h:650-1021` (`remap_old`; one rank, one vector; graph as in `Remap`) | `RemapOld` |
| `matrix_free/tools.h:29-346`, `operator_base.h:187-222, 419-494, 543-613, 697-790`, `driver.h:618-646` (constraints; deal.II's resolution of constraints and numbering of `FESystem` as contracts) | `Assembly` |
| `grid_tools.h:124-156, 326-348, 358-470` (exchange of values written to ghost entries; one level, one block) | `GhostSync` |
| `operator_sintering_generic.h:392-615, 875-1086`, `instantiation.h:97-150` (loops over all or over the relevant order parameters, one quadrature point; chain of calls of `vmult`) | `CutoffLoop` |
| `driver.h:672-706, 746-838, 1398-1403, 2660-2690` (levels of the mesh over a run, multigrid arrays, statistics of the mesh) | `Levels` (marks from `Mesh`) |
| `tracker.h:148-399, 1079-1121`, `driver.h:1515-1729`, `postprocessors.h:466-494` (run of the grain tracker as a whole, questions put to it, numbers of contours) | `Cycle` (from `Detect`, `Track`, `Reassign`) |
| `tracker.h:425-649`, `driver.h:1515-1732` (remapping on several ranks, exchange of ghost values afterwards) | `RemapRanks` (from `Remap`) |
| `solution_history.h:81-183`, `dynamic_block_vector.h:60-82`, `driver.h:1371-1447, 1515-1732, 1938-2058, 2163-2202, 2318-2345, 2550-2592` (past solutions, ghost values, tracker inside of a step) | `History` |
| `driver.h:1371-1447`, `grid_tools.h:933-1012`, `dynamic_block_vector.h:174-203` (blocks of the history at a refinement) | `HistBlocks` (with `History`) |
| `postprocessors.h:955-1137`, `driver.h:1462-1463` (estimate of superfluous cells) | `Overhead` |
| `driver.h:2959-2977`, `postprocessors.h:466-494` (grain tracker at output) | `OutTrack` |
| `driver.h:2163-2202, 2318-2324, 2502-2505` (attempts of a step and the grain tracker) | `Retry` |
| `dynamic_block_vector.h:44-95, 125-291, 383-505, 532-537` with the pointers, `solution_history.h:110-122` | `Shared` |
| `lac/preconditioners.h:79-1064` (`clear`, `do_update`, `vmult`, memory), `operator_base.h:95-107, 417-502, 543-613, 640-657`, `preconditioners.h:568-630, 1154-1186, 1259-1303`, `solvers_nonlinear.h:247-298`, `driver.h:1402-1414, 1624-1628, 2190-2194, 2410-2445` over whole runs | `Prepared` |
| `driver.h:222-243, 318-452, 472-484, 502-607, 2573-2609`, `grid_tools.h:698-780` (grid at start and restart) | `Grid` |
| `postprocessors.h:426-536, 634-851`, `projection.h:386-413`, `grain_tracker/output.h:197-253` (files with surfaces and spheres) | `Surfaces` |
| `driver.h:2733-2758, 2783-2786, 2840-2880, 2949-2960, 3072-3110, 3140-3201`, `output.h:126-325` (names of files, counters) | `FileNames` |
| `structural/clamped_bar.cc:46-290` with `operator_elastic_linear.h` and the Newton method | `ClampedBar` |
| `operator_advection.h:389-800` forces of `AdvectionOperatorWeighted` | `Weighted` |
| `src/base/timer.cc:82-365`, `base/timer.h`, with `ScopedName` | `Timers` |
| `operator_sintering_generic.h:393-448, 876-1006` assembled for the first block, with the history and the time loop; increment of Newton's method | `Amount` |
| `operator_sintering_generic.h:876-1006` assembled for all blocks, with `operator_sintering_base.h:395-553` (energy) | `Energy` |
| `operator_sintering_generic.h:101-190, 539-678` assembled for all blocks (tangent) | `Relabel` |
| `benchmarks/operators.h:26-41, 131-639` (levels 4 and 5) | `FastKernel` |
| range of the assembled equations (same code as `Energy`, `Relabel`) | `Locality` (Spec, Lemmas, Props) |
| behaviour of the equations and mobilities under a change of the frame (same code as `Energy`, `Mobility`, `MobilityParts`) | `Frame` (Spec, Lemmas, Props) |
| `grain_tracker_throughput.cc` (command line, sizes, tests of remapping), `run_measurement` | `TrackerBench` |
| `output_porosity` (ids per cell, selection of cells), `add_translation_velocities_vectors` | `CellFields` |
| `NewtonSolverSolverControl` (counters), counting in the lambdas and wrappers, totals and final statistics of the driver | `RunStats` |
| time loop with the damped Newton solver for the assembled equations (composition of `TimeLoop`, `TimeData`, `Energy`, `Newton`) | `PureRun` |
| `InitialValuesDebug` | `DebugValues` |
| `DynamicBlockVector::locally_owned_elements`, `all_zero` | `Owned` |
| `print_log`, `AssertThrowDistributedDimension`, `debug::to_string` | `MergedLog` |
| `VectorTools::split_up`, `merge` (by cell) | `CellSplit` |
| `sintering_print_particles.cc` | `PrintParticles` |
| `scripts/transform_packing.py` | `Packing` |
| `scripts/library.py` (`generate_short_labels`) | `Labels` |
| `scripts/check_particle_connectivity.py` (contacts, closest pairs, closing of gaps, loop; SciPy's tree search, components and spanning tree by contract) | `Connectivity` |
| `scripts/contacts.py` (segmented arrays, radii of the searches, sort, pairs in contact; the search tree by contract) | `ContactPairs` |
| `scripts/densification_analysis.py` (loop over folders, table, covered points, coordination numbers) | `Densification` |
| `scripts/copy_results.py` (files of one folder) | `CopyResults` |

## What is not modelled

* Rounding of floating point arithmetic; overflow of counters except where stated.
* Linear solvers and preconditioners (parameters of the Newton solver), multigrid, SNES/NOX wrappers.
* The matrix-free integration loops, mappings and finite element evaluation of deal.II (kernels are modelled at one
  quadrature point, cells are given by their nodal values), sparsity patterns, memory accounting, timers.
* Input file parsing (parameters.h), VTK/HDF5 output beyond the quantities named above, the python scripts other than those named above, the tests.
* Performance, deadlock freedom of MPI calls other than the iterative stitching.

## Findings

Defects and pitfalls found while modelling; each "violated" entry is backed by a theorem (see the status table below).

* Grain tracker: a grain of several segments may inherit the id of a predecessor that is not the nearest one (C01); order
  parameters out of range index out of bounds (C01); ids of vanished grains are reused (C02); a failed `track` leaves the
  tracker changed (C05); segments of dropped grains alias in the inverse mapping (C07); the fast reassignment strategy is
  never effective since the sparsity pattern contains the diagonal, an empty grain table is undefined (C08); degrees of
  freedom shared by two grains lose values while remapping (C10); on locally refined meshes the flooding depends on the order
  of the cells (C12); the graph variant of the stitching is undefined without particles (C13); maxima of pieces on one rank
  overwrite each other and negative ones are lost (C14); remote points of ranks with equal radius are added, a cell in the
  centre gives not-a-number (C47); transfer zones of grains with overlapping spheres overlap (C16).
* Block vectors: `move_block` and `create_view` leave stale index tables (C18); shrinking with displacements drops
  displacement blocks, growth without reassigned grains appends behind them (C19).
* Time integration: loading explicit schemes is undefined (C23); Runge-Kutta stages lag behind for stationary blocks, the
  time of `time_data` is never set to the start time (C24); first step larger than the end time makes time go backwards (C26);
  steps cut to the end time may fall below the minimum (C28); a threshold of zero in the Newton solver is undefined (C25).
* Restart: the step size of the next step, the cut and the shift of the history are lost (C29); one slot is overwritten in
  place (C30); fractional call intervals divide by zero (C31); the predictor is zero for order one (C32); with
  `check_inconsistency` the history keeps an old numbering (C33); fewer vectors or another partition shift the data (C43);
  axes of elliptical representations are not stored, wavefront representations cannot be stored (C46).
* Mesh: fewer divisions than the prime limit are undefined, prime limit one gives zero divisions (C34); nine divisions become
  eight (C49); cells below the minimum level are coarsened further (C35).
* Mobility and kernels: the tensorial mobility is not linearised exactly (C39); the lane table overflows for more order
  parameters than lanes, ranks without cells dereference an empty range (C40); `get_relevant_id` is applied twice (C41); the
  two dimensional cross product has the wrong sign (C50); the centre of a segment is accumulated per cell (C53); the weighted
  operator discards its tables (C54); gradients are stored and read with different strides (C55).
* Other models: grain growth reads an uninitialised variable and mislabels its output (C64); the grand potential operator adds
  to uninitialised variables and its rows are not the derivatives of the residual (C65); inelastic strains ignore their
  cut-offs in the derivatives and depend on the numbering from three grains on (C66).
* Initial values: upper boundary for clouds on the negative side (C44, `numeric_limits::min`); blank lines and short rows
  (C42); contact planes beyond the smaller centre and nested particles (C59); buffer too small for inside interfaces (C60);
  contacts collinear with the origin (C61); contours with repeated vertices (C63).
* Postprocessing: relative and absolute tolerances of the box filter disagree, cells larger than the box are missed (C68);
  inverted automatic boxes (C69); isolated grains are not counted (C70); the mesh quality written to the table is zero in
  parallel (C71); the shrinkage box misses solid cells at the domain boundary (C72); smooth pore contours differ between ranks
  (C73). Not turned into theorems: `build_projection` reads the values from the vector before coarsening; `estimate_overhead`
  reads `max_values[0]` without grains; section files of several control boxes overwrite each other; `n_blocks() - 2` wraps
  for the grain growth model.
* The constructor of `Ellipsoid` from a quadratic form divides by twice the constant term with the wrong sign (C74, unused in
  production). The distance iteration stops at the first iterate for crossing needles (C75). A cell centred at the centre of
  its particle is skipped and vanishing moments give no ellipsoid (C76). Not turned into theorems: `get_spectral` returns the
  squared smallest radius; the comment on the rotation matrix states the transposed of what is computed.
* Operators: with several interleaved components the copy of constrained entries uses indices as if not interleaved (C78). The
  coupled operators do not restore the source at points of small concentration, an index listed twice gives a zero row, and the
  interleaved and matrix-based variants give zero rows (C80). Not turned into theorems: `update_state` is never called (its call in
  `time_marching.h:148` is commented out), no operator derives from `SinteringOperatorCoupledMonolithic` at this commit, and
  `memory_consumption` counts the block system matrix twice.
* Elasticity: in space and without plane type the material law is applied to the displacement gradient without taking its
  symmetric part, so rotations cause stress (C82). The elastic operator writes prescribed values instead of acting as the identity,
  its residual there does not depend on the displacement (C83); without external load the displacements themselves are integrated,
  since no value is submitted (modelled in `Structural.submitted`).
* Clamping: with all directions but one requested, translations along the remaining one are free; in space with one direction, the
  rotation about it is free; the mask of directions in `driver.h:1751` is not initialised; `clamp_domain` lists unknowns twice; faces are
  assigned to a section by their centre only, so at refinement edges faces across the section are taken too; within a particle the
  rank that owns an unknown may not constrain it (C84). The preference for growing grains depends on the order of the grains (C85).
* Preconditioners: `precondition_advection_ac` takes the increment of the first order parameter in the advection term of every order parameter
  (C86); the Allen-Cahn operator throws for one order parameter, also when only the blocked one is used, as `do_update` assembles it in any
  case; the labels "max" and "avg" of the approximation are exchanged (C87); `BlockAMG` with one matrix for all order parameters indexes
  beyond its array, `BlockILU` rejects 20 blocks although its arrays hold 20, and decides at construction whether there is one matrix
  (C88); AMG, ILU and IC keep work vectors over an update (C90).
* Linear solvers: the fallback to GMRES ignores the GMRES settings and reports too many steps if Bicgstab gives up early; an exception other
  than `NoConvergence` leaves the small limit in the control (C91); `SolverCGWrapper` cannot be selected.
* Jacobian by finite differences: behind `ResidualWrapperBase`, for operators without pre and post operations, only the first entries of each
  block (as many as there are cell batches) are perturbed and divided (C92). The numerical tangent is written into a matrix that is not
  cleared (`initialize_system_matrix(false)`), so entries that became small keep their old values (C93).
* Tools: bit 32 of a mask is never reported (C94); `--name="value"` keeps the closing quote, stray arguments are ignored silently (C95);
  the sparsity pattern of cells assumes shape functions without signs, quadrature points inside and at most one shape function per line
  and component (C98).
* Readers of microstructures: a row of contours with an odd number of values, or an empty line at the end, is read beyond its end; more
  contours than order parameters is undefined behaviour and fewer are accepted, after which the domain is computed from grains without
  points; the number in the first line is not used; order parameters with gaps, for instance counted from one, make `op_value` throw
  (C99). Voronoi files that are cut or empty are accepted without an error; the last index is repeated (C100).
* Set-up of Newton steps: with the matrix-free operator `fdm_jacobian_approximation` computes a numerical tangent that is never used; an
  update of a preconditioner that uses the matrix of the operator replaces the tangent of the linear system by the other kind; the direct
  solver without `matrix_based` factorises a matrix nobody has assembled (C101). The monitor of SNES passes an empty residual to the
  report, which reads blocks that do not exist (C102). SNES that converges in the last step that is allowed is rejected after the
  vector was changed; steps of failed solves are not counted by the wrappers of NOX and SNES; SNES ignores
  `newton_reuse_preconditioner` (C103).
* Output: `BlockVectorWrapper` only reserves space and then writes its pointers by `std::transform` to the begin of the empty vector, so the
  number of blocks stays zero and sections have no fields (C104). The invariant list of grains depends on their numbers if two grains
  have the same least centre, and is undefined if one of several grains has no segments (C105).
* Small applications: the residual of `allen_cahn_impl.cc` multiplies f' by the field, its tangent uses gradients that were not evaluated and is
  linearised at the argument of the product (C106). `cahn_hilliard_impl.cc` advances time by the size of the *next* step, so that time and
  solution differ by the difference of the last and the first step; in `cahn_hilliard.cc` the potential lags by one step and the first step
  does nothing (C107).
* `runner.h`: `std::string(argv[1])` comes before `argc == 1`, so the help without arguments is never reached; `atoi` into an unsigned accepts
  negative numbers; `--restart` does not check `MAX_SINTERING_GRAINS` (C110).
* `distributed_stitching.h:estimate_particle_distances`: fronts of two particles that meet at a face between two ranks are never compared (only
  locally owned neighbours are handled, reached ghost cells are dropped), so that the distance is missing or larger, depending on the
  partition; a missing distance counts as infinite (C112, C113).
* `distributed_stitching.h:get_direct_neighbors`: all active children of a refined neighbour count, also those without common face, unless they
  are artificial on the rank: the result depends on the partition (C111).
* `RepresentationWavefront`: distances between order parameters are 0 or infinite (C113).
* `operator_grain_growth.h:355`: the entry `df` of the output has the index of `d2f`: with four or more order parameters requesting `df` writes
  beyond the vector, otherwise second derivatives appear under the names of first ones (C114).
* `operator_grand_potential_greenquist.h:681`: array of five entries with two given; the empty name is accepted and confused with `bnds` (C114).
* `parameters.h:255`: the default domain integrals are refused by grain growth and the grand potential operator (C115).
* `output_grain_contours`: numbers are printed with six digits; the file is never closed; a particle on several ranks is written once per rank;
  sizes of the header are 32-bit numbers (C116).
* `projection.h:249-383`: the lines have no type, so the reader takes the first coordinate of the centre for it; the centre of the circle is
  `center + dist * normal` where it should be minus; `dist <= radius` lacks the absolute value, so that spheres far on the other side give the
  root of a negative number; `bb_max` starts with the smallest positive number (C117).
* `build_projection`: a plane on faces between cells is covered twice; cells thinner than 1e-6 get no vertices; with coarsening the values are read
  from the vector of the fine mesh with numbers of the coarse mesh, and `material_id` stays 0, taken as cell 0 later (C118).
* `build_grain_boundaries_mesh`: the test of the nodal values drops pieces for elements with negative shape functions (C119).
* `estimate_overhead`: `max_values[0]` of an empty vector if there is no grain; `n_blocks() - 2` wraps around; the first two grains are skipped
  for grain growth (C120).
* `output.h:89-324`: files of sections are written again for every box; an unused view of the solution in `porosity_contours`.
* `driver.h:2449-2466, 2484-2488`: if the solver of the post-processing does not converge, the step is treated as failed although time, counter
  and history were advanced: the solution is reverted, the time is not, and a pending refinement is dropped (C121).
* `driver.h:477-499`: pending refinement and tracking (`do_mesh_refinement`, `do_grain_tracker`) are not stored: a run restarted after a step
  that is a multiple of the frequency leaves this refinement out (C121).
* `driver.h:2257-2264, 2319-2340`: the depth is decremented for the extra coarsening before the check of the grains can reject the step; with
  `max_refinement_depth = 0` it wraps around, which limits nothing for a mesh with one level (C121).
* `driver.h:2663-2690`: the loop that refines until the quality is reached has no limit; it is not repeated after a restart from the file
  written in the first step (C121).
* `driver.h:824`: "n theoretical fine cells" uses `pow(2*dim, levels-1)`, in 3D 6 instead of 8 per level (C122).
* `preconditioners.h` (`BlockPreconditioner2`): `c_min` of the mechanics parameters is not passed to `OperatorSolid`; the types "GMG" and
  "BlockGMG" listed in `parameters.h:1084` always end in `ExcNotImplemented`.
* `driver.h:771-793`: "n cell fine batch" counts only families owned by one rank, the total depends on the partition (C122).
* `time_marching.h:912-941, 1083-1143` (ARKODE): the stationary blocks keep the values of the previous step in all evaluations of a step, so
  that the scheme is not that of the equations with the stationary unknowns eliminated (C123).
* `time_marching.h:917, 1063-1066`: after a failed step the time stays at the last stage time; the repeated step integrates from the end of
  the last successful one to the stage time plus the new size, the driver counts only the new size (C123).
* `time_marching.h:869, 1063-1088`: the integrator starts at the `time_start` of the parameters, `time_data` at zero; with a positive start time the
  first step throws or is too short (C123). Without a reset the given solution is ignored, hence also a prediction.
* `postprocessors.cc:23-50`: `write_table` truncates the file and writes the names of the columns if and only if the time is zero. The tables with
  the labels for debugging lose all but the last row written at the time zero (initial refinements), and have no names of columns if their
  first output is later (C124).
* `driver.h:1972, 2184`: rows for failures have the time of the last output instead of the time of the failure; `driver.h:187, 1918`: the initial output
  has the time zero for every start time (C124).
* `postprocessors_stats.h:253-258`, `driver.h:2321-2324, 2485-2487`: with `check_inconsistency` and advection the grains are tracked after the step, the
  data of the forces belong to the old numbers of the segments. The table of the grains and the printed forces then have the forces of other
  grains, or read behind the end of the data if there are more segments (C125).
* `postprocessors_stats.h:251, 282-291`: velocities of coupled operators are evaluated but printed only if advection is enabled (C125).
* `driver.h:1996-1999`, `time_marching.h:645-736`: the mobility is set once per step. The explicit schemes set the time of each stage in `time_data`, but no
  operator reads it: with a temperature that changes, Runge-Kutta of order four works with the material of the beginning of the step and is of order one;
  the fluxes written after an explicit step use the material of its beginning; the predictors of implicit schemes evaluate the rate at the beginning of
  the step with the material of its end (C126).
* `parameters.h:153`, `driver.h:896-912`: the unit of the Arrhenius law is a member of the parameters that is neither read from the input nor passed on: the
  gas constant can not be selected. An empty profile of temperatures gives temperature zero and no mobilities (C126).
* `mobility.h:619-629, 776-777`: the surface part of the tensorial mobility written to the output has no `projector_scale`, that of the equations has: the four
  fluxes do not add up to the flux of the equations, and in the equations a thousandth of the surface flux crosses the surface (C127).
* `mobility.h:680-684`: `dM_dc` of the tensorial mobility uses `c2_1minusc2` with a factor four for the interpolation function, too: for volume diffusion it is four times
  `dM_vol_dc` (C127). `mobility.h:946-947`: `dM_surf_dc` has the scale that `M_surf` has not.
* `driver.h:2370-2372, 2465-2482, 2493-2497`: the divergences of the fluxes are computed after time and number of the step were advanced, within the same `try`. If their linear
  solver does not converge, `process_failure` resets the solution and halves the step, but not the time: the run continues from the new time with the old
  solution, or ends at the final time with it (C128).
* `time_marching.h:88, 129-203`: the constructor of `TimeMarchingImplicit` takes `print_stats` by value and its lambdas capture it by reference; they read it after the
  constructor has returned, which is undefined behaviour whenever a matrix is initialised (not modelled).
* `parameters.h:153`: `arrhenius_unit` is declared but bound to no entry and read by nobody, so activation energies are always divided by the Boltzmann
  constant although the mobility provides for the gas constant; entries of files with a misspelt path are dropped without a message (`skip_undefined`),
  while the same entry as an option is refused (C129).
* `driver.h:1383, 1527` with `driver.h:2040`: refinement and tracker work on all solutions of the history but the recent one, which the linear predictor
  subtracts from the current one. After a refinement vectors of different layouts are added (undefined in release builds), after a remap values of
  different grains are mixed. With BDF1 or an explicit scheme, and in the first step of a run that starts after time zero, the linear predictor gives the
  zero vector (`driver.h:2026-2046`, the `Assert` is for debug builds). The Euler and midpoint predictors add the residual without the inverse of the
  mass matrix. Explicit schemes take the guess as the last solution: the explicit Euler scheme with the Euler predictor makes two steps in one (C130).
* `GMG` and `BlockGMG` are offered for all four preconditioners (`parameters.h:1083`) but every program refuses them: the constructor with multigrid begins
  with a failing check (`preconditioners.h:1112`), and `create` does not know them. The second block refuses `Identity`, `InverseBlockDiagonalMatrix` and
  `InverseComponentBlockDiagonalMatrix`, which are offered. The checks also hit explicit schemes, which use no preconditioner (C131).
* `remap_old` (`tracker.h:705-735`) sets the order parameter of a grain that is gone to zero in the whole zone this grain had, which is the whole domain for a
  grain that was alone in its order parameter. A grain that appears in this order parameter in the same call loses its values; `remap_new` leaves them. The
  order of the moves is found with `Grain::distance` (`tracker.h:774`) while the zones are made of bounding spheres (`tracker.h:684`): with wavefronts or
  ellipsoids the order can be wrong and values are overwritten before they are moved. At nodes shared by the zones of two grains that leave the same order
  parameter only the first one gets the value (C132).
* `initialize_system_matrix` (`operator_base.h:443-449`) builds its own constraints from hanging nodes only, while `MatrixFree` works with hanging nodes and
  periodicity (`driver.h:627-643`): with `periodic = true` and `matrix_based = true` (or an algebraic preconditioner on the system matrix) the matrix is that
  of the problem without periodic boundaries. `compute_matrix` (`tools.h:150-159`) drops entries below `1e-10` of the greatest entry of the cell over all
  components, so that a component which is scaled down by more than ten orders of magnitude gets zero rows. The constraints are made for a `FESystem`, the
  matrix for indices `dof * n + component`; both numberings agree if and only if no object carries two or more degrees of freedom per component, i.e. not for
  elements of degree 3 or with three subdivisions (C133).
* `filter_mesh_withing_bounding_box` (`grid_tools.h:372-425`) subtracts the old value once for every rank that changed a ghost entry and then lifts negative
  results to zero. This supposes that the old value is not negative; the smoothing itself produces negative values. For a negative old value and `k >= 2` ranks
  the entry is `(k - 1) |old|` after these steps, and stays so if no new value is negative or greater (C134).
* `SinteringOperatorGeneric::vmult_internal` for `Vector` and `BlockVector` (`operator_sintering_generic.h:450-454, 608-614`) calls `OperatorBase::vmult`, which calls the
  virtual `vmult_internal` again: without a matrix the product never returns for these types. Only `DynamicBlockVector` is used by the solvers (C135).
* With a cut-off tolerance, `compute_inverse_diagonal` and the assembly of matrices (`operator_base.h:380, 489, 611`) use the kernel for all order parameters, while the
  linearisation point is stored for the relevant ones only: shifted values are read, and memory beyond the storage in the last cell. The product with the
  Jacobian drops the increments of order parameters that are not listed, also from the row of the concentration (C135).
* The arrays `mg_constraints` and `mg_matrix_free` are sized for `n_global_levels_0 + max_refinement_depth` (`driver.h:687-699`); the quality loop (`driver.h:2663-2690`)
  raises the depth without bound. After the second increase the initialisation of the levels accesses beyond the arrays (C136).
* "n theoretical fine cells" (`driver.h:824`) uses `2*dim` children per cell: 6 instead of 8 in 3D (C136).
* After a reassignment the tracker looks again only if advection or boundary conditions need it (`driver.h:1706`). Otherwise `op_particle_ids` and
  `particle_ids_to_grain_ids` keep the old numbering while the values have moved; asking for a new order parameter throws (`tracker.h:1082`) (C137). Nobody asks in
  this state: output looks again first (`driver.h:2966-2977`, C142).
* Pieces of contours in cells without particle keep the material number 0 and are written as grain 0 (`postprocessors.h:470-490`) (C137).
* `remap_new` writes to all degrees of freedom of the own cells of a rank, also to ghost entries, and these are dropped afterwards (`driver.h:1730-1731`). At the border
  of a grain, where the cells of the owner are outside, values below the threshold stay in the old order parameter: the result depends on the distribution of the
  mesh. Between remapping and exchange the tracker and the output read ghost entries which are out of date (C138).
* With `check_inconsistency` the tracker runs after the step and before `commit_old_solutions` (`driver.h:2321`). It remaps all vectors but the recent one, which is
  then copied into the history in the old numbering: schemes of second and higher order mix grains (C139).
* If the second search of such a run finds an inconsistency, the step is repeated from the recent solution, but the older ones stay remapped, with stale ghost values (C139).
* After a restart with full history and without tracker the older solutions have no ghost values in the first step (`driver.h:344-363`; refinement is skipped): owners
  and neighbours compute different residuals (C139).
* If a run of the tracker inside of a step (`check_inconsistency`) changes the number of components, the history keeps a vector with the old number of blocks. The
  next refinement cuts the blocks into pieces of the new number and reads behind the end (`driver.h:1416`), the next residual reads missing blocks if the number
  has grown (C140).
* `estimate_overhead` reads the solution without ghost values (`driver.h:1463`): cells at the boundary of a rank miss order parameters. It skips two blocks also
  for grain growth, and reads the first entry of an empty histogram if no order parameter is above the threshold (`postprocessors.h:1016`) (C141).
* Output of contours, statistics or coordination numbers runs the grain tracker (`driver.h:2966-2977`) outside of the handler for failed steps (`driver.h:2502`): an
  inconsistency ends the simulation only if such output is written. The search also replaces what the tracker knows, so that numbers of moving grains depend on
  output, and `remap_old` no longer clears the remains of grains that disappeared before it (`tracker.h:703-740`) (C142).
* `track` overwrites `grains` before it checks them (`tracker.h:156-158`), and nothing restores them after an inconsistency (`driver.h:2163-2202, 2502-2505`). The repeated
  attempt is compared with what was matched in the rejected one: a grain that moved too far once is unknown in all repeated attempts, so that the recovery promised by
  `check_inconsistency` ends with the minimum step size. With `debug` output the search in `process_failure` throws within the handler (C143).
* Block vectors: copy assignment writes into the present blocks one after the other, so assigning from a view taken before `move_block`, or adding a vector to a shifted view of itself,
  reads blocks that were overwritten before; views do not follow changes of the array of blocks, and assigning a longer vector to a view leaves the vector incomplete (C144; not reached at this commit).
* With one level and depth zero, extra coarsening (`driver.h:2257-2269`) takes one from the unsigned depth zero and removes the limit of the refinement (C136).
  Numbers of blocks are `unsigned char` in the residual but not in the Jacobian, so they differ from 255 order parameters on (C135; more than are instantiated by default).
* `BlockPreconditioner2::do_update` always assembles the matrix of `OperatorAllenCahn`, also if only the blocks of `OperatorAllenCahnBlocked` are used; with one order parameter this throws (C145).
* `driver.h:2437`: the report of the memory calls `memory_consumption` of the preconditioner, which throws for `InverseComponentBlockDiagonalMatrix`, `InverseBlockDiagonalMatrix` and `GMG`;
  `operator_base.h:649-650` counts the blocks twice, `mc_sintering_data` is not part of the total (C145).
* `driver.h:405` decides about `repartition()` after `load` by `params.restart_data.flexible_output` of the new run instead of the flag read from the file: switching the parameter loses the vectors (C146).
* `driver.h:395` with `InitialMesh::Divisions`: `create_grid` refines globally although `InitialRefine::None` is given, so that `tria.load` gets a refined triangulation (C146).
* `grid_tools.h:760` rounds the number of coarse cells to the nearest: cells up to 1.5 times the wanted size, none at all in directions thinner than the radius (C146).
* `grain_tracker/output.h:238`: every rank hands over all segments to `insert_global_particles`, so that each sphere is written once per rank (C147).
* `postprocessors.h:694`: with coarsening the tracker is not passed on and all pieces of contours get the number 0 of the first grain (C147).
* `postprocessors.h:499, 742, 833`: ranks without surface write a small cube around the origin; only in the file with the contours it is marked (C147).
* `driver.h:2966-2971` does not look at the grains again for `grains_as_spheres` and `particle_indices`; these files show the grains of the last run of the tracker.
* `output.h:153-176`: the loop over the sections is inside the loop over the boxes but uses neither box nor its name: the same file is written once per box (C148).
* `driver.h:2866-2872`: the position of a section is printed with the six digits of a stream; close sections far from the origin have the same file (C148).
* `driver.h:179, 304, 505, 615, 622, 651, 679`: `MyScope("...");` is a temporary that ends at once, so that these scopes measure nothing.
* `operator_elastic_linear.h:85-94`: the residual of an entry with a condition attached by hand is the prescribed value instead of the difference, so that Newton's method does not end for values other than zero and never corrects entries that differ from them; that zero values work rests on `do_post_vmult` changing the constant source vectors of the linear solver (C149).
* `operator_advection.h:489`: contacts are compared with the fixed number 1e-10, which has the unit of a volume; with lengths in metres all weighted forces are zero (C150).
* `operator_advection.h:629-631, 673-675`: whether an order parameter counts in a cell is decided for the whole batch, so that with cut-off the weighted forces depend on the number of lanes and on the distribution of the mesh (C150).
* `driver.h:179, 304, 505, 615, 622, 651, 679`: `MyScope("...");` is a temporary without a timer that ends at the semicolon; these parts of the set-up are not measured (C151).
* `driver.h:1941-1946` (sanity check of the solution) and coarsening of the mesh change the amount of material; no step does (C152).
* Implicit steps (`operator_sintering_generic.h:876-1006`): the equations of a long step have solutions with a higher energy than before; the time loop accepts them, the energy is only reported (C153).
- C155: the kernel of `benchmarks/operators.h` for levels 4 and 5 reads the geometry of the first cell for all cells (lines 327-331), so on meshes with cells of different shape the product is wrong (`C155_shape_violation`); for `dim != 3` the loop over the cells returns at once and the product is zero (`C155_dim_violation`), though two dimensions are the default of the program. The factory (layer_wise.likwid.cc:139-171) chooses by degree and number of points only, so elements of degree 2 with 4 points that are not divided linear ones are treated as if they were.
- **C158** (`grain_tracker_throughput.cc:353`): `argv[1]` is used without a check of `argc` (a string is made of a null pointer); `ExcNotImplemented();` at line 458 is constructed but not thrown, so unknown modes end as if successful; `atoi` is converted to `unsigned int`, so the check for more than one grain per row lets negative numbers pass, and with -1 the loop at lines 384-386 does not end.
- **C158** (`grain_tracker_throughput.cc:241-242, 270-271`): the remapping is called 110 times without a new search in between. The tables still say that the grains are in their old order parameters; the second call moves zeros over the values moved by the first one. Proved: after the test nothing is left of the grains inside (`C158_zero_violation`).
- **C159** (`postprocessors.h:1941-1944`): the `dim` components of the translation velocity of an order parameter are added to the output under the same name `trans<ig>` (`C159_names_violation`), so that they cannot be told apart by name.
- **C160** (`time_marching.h:238`, `solvers_nonlinear.h:443-444, 482-483`): iterations are added only after the call of the solver returns; a solver that fails throws, and its iterations appear neither in the totals nor among the failed ones (`C160_linear_violation`, `C160_external_violation`).
- **C160** (`driver.h:2468-2496`): the solver of the divergences of the fluxes runs inside the `try` block after the step was accepted; if it does not converge, the same work is counted as done and as failed (`C160_late_violation`).
- **C160** (`driver.h:2717-2718`): the averages divide by the number of steps and of non-linear iterations, which may be zero (`C160_averages_violation`).
- **C161** holds only with predictors that keep the phase: the linear predictor starts from zero with BDF1 and after a restart (`C130_lost`, `C130_start_lost`), so that Newton's method has to find the grain again.
- **C162** (`initial_values_debug.h:107-112`): `get_domain_boundaries` returns a pair of origins; unless a custom bounding box is given, the corners of the domain are plus and minus the boundary factor and `do_value` throws there for every factor (`C162_domain_violation`).
- **C163** (`dynamic_block_vector.h:176-203, 242-259, 545-559`): `locally_owned_elements` uses the stored sizes. A view has none, so adding indices of its first block that has entries violates the range of the index set (`C163_view_violation`); after `move_block` of blocks of different sizes the positions are wrong or out of range (`C163_move_violation`).
- **C164** (`tracker.h:1881-1893`): the events are printed in alphabetical, not in chronological order; the comment only asks for unique events, so this is not counted as a violation.
- **C165** (`vector_tools.h:123-190, 215-305, 329-397, 422-514`): no violation found; the functions are not called by any application, and the version with three parts takes its space from the fixed number 3 of the degree-of-freedom handlers (marked TODO in the code), which is a parameter here.
- **C166** (`sintering_print_particles.cc:44-46, 106, 118`): the names of the output files have the stem of the input only; for two inputs in one folder that differ in their extensions the second overwrites the output of the first (`C166_files_violation`).
- **C167** (`transform_packing.py:39-41`): the centre is computed as half of the extent, `(max - min) / 2`, not as `(max + min) / 2`; a packing is centred only in coordinates where it starts at 0 (`C167_centre_partial`), and one that is centred already is moved away (`C167_centre_violation`).
- **C168** (`library.py:79, 99`): without a common end, `f[s_start:-s_end]` is `f[s_start:0]` and all labels are empty (`C168_end_violation`); if the first name is the start of all others, `f[s_start]` is out of range and the script stops (`C168_start_violation`).
- **C169** (`check_particle_connectivity.py:144-147`): the pair that bridges two components is searched among the nearest centres, so with different radii it is not the pair with the smallest gap that the comment promises (`C169_smallest_violation`); three equal particles in a line get two enlarged particles where the one in the middle would do (`C169_minimum_violation`). The loop never needs a second pass (`C169_repair`), in exact arithmetic.
- **C171** (`densification_analysis.py:86-87, 230`): a folder without files of the grain tracker is left out before its name is taken from the list, so all later tables are written to the file of another folder (`C171_save_violation`); rows of skipped files stay as `np.empty` left them and are saved and plotted (`C171_rows_violation`); `contacts.py:112` unpacks three coordinates, so two-dimensional data end in a `ValueError` (`C171_plane_violation`).
- **C172** (`copy_results.py:12, 50`): the default `"solution.log"` of the option with several values is gone through by characters, so the solution log is never copied and the mask `.` ends the script (`C172_default_violation`); the `break` after the first job file also leaves out all other files of the mask (`C172_break_violation`).

## Status per property

| id | property | status | remarks |
|----|----------|--------|---------|
| C01 | Grain identity transfer is injective and stays within an order parameter | proved | For all tables: no exception/UB, total, sound, injective, justified non-matches. Out-of-range order parameters are UB (proved). The runtime checks cannot fire: C04_accounting. Finding: multi-segment grains may inherit a non-nearest predecessor. |
| C02 | Grain identifiers are unique and new grains get fresh ones | proved | Uniqueness and freshness w.r.t. the previous call proved; identifiers can be reused over longer history (witness). |
| C03 | Point-to-grain lookup stays consistent with the grain table after renaming | proved | Refinement of the in-place renaming loop to a pointwise map. |
| C04 | Every detected grain is accounted for by a tracking call | proved | Full decision logic of the bookkeeping part of track(). |
| C05 | A failed tracking call leaves the tracker unchanged | partial | The code violates the property (concrete witness, the retry fails too). Proved part: the previous table survives as old_grains. |
| C06 | Grain numbering at detection is contiguous and periodic images are merged | proved | Detection numbering for every connected-component routine meeting CCContract (ccExec meets it). Unchecked write in build_groups is in range under the stated contract on contact ids. |
| C07 | Global segment index is a bijection | proved | Bijection whenever every particle belongs to a grain; dropped grains alias (witness). |
| C08 | Overlapping grains never share an order parameter after reassignment | proved | Fast and full path, forced or not, for every colouring/sorting routine meeting its contract (executable instances given). Findings: the fast strategy is never effective because the sparsity pattern holds the diagonal; an empty grain table is UB. |
| C09 | Order parameter identifiers in use are gap-free after reassignment | proved | Gap-free numbering, monotone renumbering, flag soundness, nearest-neighbour bound. |
| C10 | Remapping moves every grain's values to its new order parameter without loss | partial | remap_new (tracker.h:425-649) never fails on consistent tables; values of every grain arrive in the new order parameter, vacated ones are zero, others unchanged, for a single cell without restriction and for all cells together at degrees of freedom whose cells all belong to the grain. The full claim for degrees of freedom on the rim of a grain is false: C10_shared_dof_loss is a witness |
| C11 | Remapping schedule is complete, ordered and cycle-free | proved | for any list of moves of pairwise different grains and any interference relation (remap_new: all, remap_old: geometric); depth first search is a parameter with a contract proved for the executable one in any edge order; the hypothesis on different grains is needed (witness) |
| C12 | Flood filling finds exactly the connected regions above the threshold | proved | run_flooding and detect_local_particle_groups for every finite mesh with refinement hierarchy; symmetric face neighbourhood as stated in the property. On locally refined meshes the neighbourhood seen by the code is not symmetric: C12_any_mesh states what still holds, C12_refined_counterexample is a witness that distinct regions are merged depending on cell order |
| C13 | Distributed particle stitching is independent of the partition | proved | iterative stitching: terminates, no UB, assertion never fires, correct grouping and numbering 0..n-1, for every delivery order; graph variant for every components routine meeting the contract (UB when no rank has a particle, proved); end-to-end: local flooding + connectivity lists + stitching on any partition equals the connected regions of the whole mesh (symmetric neighbourhood as in C12) |
| C14 | Global particle maxima do not depend on the partition | partial | The code violates the property: maxima of several pieces of a particle on one rank overwrite each other (end-to-end witness), and negative maxima are lost. Proved for particles with at most one piece per rank and non-negative values |
| C15 | Particle measure, centre and radius are partition independent and enclosing | proved | exact sums, barycentre, inertia and bounding radius for every distribution and visiting order of the cells (real arithmetic); zero measure gives no centre; a particle number out of range is UB (proved) |
| C16 | Grain geometry aggregates and overlap test are sound and symmetric | partial | Everything proved except that transfer zones of grains with overlapping bounding spheres do overlap (witness); zones are disjoint for disjoint bounding spheres, end to end after reassign_grains |
| C17 | Block vector structural operations behave like list operations | proved | shifting loops modelled with explicit index checks; stationary indices strictly ascending and in range |
| C18 | Element access in a block vector addresses the blocks in order | partial | The code violates the property: move_block and create_view leave the index table behind (witnesses). Proved for all histories that move blocks of equal sizes only |
| C19 | Changing the number of order parameters keeps mechanics fields attached | partial | The code violates the property: with displacements, shrinking always drops displacement blocks (C19_shrink_loses, for all sizes) and growth without reassigned grains puts the new blocks behind the displacements. Proved: growth with reassigned grains, shrinking without displacements |
| C20 | Solution history holds the solutions of the last accepted steps | proved | for every run of the driver's loop (any pattern of failures, refinements and predictors) starting from a history of full length |
| C21 | BDF weights are consistent for arbitrary step sizes | proved | exact arithmetic in any ordered field, all positive variable step sizes |
| C22 | Stored step sizes are the actual last step sizes | proved | for every run of the driver's loop; also weights belong to these sizes |
| C23 | Time integrator data survive saving and loading | partial | The code violates the property for explicit schemes: order 0 is saved and loading it back is UB for every step size (C23_violated). Proved for all implicit schemes, including a change of scheme between saving and loading |
| C24 | Explicit time stepping equals the classical scheme | partial | Forward Euler and systems without stationary equations: full. With stationary equations coupled into time dependent ones the Runge-Kutta stages use stationary blocks of the stage before, so the classical formula is missed (witness); proved if the time dependent equations do not involve stationary blocks. The time is the one of time_data, which the driver never sets to the start time |
| C25 | Nonlinear solver returns only converged solutions | proved | damped Newton solver; IEEE comparisons with infinity and not-a-number; all residual functions and linear solvers. Threshold parameter 0 is UB (proved) |
| C26 | Time loop reaches the final time exactly and always ends | proved | for all oracles deciding failure and convergence, all positive limits; without the hypothesis that the first step fits, time overshoots and goes backwards (witness) |
| C27 | A rejected step has no effect except a halved step size | proved | up to the refinement and limiting of solutions performed before the attempt |
| C28 | The step size respects the configured bounds | partial | The last part of the claim is false: a step cut to the remaining time can be below the minimum (witness). Proved: bounds by maximum and remaining time, monotonicity, and the minimum up to that cut |
| C29 | A restarted run continues like the uninterrupted run | partial | The code violates the property: the snapshot stores the step size and the integrator state of the step just accepted, so growth, the cut to the remaining time and the shift of the step history are lost (witnesses for growth, for constant steps at start-up and for running past the end). C29_restarted describes exactly what is restored; proved: identical continuation if the stored steps all equal the next step |
| C30 | Restart snapshots survive a crash while writing | partial | With a limit of one the only snapshot is overwritten in place (violated, witness); during writing only m-1 snapshots are kept. Proved for all other limits, any number of crashes, restarts from any complete snapshot |
| C31 | Restart and output schedule | partial | Calls: proved for intervals of at least one (fractions below one divide by zero, proved UB). Simulation time: apart by the interval minus the tolerance 1e-10 (witness). Output: proved for start times that are not negative (witness otherwise). Final output: except at exact equality with the tolerance |
| C32 | The predictor yields the linear extrapolation and never destroys the state | partial | The code violates the property: for order one and at start-up or restart without history at positive time the guess is zero (C32_zero, for all states); after refinement stale vectors are mixed (witness). Proved for accepted steps of order at least two without refinement; on retries the guess is the last solution |
| C33 | History entries are kept on a common order parameter numbering | partial | Holds if tracking happens at the beginning of a step (default). If grains are tracked before the step is committed (check_inconsistency) the previous solution keeps the old numbering for every integrator of order at least two (C33_tracked_stale, witness) |
| C34 | Mesh subdivision keeps the requested resolution | proved | for prime limits between 2 and the number of divisions below 2^31; fewer divisions than the prime limit are UB (C34_small_ub), prime limit 1 yields zero divisions (witness) |
| C35 | Refinement marking respects the level limits | proved | for minimum level at most maximum level, flags before deal.II's smoothing; cells already below the minimum are still coarsened (witness) |
| C36 | Piecewise linear profiles interpolate and stay within bounds | proved | single points with extrapolation are UB, doubled end points divide by zero (witnesses) |
| C37 | Clamping the solution is exact, local and idempotent | proved | all block vectors and masks; masks of other lengths are rejected |
| C38 | Free energy derivatives are exact | proved | derivatives in the sense of analysis over the reals, any number of order parameters; apply_d2f closed form; reading cubes that were not computed is UB (proved) |
| C39 | Mobility is non-negative and its linearisation exact | partial | Scalar mobility: everything proved for c in [0,1] including the end points (false outside, witness). Tensorial mobility: positive semidefinite, but the linearisation is not the derivative: the surface term in c is four times too large (witness) and the isotropic part fsurf/1000 is missing (C39_tensorial_mu) |
| C40 | Cut-off storage addresses exactly the relevant components | partial | The code violates the property: more order parameters than SIMD lanes write past the lane table (C40_lanes_ub, for all inputs), a rank without cells takes the maximum of an empty range (C40_empty_ub), saving all blocks with blocks behind the grains reads past the component table (C40_all_blocks_ub), and different flags for table and storage overrun the storage (witness). Proved in full for the remaining configurations |
| C41 | Advection velocity is taken from the right grain | partial | The code violates the property with cut-off (the map to relevant grains is applied twice): witness with a lost velocity, an exception and a velocity of another grain; C41_cutoff_read describes what is read in general. Proved without cut-off, and with cut-off if the relevant grains are the first ones |
| C42 | Particle table reading is faithful | partial | Rows: for all lines. Particles: full for tables whose rows have at least four numeric columns; a blank line throws std::invalid_argument, a row with fewer columns is read out of bounds (C42_faulty, e.g. two dimensional tables x,y,r) |
| C43 | Restart solution files restore the solution | proved | MPI-IO writes and reads at offsets are parameters with their standard meaning, in any order of the ranks. The round trip needs the same number of vectors and the same partition on both sides; witnesses show what is read otherwise (this can happen in the driver when the order of the time integration is reduced at restart) |
| C44 | The initial particle packing is enclosed by the computed domain | partial | The code violates the property: the upper boundary starts at numeric_limits::min(), the smallest positive number, so clouds which lie on the negative side altogether get an upper boundary at zero (C44_negative, all inputs). Proved when some particle reaches the positive side in every direction, and for arrays |
| C45 | Energy parameters reproduce the physical energies | proved | exact arithmetic |
| C46 | Saved grains are restored | partial | Proved for spherical and missing representations. The code violates the property for elliptical representations (axes not serialised; everything else is restored) and wavefront representations (class not exported, saving throws) |
| C47 | Remote point attains the radius | partial | The code violates the property: if several ranks reach the radius (symmetric particles) their remote points are added (witness), and a cell centred at the particle centre gives not-a-number (witness). Proved if one rank alone comes close to the radius |
| C48 | Block vector arithmetic acts on the concatenation of the blocks | proved | real arithmetic; the square root is not modelled, the radicand is; mean of a view is not-a-number because views have an empty index table |
| C49 | The mesh created from the interface width resolves it | partial | The code violates the property with a prime limit: 9 divisions become 8 (witness). Proved without prime adjustment |
| C50 | Rotation follows the torque | partial | Three dimensions: proved. Two dimensions: violated for all inputs with a torque, as the two dimensional cross product has the opposite sign |
| C51 | Bulk free energy is non-negative and vanishes exactly in pure phases | proved | outside of [0,2] the energy becomes negative (witness) |
| C52 | The Jacobian kernel is the derivative of the residual kernel | proved | scalar mobility, c in [0,1], any number of order parameters, with velocities; tensorial mobility is covered by C39 where the linearisation is violated |
| C53 | Rotation is about the centre of the grain | partial | The code violates the property: the centre is added once per cell (and order parameter) on the rank and never divided (C54_tables_partial states the factor, witness). Proved for a segment with exactly one cell on the rank |
| C54 | The advection data produced by the operators can be read by the kernels | partial | Generic operator: full. Weighted operator: violated for all inputs, the tables are discarded after the loop and every read is out of bounds |
| C55 | The Jacobian kernel reads the linearisation point that has been stored | partial | The code violates the property: with advection and scalar mobility gradients are stored with stride 2+n and read with stride 2 (C55_shifted states what is read). Proved for all configurations in which both sides use the same stride |
| C56 | Forces between grains are equal and opposite | proved | at every quadrature point, any set of relevant order parameters, with sharp, smoothened or no filter; exact arithmetic |
| C57 | Initial fields are physical | proved | cos is a parameter with its values in [-1,1] and monotonicity as contract. Without order parameters the maximum of an empty range is dereferenced (C57_no_order_parameters) |
| C58 | Generated arrangements give every grain exactly one order parameter | proved | the colouring of deal.II is a parameter with its contract; with a single order parameter the hypercube puts all grains into it on request |
| C59 | The contact plane of two overlapping particles is the plane of their intersection | partial | The code violates the property: the distance of the plane is always taken positive, hence wrong when the centre of the smaller particle lies beyond the plane (C59_violated, all inputs), NaN for nested particles (C59_nan) |
| C60 | Values of clouds of particles | partial | The code violates the property for the interface direction inside with the default buffer (witness). Proved when the buffer exceeds the reach of the interface |
| C61 | Local frames of contacts are orthonormal | partial | Two dimensions: full. Three dimensions: violated when the centres are collinear with the origin (C61_collinear, all inputs): NaN, and the particle vanishes near this contact (C61_hole) |
| C62 | Necks between particles are a partition of unity | partial | for contacts with a frame and a plane, i.e. except the cases of C59_nan and C61_collinear |
| C63 | Polygonal microstructures are sampled consistently | partial | The code violates the property for contours with repeated vertices: the distance is NaN (C63_repeated_vertex, all inputs with the first point repeated at the end). Proved for all other contours |
| C64 | Grain growth: derivatives, linearisation and output are consistent | partial | Energy, derivatives, residual and linearised operator: full. Violated: the operator applying the mixed derivatives reads an uninitialised variable from two order parameters on and skips the first (C64_apply_*, all inputs); the output df writes mixed second derivatives under the names of first ones (C64_output_violated) and runs out of bounds for four or more order parameters (C64_output_undefined) |
| C65 | Grand potential model: derivatives and linearisation are consistent | partial | The code violates the property: zeta and its derivative do not match, the row of mu uses the second derivative of the wrong potential, the gradient terms of the order parameters miss the derivative of kappa, and the linearised operator adds to uninitialised variables (Verif.Props.C65_vmult_undefined). The partial theorems state for each row exactly what the operator is if these variables are zero |
| C66 | Inelastic strain rates and their derivatives | partial | Shape and derivatives with respect to the divergences: full. Concentration: exact for c^2<1, violated for c^2>1 (all inputs). Order parameters: exact where the normal vanishes and the blending factor is not cut; otherwise C66_eta_defect states the missing term. Numbering: invariant for two grains, violated for three (witness) |
| C67 | The Courant check is exact | proved | speeds that are not a number count as violation; unused lanes get the largest number as diameter and do not matter as long as the speeds in them stay below it |
| C68 | Boxes and plane sections classify points consistently | partial | Weights, intersections, sections and clipping: full. The code violates the rest: for boxes with sides of one or more a point slightly below a face counts as inside (relative against absolute tolerance), a cell containing the whole box is not reported as cut, the test \|fac\|<1 alone accepts points outside of the edge |
| C69 | Control boxes are proper and their outputs do not overwrite each other | partial | Selection and naming: full. The code violates the property for the automatic box: the size check counts the padding once, the box is shrunk by it on both sides, so inverted boxes pass (witness) |
| C70 | The average coordination number | partial | Proved with the average taken over the grains that have a neighbour; the code leaves out grains without neighbours (C70_isolated_violated). A grain unknown to the tracker throws when a box is used |
| C71 | Mesh quality | partial | The estimate: full. The output variant is violated as soon as a rank stores a cell of another rank: its entry stays zero and the reported minimum is at most zero for every solution (C71_output_violated, all inputs) |
| C72 | The box of the shrinkage encloses the material | partial | The code violates the property: solid cells that are not crossed by the interface are skipped, without interface cells the inverted box is returned (all inputs), and the refined points depend on the partition. Proved: the box covers all solid support points of the interface cells of all ranks and is attained |
| C73 | Pores are the connected regions of the void | partial | Local pores and the coarse contour data: full (the stitching across ranks is that of C13). Smooth contour data: exact in serial, violated in parallel since the zeros written by a rank are not exchanged (witness) |
| C74 | The ellipsoid of a particle has the stated centre, axes and radii | partial | Built from a centre, axes and radii or from moments of inertia: full. The constructor from a quadratic form (not used in production) violates the property: it divides by twice the constant term with the wrong sign, so the radii are right only if the squared centre distance in the form equals two (C74_form_violated, all inputs) |
| C75 | The distance of two ellipsoids | partial | Proved: the result is always the distance of two points of the ellipsoids found within the allowed iterations, it is symmetric, zero for equal centres and exact for separate spheres. Violated: crossing needles are reported more than 0.99 apart although they intersect (witness), since the first iterate already meets the convergence criterion |
| C76 | The elliptical representation of a particle encloses all its cells | partial | Enclosure: proved for ellipsoids with positive radii and cells not centred at the particle centre, over all ranks. Violated for cells centred at the centre of the particle (skipped) and for vanishing moments (no ellipsoid) |
| C77 | The rotation of a particle | proved | Full, for right-handed orthonormal frames |
| C78 | Constrained unknowns in the application of an operator | partial | Block vectors and vectors with one component: full. For several components stored together the code violates the property: the last loop steps through constrained indices as if they were not interleaved and overwrites entries of source and destination with those of other unknowns (all inputs) |
| C79 | Splitting a vector into blocks and merging it again | proved | Full, for any grouping of blocks; sizes that are not multiples read out of range, an outcome of the model of its own |
| C80 | Displacement constraints of the coupled operators | partial | Proved for the destination of the matrix-free block variant with indices listed once. Violated: the source loses its entries at points with small concentration, an index listed twice (as clamp_domain does, C84) gives a zero row, the interleaved and the matrix-based variants give zero rows (all inputs) |
| C81 | Domain integrals count each cell once | proved | Full |
| C82 | The material law is Hooke's law | partial | Plane strain and plane stress: full, against Hooke's law in space. In space, and in the plane without plane type, the law is right for symmetric tensors only; the operators pass the displacement gradient, so rotations cause stress (C82_rotation_violated, all inputs). Energy for non-negative Poisson's ratio below one half |
| C83 | Prescribed displacements in the elastic operator | partial | The code violates the property: prescribed values are written to the destination, so the operator is not linear (values not zero) or has zero rows (values zero), and the residual is the prescribed value whatever the displacement (all inputs). Proved: the entries of all other unknowns, and which unknowns are prescribed |
| C84 | Clamping removes rigid motions | partial | Proved: which unknowns are constrained, and that no rigid motion remains if the sections contain enough unknowns. Violated: translations along the one direction not requested, rotations about the only direction requested (all inputs); the mask of directions is not initialised; clamp_domain lists shared unknowns repeatedly; on locally refined meshes faces across the section count as part of it; within a particle the constraints depend on the partition (witnesses) |
| C85 | The origin for clamping | partial | Rank, vertex, largest particle and nearest segment: full. The preference for growing grains is violated: the segment visited first is kept unless a nearer one grows at least as fast, so the result depends on the order of the grains (witness) |
| C86 | Preconditioner operators are diagonal blocks | partial | Cahn-Hilliard block and blocked Allen-Cahn with approximation all: full (scalar mobility). Allen-Cahn block without velocities: full for two or more order parameters. Violated: with velocities every advection term takes the increment of the first order parameter (all inputs); one order parameter throws |
| C87 | Approximated Allen-Cahn blocks | partial | Violated: label max computes the mean, label avg the entry of largest absolute value. All other parts of the claim are proved |
| C88 | Every block is preconditioned once | partial | Distribution to the parts and one matrix per block: full. Violated: BlockAMG with one matrix for all order parameters leaves the array (all inputs with two or more blocks), BlockILU rejects 20 blocks or more, BlockILU constructed for one order parameter cannot be updated for more |
| C89 | Cell-wise and point-wise preconditioners | proved | Square root as a parameter with its contract; inverses of the blocks as parameters |
| C90 | Work vectors fit the system | partial | InverseComponentBlockDiagonalMatrix: full. AMG, ILU and IC: only if cleared after every change of the system; without clear an update keeps the old work vectors (all sizes) |
| C91 | Linear solvers and the fallback to GMRES | partial | Violated: another exception leaves the limit of Bicgstab in the control; if Bicgstab gives up early too many steps are reported |
| C92 | Product with the Jacobian by finite differences | partial | For operators that take pre and post operations, with and without advection, for all schedules that keep the contract of the cell loop: full (exact arithmetic). Violated for the wrapper of operators that take none: it passes the range of cell batches as a range of vector entries |
| C93 | Numerical tangent matrix | partial | First use: within the tolerance, except that small diagonal entries become one. Violated from the second use on: the matrix is not cleared and small derivatives leave the old entry |
| C94 | Bit masks | partial | Bits 1 to 31: full. Bit 32 can be given but is never reported |
| C95 | Options on the command line | partial | Options without quotes, files, order: full. Violated: the closing quote becomes part of the value; arguments that are no options are ignored silently after the first; text before a second -- is ignored |
| C96 | Names of scopes | proved | One thread |
| C97 | Cells with hanging nodes | proved | Numbering of lines by deal.II and one level of difference at edges (2:1 balance of p4est) as contracts |
| C98 | Sparsity pattern of cells | partial | Shape functions without negative values whose gradient vanishes where they vanish at quadrature points, one shape function per object and component: full. Violated otherwise: cancellation, quadrature at the nodes, numbering of FESystem for two or more shape functions per line (contract of deal.II) |
| C99 | Reading grains from contours | partial | Files of the documented form with order parameters numbered from zero without gaps: full; gaps make op_value throw out_of_range (C99_gaps). Violated otherwise: an odd number of values reads beyond the row, more contours than order parameters is undefined, fewer contours are accepted and the domain is then undefined; the number in the first line is ignored |
| C100 | Reading Voronoi cells | partial | Complete files: full, for every colouring meeting the contract; corners that are not listed throw. Violated: cut and empty files are accepted, the last index is then repeated |
| C101 | Tangent used in a Newton step | partial | Full if the matrix needed is assembled and the preconditioner does not use the matrix of the linear system with another content. Violated: without the matrix of the operator the numerical tangent is computed and not used; an update of the preconditioner replaces the tangent of the linear system; the direct solver without matrix_based factorises a matrix that was not assembled |
| C102 | Report of nonlinear residuals | partial | Damped solver and NOX: full. Violated with SNES: the monitor passes an empty residual, the report reads blocks that do not exist |
| C103 | Nonlinear solvers are exchangeable | partial | Results of solves that converge before the limit, exceptions and updates without reuse: full. Violated: SNES that converges in the last step is rejected, steps of failed solves are not counted, SNES ignores newton_reuse_preconditioner |
| C104 | Fields in output files | partial | Names and ranges: full. Violated for sections: BlockVectorWrapper writes its pointers beyond the end of an empty vector |
| C105 | Printed grains do not depend on numbering | partial | Grains with segments of different centres: full, for every sort that meets the standard. Violated: equal centres (order of numbers), a grain without segments among others (undefined) |
| C106 | Residuals and tangents of the small applications | partial | Two components and Cahn-Hilliard: full. Violated by allen_cahn_impl.cc (one component): the residual multiplies f' by the field (the source asks 'is that really correct???'), the tangent reads gradients that were not evaluated |
| C107 | Conservation and time in the Cahn-Hilliard applications | partial | Conservation: full, also for residuals that do not vanish (balance). Violated: the time advances by the size of the next step; the explicit application uses the potential of the step before and its first step changes nothing |
| C108 | Kim-Kim-Suzuki model | proved | Exact inversion of the mass matrix; regularity of the mass matrix and partition of unity are hypotheses |
| C109 | Damped Newton scheme of the small applications | proved | Idealised numbers, NaN as a separate value |
| C110 | Modes of the sintering programs | partial | With a mode and without negative numbers: full (exact characterisation). Violated: without arguments a text is made of a null pointer before argc is looked at; negative numbers pass the checks as huge ones; the limit of grains is not checked on restart |
| C111 | Direct neighbours of particles | partial | Symmetry, completeness, exchange between ranks: full; exact on meshes without refinement. Violated: children of refined neighbours that do not share the face count, unless they are artificial, so that the result depends on the partition |
| C112 | Distances of particles by fronts | partial | Termination, filling of the void, recorded values are shortest over faces between cells of one owner, nearest particles on uniform meshes: full. Violated: fronts that meet at a boundary between ranks are not recorded, so that the result depends on the partition |
| C113 | Distances of wavefront representations | partial | Bounds, symmetry, values, offset: full. Violated: close particles of different order parameters that do not touch, or with a boundary between ranks in between, have infinite distance |
| C114 | Fields provided by the operators | partial | Sintering operators, with advection and with elasticity: full. Violated by grain growth: the entry df has the index of the second derivatives (wrong values under the names, writes beyond the vector for four or more order parameters, all inputs); by the grand potential operator: three entries with empty names. Missing: projection of the values to the nodes |
| C115 | Integrals over the domain | partial | Labels, integrands, integration, refusal of unknown labels: full for all three operators. Violated: the default labels are refused by grain growth and by the grand potential operator |
| C116 | File of particle contours round trip | partial | Writer, gathering over ranks in any order, file and reader: full round trip up to rounding, for headers below 2^32 characters. A particle that lies on several ranks is several contours in the file, which the reader puts together |
| C117 | File of projected contours | partial | Violated: the writer omits the type so that the reader refuses or misreads every line; the centre is moved by twice the distance instead of onto the plane unless the plane goes through it; spheres far on the other side give the root of a negative number; the box is wrong for negative coordinates if a rank has no cells. The circle is right if the centre lies in the plane |
| C118 | Section of the mesh | partial | Exact if the plane is inside of cells. Violated: a plane on faces is covered twice, cells thinner than the tolerance are lost, with coarsening the values are read from the fine vector with coarse numbers |
| C119 | Grain boundaries and their area | partial | Full for elements with non-negative shape functions. Violated: with negative shape functions (quadratic elements) the test of nodal values can drop pieces. Marching cubes is a parameter |
| C120 | Estimate of the overhead | partial | Histogram and estimate: full if some cell has a grain. Violated: undefined without any grain or with fewer than two blocks; the first two grains are left out for grain growth |
| C121 | Schedule of refinement and grain tracking | partial | Steps of refinement and tracker in closed form, data in line with the mesh at every call of the solver. Violated: a failing post-processing solver reverts the solution but not the time and drops a refinement; a restart drops a pending refinement; the depth of the extra coarsening is changed for a rejected step, and wraps around for one level. Vectors, meshes and estimators are parameters |
| C122 | Coarsened copies and statistics of the mesh | partial | Full for linear elements (transfer and p4est are parameters). Violated: the number of theoretical fine cells uses 2*dim instead of 2^dim, too small in 3D; the number of cells in fine batches depends on the partition |
| C123 | Steps with ARKODE | partial | Blocks, right-hand side, stationary unknowns after the step and consecutive intervals are right without failures and with start time zero. Violated: stationary unknowns are frozen during a step; after a failed step the interval ends at the stage time of the failed step plus the new step size; a positive start time makes the first step throw or too short; without reset the given solution is ignored. The integrator is a parameter |
| C124 | Table of scalar results | partial | Full for the label of the solution in a new run if the tracker has grains at all outputs or at none. Violated: tables with the labels for debugging lose rows written at the time zero or have no names of columns; rows of failures have the time of the last output; the initial row has the time zero for every start time. Restarts are not modelled |
| C125 | Tables of grains and pores | partial | Full if the grains were not tracked after the last evaluation of the forces, and for the pores. Violated: with check_inconsistency grains are tracked after the step, so that the lines have the forces of other grains or memory behind the data is read; velocities of coupled operators are printed only with advection. Values and the text of numbers are parameters |
| C126 | Material data are those of the current time in the chosen units | partial | Units of all coefficients for all scales, temperatures within the profile, positivity; for implicit schemes the material of the right time in every run. Violated for stages of Runge-Kutta, fluxes of explicit schemes, predictors of implicit schemes. Times and steps of the loop only |
| C127 | Fluxes by mechanism | partial | Full for the scalar mobility (derivatives by the concentration within [0,1]). For the tensorial mobility direction and tangency hold; violated: the sum misses a thousandth of the surface mobility, which lets the flux of the equations cross the surface; dM_dc is four times the derivative for volume diffusion; dM_surf_dc differs from the derivative of M_surf. Solvers and mass matrix are parameters |
| C128 | Output does not change the course of a run | partial | Holds as long as the divergences are found. Violated: if the linear solver for the divergences fails, the solution is reset while time and counter stay advanced |
| C129 | Parameters of a run | partial | Full for all members but one: the unit of the activation energies has no entry. Reading of files and of numbers is a parameter |
| C130 | Initial guess of a time step | partial | Linear: full for schemes of order two and three if refinement and tracker leave the solution before the last one as it is, and after failed attempts. Violated: the solution before the last one is not transferred (undefined after refinement, mixed numbering after a remap); the guess is the zero vector for order at most one and in the first step after a positive start time; the Euler and midpoint guesses lack the inverse of the mass matrix; an explicit scheme takes the guess as its last solution |
| C131 | Choice of implementations | partial | Full for everything that runs, with the exact condition for a refusal. Violated: GMG and BlockGMG are offered for all preconditioners but refused in every program, and the second block accepts six of the eleven names |
| C132 | Remapping by transfer zones | partial | Never fails on consistent tables; exact result at every degree of freedom where zones do not disturb each other, which holds after reassignment for spheres that do not overlap away from the rims of the zones. Violated: a new grain in the order parameter of a grain that is gone is wiped; with other representations than spheres values are overwritten before they are moved; at nodes shared by two zones values are lost. One rank |
| C133 | Assembled matrices agree with the operators | partial | Full for the matrices of components and for constrained rows. The system matrix agrees with the operator without periodic boundaries, with at most one degree of freedom per component on every vertex, line, quadrilateral, hexahedron (degrees 1 and 2) and if no entry is dropped. Violated otherwise: periodicity constraints are missing in the constraints of the matrix, entries below 1e-10 of the greatest entry of the cell are dropped even if a whole component is that small, and the constraints are made in the numbering of a system of elements while the matrix uses interleaved scalar indices |
| C134 | Values written by several ranks | partial | Full if the entry was not negative before or at most one other rank writes to it (new values that are all at most zero: up to the tolerance 1e-6 of the code). Violated for negative entries which two or more ranks change: the entry can get the old magnitude times the number of these ranks less one, a value nobody wrote (all inputs) |
| C135 | Leaving out irrelevant order parameters | partial | Proved for the residual if the order parameters left out vanish with gradient and old values (scalar mobility, at most 254 order parameters); the product with the Jacobian is that of the full loop for the increment without the order parameters left out. Violated otherwise: order parameters left out get no contribution at all (all inputs), values below the tolerance are not damped, their column of the Jacobian is lost (witnesses); the diagonal and the matrix are computed by the full kernel on the shortened storage and read beyond it (all inputs); without matrix the product never returns for Vector and BlockVector (all depths) |
| C136 | Levels of the mesh, multigrid arrays and mesh statistics | partial | Bound on the levels proved for every run (induction over refinements and changes of the depth; the marks are those of the code, the execution by deal.II is a contract) unless the initial mesh has one level and the depth is 0; the arrays suffice as long as the depth was raised at most once. Violated: for all parameters there is a run with two increases in which the arrays are accessed out of bounds; the theoretical number of cells uses 2*dim children and is wrong in 3D exactly if there are at least two levels. Flags of fine batches proved for all meshes of one rank |
| C137 | Answers of the grain tracker after a run | partial | Proved by induction over all sequences of runs: no undefined access, an exception exactly outside what the last search saw, and the grain named was kept in this order parameter before the last reassignment; all answers are right if the tracker looks again after the remapping. Violated without advection and boundary conditions that need the tracker: it does not look again, no reassigned grain is found where it is kept (all inputs); witness for an exception. In the code as it is nobody asks before the next search: output looks again first, C142. Contours in cells without particle get the number 0 of a grain. The search for particles and the effect of the remapping on what is seen are inputs |
| C138 | Remapping on several ranks | partial | Proved for any number of ranks and any distribution: the remapping does not fail, values inside of grains move, the rest stays; for two distributions of the same mesh the results are equal or both not above the threshold of the search for particles; the second search finds particles in the same cells although copies are out of date. Violated exactly: a rank changes only its own cells and nothing is exchanged before the owner's entry counts, so that values below the threshold at cells of other ranks stay in the old order parameter (witness with one and two ranks). What the first search has found is a hypothesis |
| C139 | Past solutions seen by a step | partial | Refinement of the list of past solutions, by induction over all sequences of passes in which the tracker remaps nothing inside of a step. Violated otherwise (all inputs, with the exact condition): with check_inconsistency the tracker runs before the commit and leaves out the last solution, so two numberings are mixed; an inconsistency found after the remapping takes back the last solution but not the older ones. After a restart with history and without tracker the older solutions have no ghost values in the first step; the error of the contribution is given, and it vanishes after the first accepted step. Solvers, transfer and remapping are parameters |
| C140 | Blocks of the past solutions at a refinement | partial | Proved for all histories whose vectors have the components of the operator; in general the refinement is defined exactly if the total number of blocks is a multiple of it. Violated if the tracker changes the number of components inside of a step (check_inconsistency): a vector with the old number m stays in the history, the next refinement is defined exactly if the new number divides m, the next residual exactly if it is not larger than m (all inputs, from C139). The transfer of a block is a parameter; levels of the cells are C136 |
| C141 | Estimate of superfluous cells | partial | Loop and percentage proved for all meshes (induction over the tree and over the passes). The histogram is right if ghost values are there; the caller passes a vector without, then no counter is too large and those at the boundary of a rank may be too small (witness). Out of range without any order parameter above the threshold; without concentration the first two order parameters are skipped (witness). Balance of the mesh and interpolation are parameters |
| C142 | The grain tracker at output | partial | By induction over all sequences of runs and outputs: at output all answers of the tracker are right, the numbers of contours are those of grains in the order parameter (or 0 without particle). The search at output changes the tracker: it throws outside of the handler of failed steps exactly if an unmatched particle is above the threshold and new grains are forbidden (witness: simulation ends only with output); grains that move keep or lose their numbers depending on output (witness); the old remapping forgets grains that disappeared before the output (witness). If grains continue one by one, the next run gives the same with and without output (the reassignment and the transfer of identities do not depend on what differs). The search for particles is an input |
| C143 | Repeated attempts after an inconsistency of the grains | partial | What a rejected attempt leaves behind is characterised for all inputs: exactly the matched grains, where they were seen in the rejected solution; a grain that was not matched is forgotten. Hence (proved for all attempts) grains that were too far away in the first attempt are rejected in all later ones, also if they are back where they were known: the simulation ends although the smaller step would have been accepted (witness), or a state is accepted that would have been rejected (witness). With output for debugging the tracker runs and throws within the handler (witness). By induction over the attempts: no new numbers, all answers name known grains, no undefined access. If the grains of the next attempt continue those matched in the rejected one by one, the rejected one has no influence. Failures of solvers do not reach the tracker and are left out |
| C144 | Vectors that share blocks | partial | Refinement for all programs of operations that do not share: memory with pointers behaves as vectors with values, undefined outcomes included, and no two places ever refer to one block. With sharing: what is not named and has no block in common stays as it is; views and gathered vectors agree with their vectors under all sequences of changes of entries; writing to a view gives the intended values and changes exactly its blocks. Witnesses for what fails: an operation that reads the vector and writes a shifted view of it, assignment from a view taken before a block was moved, views after the array of blocks changed, assignment of a longer vector to a view, blocks inserted by pointer. None of these occurs at this commit except the last, which the time marching with ARKODE uses on purpose (C123). Ghost values are left out |
| C145 | Life of the preconditioners | partial | Induction over all runs: no exception, nothing undefined, and in every Newton step every part of the preconditioner applies the matrices of the present shape and of the step the specification names (which exists and is unique); the first application before an update would be undefined. Partial: the hypothesis Fits excludes classes the code cannot use. Witnesses: BlockAMG with one matrix for all order parameters is undefined; BlockILU constructed for one block throws when there are more; with one order parameter every update throws, as the matrix of OperatorAllenCahn is computed even if it is not used; a threshold of zero Newton iterations is a division by zero; with the report of the memory InverseComponentBlockDiagonalMatrix, InverseBlockDiagonalMatrix and GMG end the run; blocks are counted twice and the data of the model not at all. What the classes make of a matrix and the numerical tangent are not part of it |
| C146 | Grid at start and at restart | partial | Margin exact, coarse grid and levels independent of the kind of initial refinement, restart characterised by an if-and-only-if for all runs that started. Violated: a mesh of divisions with initial refinements is refined before load; the decision to repartition is taken by the parameter of the new run instead of the flag in the file (both directions of switching fail); changed parameters of the grid are not noticed; a custom box may cut particles; with a coarse mesh of the size of the largest particle the cells are up to one and a half times as large as wanted (proved bounds: between 1/4 and 3/2), and a box thinner than half of that particle gets no cell. load, save and repartition of deal.II are represented by their preconditions |
| C147 | Files with surfaces and spheres | partial | Every piece exactly once (a permutation of the pieces listed cell by cell) with order parameter and rank; extra elements are exactly one small cube per rank without pieces; the file is written if and only if the tracker answers; numbers right in all simulations without coarsening. Violated: with coarsening all numbers are 0; a piece without grain has the number of grain 0; the cubes of ranks without surface are unmarked in the files of the concentration and the boundaries, so that areas depend on the distribution of cells; every segment is written as a sphere once per rank; after an exception the vector keeps its ghost values. Marching cubes, parallel writing and insertion of particles are parameters or contracts |
| C148 | Names of the files of an output | partial | For all runs: an output has exactly the files asked for, files of different outputs differ in name (proved from how names are put together from words, labels, sections, boxes and counters), within an output names of different kinds, boxes and sections differ, numbering without gaps, restart. Assumed of printing: numbers are non-empty digits and print differently, sections print differently and without underscore. Violated: contours in sections are written once for every box under the same name; sections whose positions agree in six digits print alike and overwrite each other |
| C149 | Clamped bar | partial | For zero values: the Newton method ends after at most one iteration in the equilibrium, the four ways give the same displacement of all nodes, and conditions by hand keep the initial values of the entries for every solver of Krylov type however inaccurate. Violated: with a value that is not small the Newton method never returns, since the residual of the entry is the value itself; an initial displacement that differs from the prescribed value is never corrected. Contracts: stiffness linear and definite once clamped, exact linear solver that combines vectors the operator was applied to |
| C150 | Weighted forces of grains | partial | The loops with their flat arrays give exactly volume and force per contact of every segment without undefined behaviour, and the forces on all segments sum up to zero. Independence of batches and ranks needs that an order parameter that is not relevant in a batch belongs to no segment there (violated otherwise: which order parameters are relevant is decided per batch). Violated: the bound 1e-10 for a contact has a unit, in small enough units every force is zero; independence of the unit is proved when the same contacts are above the bound |
| C151 | Timers | partial | Times, calls, collection and common decision: full, for timers whose sections are named by ScopedName (deal.II timers as contract, exact time). Matching collective operations need that all ranks run the same code up to times; an exception on one rank alone leaves other sections there. Timers of operators have names without ScopedName and are not covered |
| C152 | Amount of material | partial | Balance for every residual, also one that does not vanish; conservation over all runs of the time loop (start with less history, rejected steps, changing steps) if sanity check and refinement keep the amount. Shape functions sum up to one (hypothesis); exact arithmetic; scalar mobility (the proof uses the value that is submitted only). Violated: the sanity check cuts off values above one, and coarsening keeps values at nodes only, both change the amount (witnesses); refinement keeps it in the witness |
| C153 | Energy of the microstructure | partial | Decay of the energy along every solution of the equations discretised in space, with the rate of the order parameters as bound; for implicit steps of any order the energy falls in the direction of the discrete rate. A whole step of the implicit Euler method lowers the energy if the bulk energy is convex between the solutions; violated without this condition: a long step over the barrier between two minima solves the equations and ends at a higher energy (witness). Exact arithmetic, scalar mobility, order parameters not negative at the quadrature points (needed for the mobility of grain boundaries); higher orders, sanity check and refinement are not covered for whole steps |
| C154 | Order parameters are interchangeable | proved | Renumberings are permutations per quadrature point; entries of an order parameter at a node are those under its old number if around the node the numbers agree or there is no grain there. Exact arithmetic, scalar mobility; that remapping produces such renumberings is the subject of C10 and related properties |
| C155 | The hand-written kernel of the benchmarks computes the weak form | partial | Three dimensions, all cells the same box (as on the meshes the program makes), shape values of linear elements on the parts, exact arithmetic, one lane of the vectorised cells. Violated: cells of different shape all get the geometry of the first one; other dimensions silently give zero; not modelled: elements of higher degree with the same numbers of points, which the factory accepts too |
| C156 | Interactions have a finite range and pure phases are at rest | proved | Nodes near each other are those with shape functions of the constrained space seen at a common quadrature point. Exact arithmetic, scalar mobility; velocities are given (they are computed from contacts, C50 and related) |
| C157 | The equations do not depend on the orientation of the frame | proved | The frame is changed by a linear map that preserves the inner product of gradients. Residual and tangent with scalar mobility; the tensorial mobility at a point, for any function in place of the root; forces at a point and rotations from given forces. Exact arithmetic |
| C158 | Benchmark of the grain tracker | partial | Without arguments a string is made of a null pointer, unknown modes end silently, negative numbers of grains pass the check and -1 makes the loop endless; the remapping is repeated 110 times with the same tables, so that after a few calls only zeros are moved. Search for grains as contract, mesh given, times not modelled |
| C159 | Fields written per cell | partial | All components of the velocity of an order parameter are added under the same name, so the names do not differ. The values are right, also with cut-off, where get_velocity is wrong (C41): the relevant id is computed only once here. Ids from the detection of pores as contract (C73); C159_forces starts from the forces of all ranks |
| C160 | Statistics of a run | partial | Iterations of a linear or external solver that fails are counted nowhere; a failure of the solver of the divergences of the fluxes after the step was accepted counts the work twice; the averages divide by zero without steps or iterations. Work given as list of events, overflow of 32 bit left out |
| C161 | Runs in a pure phase | proved | Composes time loop, history, weights, assembled residual and Newton solver. Refinement, sanity check and predictor are arbitrary as long as they map the phase to itself (the linear predictor does not in the cases of C130); the number of nodes is fixed; net flux of a moving grain zero as in C156 |
| C162 | Initial values of the debug mode | partial | The domain without a bounding box is a cube around the origin whose corners are not among the nodes of the table, so the program stops. Decimal numbers taken as written; distances compared by their squares |
| C163 | Ownership of the entries of block vectors | partial | Holds for vectors whose stored sizes are up to date; a view has no stored sizes and move_block of blocks with different sizes leaves the old ones. Each process owns an interval of a block |
| C164 | Output and checks that involve all processes | proved | gather, min and max of deal.II as documented; entries of printed lists are given as text |
| C165 | Splitting and merging of vectors cell by cell | proved | On the cells of one process with up-to-date ghost values; the numberings of deal.II by their contract. The vector is a function of the global index, so that sizes of global vectors are not checked |
| C166 | Particles written for visualisation | partial | The colours of deal.II by their contract. Input files of the same name and different extensions in one folder have the same output files |
| C167 | Transformed packings | partial | Centring subtracts half of the extent and so puts the middle where the packing started; it is right only for packings that start at 0. Columns as floating point numbers (the script reads columns of whole numbers as integers), cosine and sine by the sum of their squares |
| C168 | Short labels of files | partial | For names with a common end that are not part of each other; the loop that handles empty labels and the option extend_to are not modelled |
| C169 | Repair of packings | partial | Connected after one pass over the bridges; the gap is the smallest one only for equal radii, and the number of enlarged particles is bounded by the bridges but not the smallest; distances are exact |
| C170 | Contacts of spheres | proved | Distances are exact and symmetric; the search tree by contract (it accepts no empty set of points, so that at least two spheres are needed) |
| C171 | Tables of densification | partial | For folders that all have files, none of them skipped, in three dimensions; the grid of points and the convex hull are not modelled |
| C172 | Copies of results | partial | If all job files are wanted or none is found, with masks given; the destination is taken as given |
