{
 "claims": [
  {
   "property": "C01",
   "status": "proved",
   "theorems": [
    "Verif.Props.C01_transfer",
    "Verif.Props.C01_transfer_ub",
    "Verif.Props.C01_multi_segment_not_nearest",
    "Verif.Props.C04_accounting"
   ],
   "note": "For all tables: no exception/UB, total, sound, injective, justified non-matches. Out-of-range order parameters are UB (proved). The runtime checks cannot fire: C04_accounting. Finding: multi-segment grains may inherit a non-nearest predecessor."
  },
  {
   "property": "C02",
   "status": "proved",
   "theorems": [
    "Verif.Props.C02_unique_fresh_ids",
    "Verif.Props.C02_ids_reused_over_history"
   ],
   "note": "Uniqueness and freshness w.r.t. the previous call proved; identifiers can be reused over longer history (witness)."
  },
  {
   "property": "C03",
   "status": "proved",
   "theorems": [
    "Verif.Props.C03_lookup_follows_renaming"
   ],
   "note": "Refinement of the in-place renaming loop to a pointwise map."
  },
  {
   "property": "C04",
   "status": "proved",
   "theorems": [
    "Verif.Props.C04_accounting",
    "Verif.Props.trackMatch_spec"
   ],
   "note": "Full decision logic of the bookkeeping part of track()."
  },
  {
   "property": "C05",
   "status": "partial",
   "theorems": [
    "Verif.Props.C05_violated",
    "Verif.Props.C05_old_grains_kept_partial"
   ],
   "note": "The code violates the property (concrete witness, the retry fails too). Proved part: the previous table survives as old_grains."
  },
  {
   "property": "C06",
   "status": "proved",
   "theorems": [
    "Verif.Props.C06_detection",
    "Verif.Props.C06_establishes_track_precondition"
   ],
   "note": "Detection numbering for every connected-component routine meeting CCContract (ccExec meets it). Unchecked write in build_groups is in range under the stated contract on contact ids."
  },
  {
   "property": "C07",
   "status": "proved",
   "theorems": [
    "Verif.Props.C07_segment_index",
    "Verif.Props.C07_after_detection",
    "Verif.Props.C07_after_tracking",
    "Verif.Props.C07_dropped_grains_alias"
   ],
   "note": "Bijection whenever every particle belongs to a grain; dropped grains alias (witness)."
  },
  {
   "property": "C08",
   "status": "proved",
   "theorems": [
    "Verif.Props.C08_safe",
    "Verif.Props.C08_total",
    "Verif.Props.C08_limit",
    "Verif.Props.C08_limit_kept",
    "Verif.Props.C08_collisions",
    "Verif.Props.C08_fast_strategy_never_used",
    "Verif.Props.C08_empty_table_ub"
   ],
   "note": "Fast and full path, forced or not, for every colouring/sorting routine meeting its contract (executable instances given). Findings: the fast strategy is never effective because the sparsity pattern holds the diagonal; an empty grain table is UB."
  },
  {
   "property": "C09",
   "status": "proved",
   "theorems": [
    "Verif.Props.C09_gap_free",
    "Verif.Props.C09_flag",
    "Verif.Props.C09_order_kept",
    "Verif.Props.C09_nearest"
   ],
   "note": "Gap-free numbering, monotone renumbering, flag soundness, nearest-neighbour bound."
  },
  {
   "property": "C10",
   "status": "partial",
   "theorems": [
    "Verif.Props.C10_remap_partial",
    "Verif.Props.C10_at_cell",
    "Verif.Props.C10_shared_dof_loss",
    "Verif.Props.C10_missing_block_ub"
   ],
   "note": "remap_new (tracker.h:425-649) never fails on consistent tables; values of every grain arrive in the new order parameter, vacated ones are zero, others unchanged, for a single cell without restriction and for all cells together at degrees of freedom whose cells all belong to the grain. The full claim for degrees of freedom on the rim of a grain is false: C10_shared_dof_loss is a witness"
  },
  {
   "property": "C100",
   "status": "partial",
   "theorems": [
    "Verif.Props.C100_read_partial",
    "Verif.Props.C100_unknown",
    "Verif.Props.C100_empty_violated",
    "Verif.Props.Ex100.C100_cut_violated"
   ],
   "note": "Complete files: full, for every colouring meeting the contract; corners that are not listed throw. Violated: cut and empty files are accepted, the last index is then repeated"
  },
  {
   "property": "C101",
   "status": "partial",
   "theorems": [
    "Verif.Props.C101_partial",
    "Verif.Props.C101_ignored_violated",
    "Verif.Props.C101_replaced_violated",
    "Verif.Props.C101_direct_violated"
   ],
   "note": "Full if the matrix needed is assembled and the preconditioner does not use the matrix of the linear system with another content. Violated: without the matrix of the operator the numerical tangent is computed and not used; an update of the preconditioner replaces the tangent of the linear system; the direct solver without matrix_based factorises a matrix that was not assembled"
  },
  {
   "property": "C102",
   "status": "partial",
   "theorems": [
    "Verif.Props.C102_report_partial",
    "Verif.Props.C102_blocks",
    "Verif.Props.C102_neutral",
    "Verif.Props.C102_snes_violated"
   ],
   "note": "Damped solver and NOX: full. Violated with SNES: the monitor passes an empty residual, the report reads blocks that do not exist"
  },
  {
   "property": "C103",
   "status": "partial",
   "theorems": [
    "Verif.Props.C103_wrappers_partial",
    "Verif.Props.C103_last_violated",
    "Verif.Props.C103_count_violated",
    "Verif.Props.C103_updates_partial",
    "Verif.Props.C103_reuse_violated"
   ],
   "note": "Results of solves that converge before the limit, exceptions and updates without reuse: full. Violated: SNES that converges in the last step is rejected, steps of failed solves are not counted, SNES ignores newton_reuse_preconditioner"
  },
  {
   "property": "C104",
   "status": "partial",
   "theorems": [
    "Verif.Props.C104_fields",
    "Verif.Props.C104_ranges",
    "Verif.Props.C104_sections_violated"
   ],
   "note": "Names and ranges: full. Violated for sections: BlockVectorWrapper writes its pointers beyond the end of an empty vector"
  },
  {
   "property": "C105",
   "status": "partial",
   "theorems": [
    "Verif.Props.C105_listing",
    "Verif.Props.C105_unique",
    "Verif.Props.C105_partial",
    "Verif.Props.C105_ties_violated",
    "Verif.Props.C105_empty_violated"
   ],
   "note": "Grains with segments of different centres: full, for every sort that meets the standard. Violated: equal centres (order of numbers), a grain without segments among others (undefined)"
  },
  {
   "property": "C106",
   "status": "partial",
   "theorems": [
    "Verif.Props.C106_residual",
    "Verif.Props.C106_explicit",
    "Verif.Props.C106_tangent",
    "Verif.Props.C106_ch_residual",
    "Verif.Props.C106_ch_tangent",
    "Verif.Props.C106_one_violated",
    "Verif.Props.C106_gradient_violated"
   ],
   "note": "Two components and Cahn-Hilliard: full. Violated by allen_cahn_impl.cc (one component): the residual multiplies f' by the field (the source asks 'is that really correct???'), the tangent reads gradients that were not evaluated"
  },
  {
   "property": "C107",
   "status": "partial",
   "theorems": [
    "Verif.Props.C107_balance",
    "Verif.Props.C107_run",
    "Verif.Props.C107_explicit",
    "Verif.Props.C107_first_violated",
    "Verif.Props.C107_lag_violated",
    "Verif.Props.C107_time_violated"
   ],
   "note": "Conservation: full, also for residuals that do not vanish (balance). Violated: the time advances by the size of the next step; the explicit application uses the potential of the step before and its first step changes nothing"
  },
  {
   "property": "C108",
   "status": "proved",
   "theorems": [
    "Verif.Props.C108_equilibrium",
    "Verif.Props.C108_flux",
    "Verif.Props.C108_gradient",
    "Verif.Props.C108_driving",
    "Verif.Props.C108_flow",
    "Verif.Props.C108_rhs",
    "Verif.Props.C108_run",
    "Verif.Props.C108_defined"
   ],
   "note": "Exact inversion of the mass matrix; regularity of the mass matrix and partition of unity are hypotheses"
  },
  {
   "property": "C109",
   "status": "proved",
   "theorems": [
    "Verif.Props.C109_return",
    "Verif.Props.C109_thrown",
    "Verif.Props.C109_undefined",
    "Verif.Props.C109_decrease"
   ],
   "note": "Idealised numbers, NaN as a separate value"
  },
  {
   "property": "C11",
   "status": "proved",
   "theorems": [
    "Verif.Props.C11_schedule",
    "Verif.Props.C11_dfs_meets_contract",
    "Verif.Props.C11_same_grain_counterexample"
   ],
   "note": "for any list of moves of pairwise different grains and any interference relation (remap_new: all, remap_old: geometric); depth first search is a parameter with a contract proved for the executable one in any edge order; the hypothesis on different grains is needed (witness)"
  },
  {
   "property": "C110",
   "status": "partial",
   "theorems": [
    "Verif.Props.C110_partial",
    "Verif.Props.C110_defined",
    "Verif.Props.C110_none_violated",
    "Verif.Props.C110_negative_violated",
    "Verif.Props.C110_restart_violated"
   ],
   "note": "With a mode and without negative numbers: full (exact characterisation). Violated: without arguments a text is made of a null pointer before argc is looked at; negative numbers pass the checks as huge ones; the limit of grains is not checked on restart"
  },
  {
   "property": "C111",
   "status": "partial",
   "theorems": [
    "Verif.Props.C111_partial",
    "Verif.Props.C111_uniform",
    "Verif.Props.C111_far_child_violated",
    "Verif.Props.C111_partition_violated"
   ],
   "note": "Symmetry, completeness, exchange between ranks: full; exact on meshes without refinement. Violated: children of refined neighbours that do not share the face count, unless they are artificial, so that the result depends on the partition"
  },
  {
   "property": "C112",
   "status": "partial",
   "theorems": [
    "Verif.Props.C112_partial",
    "Verif.Props.C112_way",
    "Verif.Props.C112_serial",
    "Verif.Props.C112_partition_violated"
   ],
   "note": "Termination, filling of the void, recorded values are shortest over faces between cells of one owner, nearest particles on uniform meshes: full. Violated: fronts that meet at a boundary between ranks are not recorded, so that the result depends on the partition"
  },
  {
   "property": "C113",
   "status": "partial",
   "theorems": [
    "Verif.Props.C113_partial",
    "Verif.Props.C113_offset",
    "Verif.Props.C113_id_ub",
    "Verif.Props.C113_gap_violated"
   ],
   "note": "Bounds, symmetry, values, offset: full. Violated: close particles of different order parameters that do not touch, or with a boundary between ranks in between, have infinite distance"
  },
  {
   "property": "C114",
   "status": "partial",
   "theorems": [
    "Verif.Props.C114_partial",
    "Verif.Props.C114_tensorial",
    "Verif.Props.C114_generic",
    "Verif.Props.C114_coupled",
    "Verif.Props.C114_growth_partial",
    "Verif.Props.C114_growth_df_undefined",
    "Verif.Props.C114_growth_df_violated",
    "Verif.Props.C114_greenquist_partial",
    "Verif.Props.C114_greenquist_violated",
    "Verif.Props.C114_gb"
   ],
   "note": "Sintering operators, with advection and with elasticity: full. Violated by grain growth: the entry df has the index of the second derivatives (wrong values under the names, writes beyond the vector for four or more order parameters, all inputs); by the grand potential operator: three entries with empty names. Missing: projection of the values to the nodes"
  },
  {
   "property": "C115",
   "status": "partial",
   "theorems": [
    "Verif.Props.C115_partial",
    "Verif.Props.C115_unknown",
    "Verif.Props.C115_growth",
    "Verif.Props.C115_growth_unknown",
    "Verif.Props.C115_greenquist",
    "Verif.Props.C115_greenquist_unknown",
    "Verif.Props.C115_default_violated",
    "Verif.Props.C115_energy",
    "Verif.Props.C115_boxes",
    "Verif.Props.C115_pairs",
    "Verif.Props.C115_surface_bounds"
   ],
   "note": "Labels, integrands, integration, refusal of unknown labels: full for all three operators. Violated: the default labels are refused by grain growth and by the grand potential operator"
  },
  {
   "property": "C116",
   "status": "partial",
   "theorems": [
    "Verif.Props.C116_partial",
    "Verif.Props.C116_gather",
    "Verif.Props.C116_missing",
    "Verif.Props.C116_file"
   ],
   "note": "Writer, gathering over ranks in any order, file and reader: full round trip up to rounding, for headers below 2^32 characters. A particle that lies on several ranks is several contours in the file, which the reader puts together"
  },
  {
   "property": "C117",
   "status": "partial",
   "theorems": [
    "Verif.Props.C117_center_partial",
    "Verif.Props.C117_radius_partial",
    "Verif.Props.C117_box_partial",
    "Verif.Props.C117_format_violated",
    "Verif.Props.C117_misread",
    "Verif.Props.C117_radius_violated",
    "Verif.Props.C117_box_violated"
   ],
   "note": "Violated: the writer omits the type so that the reader refuses or misreads every line; the centre is moved by twice the distance instead of onto the plane unless the plane goes through it; spheres far on the other side give the root of a negative number; the box is wrong for negative coordinates if a rank has no cells. The circle is right if the centre lies in the plane"
  },
  {
   "property": "C118",
   "status": "partial",
   "theorems": [
    "Verif.Props.C118_partial",
    "Verif.Props.C118_bounds",
    "Verif.Props.C118_face_violated",
    "Verif.Props.C118_thin_violated",
    "Verif.Props.C118_coarse_violated"
   ],
   "note": "Exact if the plane is inside of cells. Violated: a plane on faces is covered twice, cells thinner than the tolerance are lost, with coarsening the values are read from the fine vector with coarse numbers"
  },
  {
   "property": "C119",
   "status": "partial",
   "theorems": [
    "Verif.Props.C119_partial",
    "Verif.Props.C119_area",
    "Verif.Props.C119_antitone",
    "Verif.Props.C119_alone",
    "Verif.Props.C119_surface",
    "Verif.Props.C119_negative_violated"
   ],
   "note": "Full for elements with non-negative shape functions. Violated: with negative shape functions (quadratic elements) the test of nodal values can drop pieces. Marching cubes is a parameter"
  },
  {
   "property": "C12",
   "status": "proved",
   "theorems": [
    "Verif.Props.C12_regions",
    "Verif.Props.C12_any_mesh",
    "Verif.Props.C12_refined_counterexample"
   ],
   "note": "run_flooding and detect_local_particle_groups for every finite mesh with refinement hierarchy; symmetric face neighbourhood as stated in the property. On locally refined meshes the neighbourhood seen by the code is not symmetric: C12_any_mesh states what still holds, C12_refined_counterexample is a witness that distinct regions are merged depending on cell order"
  },
  {
   "property": "C120",
   "status": "partial",
   "theorems": [
    "Verif.Props.C120_partial",
    "Verif.Props.C120_undefined",
    "Verif.Props.C120_first_two_violated",
    "Verif.Props.C120_overhead"
   ],
   "note": "Histogram and estimate: full if some cell has a grain. Violated: undefined without any grain or with fewer than two blocks; the first two grains are left out for grain growth"
  },
  {
   "property": "C121",
   "status": "partial",
   "theorems": [
    "Verif.Props.C121_partial",
    "Verif.Props.C121_tracker",
    "Verif.Props.C121_check",
    "Verif.Props.C121_sync",
    "Verif.Props.C121_courant",
    "Verif.Props.C121_time",
    "Verif.Props.C121_depth",
    "Verif.Props.C121_level",
    "Verif.Props.C121_initial",
    "Verif.Props.C121_meshes",
    "Verif.Props.C121_post_violated",
    "Verif.Props.C121_restart_violated",
    "Verif.Props.C121_coarsening_violated",
    "Verif.Props.C121_level_violated"
   ],
   "note": "Steps of refinement and tracker in closed form, data in line with the mesh at every call of the solver. Violated: a failing post-processing solver reverts the solution but not the time and drops a refinement; a restart drops a pending refinement; the depth of the extra coarsening is changed for a rejected step, and wraps around for one level. Vectors, meshes and estimators are parameters"
  },
  {
   "property": "C122",
   "status": "partial",
   "theorems": [
    "Verif.Props.C122_partial",
    "Verif.Props.C122_levels",
    "Verif.Props.C122_hanging",
    "Verif.Props.C122_unrefined",
    "Verif.Props.C122_theoretical",
    "Verif.Props.C122_theoretical_violated",
    "Verif.Props.C122_partition_violated"
   ],
   "note": "Full for linear elements (transfer and p4est are parameters). Violated: the number of theoretical fine cells uses 2*dim instead of 2^dim, too small in 3D; the number of cells in fine batches depends on the partition"
  },
  {
   "property": "C123",
   "status": "partial",
   "theorems": [
    "Verif.Props.C123_partial",
    "Verif.Props.C123_indices",
    "Verif.Props.C123_unique",
    "Verif.Props.C123_rhs",
    "Verif.Props.C123_time",
    "Verif.Props.C123_ignored",
    "Verif.Props.C123_failure",
    "Verif.Props.C123_frozen_violated",
    "Verif.Props.C123_failure_violated",
    "Verif.Props.C123_start_violated"
   ],
   "note": "Blocks, right-hand side, stationary unknowns after the step and consecutive intervals are right without failures and with start time zero. Violated: stationary unknowns are frozen during a step; after a failed step the interval ends at the stage time of the failed step plus the new step size; a positive start time makes the first step throw or too short; without reset the given solution is ignored. The integrator is a parameter"
  },
  {
   "property": "C124",
   "status": "partial",
   "theorems": [
    "Verif.Props.C124_partial",
    "Verif.Props.C124_names",
    "Verif.Props.C124_debug_off",
    "Verif.Props.C124_debug_violated",
    "Verif.Props.C124_header_violated",
    "Verif.Props.C124_failure_time_violated",
    "Verif.Props.C124_initial_time"
   ],
   "note": "Full for the label of the solution in a new run if the tracker has grains at all outputs or at none. Violated: tables with the labels for debugging lose rows written at the time zero or have no names of columns; rows of failures have the time of the last output; the initial row has the time zero for every start time. Restarts are not modelled"
  },
  {
   "property": "C125",
   "status": "partial",
   "theorems": [
    "Verif.Props.C125_partial",
    "Verif.Props.C125_stale",
    "Verif.Props.C125_stale_undefined",
    "Verif.Props.C125_stale_violated",
    "Verif.Props.C125_coupled",
    "Verif.Props.C125_coupled_violated",
    "Verif.Props.C125_pores"
   ],
   "note": "Full if the grains were not tracked after the last evaluation of the forces, and for the pores. Violated: with check_inconsistency grains are tracked after the step, so that the lines have the forces of other grains or memory behind the data is read; velocities of coupled operators are printed only with advection. Values and the text of numbers are parameters"
  },
  {
   "property": "C126",
   "status": "partial",
   "theorems": [
    "Verif.Props.C126_partial",
    "Verif.Props.C126_units",
    "Verif.Props.C126_energies",
    "Verif.Props.C126_rates",
    "Verif.Props.C126_temperature",
    "Verif.Props.C126_defined",
    "Verif.Props.C126_hotter",
    "Verif.Props.C126_empty",
    "Verif.Props.C126_euler",
    "Verif.Props.C126_pass",
    "Verif.Props.C126_time",
    "Verif.Props.C126_constant",
    "Verif.Props.C126_stages_violated",
    "Verif.Props.C126_fluxes_violated",
    "Verif.Props.C126_predictor_violated",
    "Verif.Props.C126_order_violated"
   ],
   "note": "Units of all coefficients for all scales, temperatures within the profile, positivity; for implicit schemes the material of the right time in every run. Violated for stages of Runge-Kutta, fluxes of explicit schemes, predictors of implicit schemes. Times and steps of the loop only"
  },
  {
   "property": "C127",
   "status": "partial",
   "theorems": [
    "Verif.Props.C127_scalar",
    "Verif.Props.C127_scalar_direction",
    "Verif.Props.C127_scalar_volume",
    "Verif.Props.C127_scalar_surface",
    "Verif.Props.C127_scalar_matrices",
    "Verif.Props.C127_tensorial",
    "Verif.Props.C127_tensorial_direction",
    "Verif.Props.C127_tangential",
    "Verif.Props.C127_leak",
    "Verif.Props.C127_matrices",
    "Verif.Props.C127_surface_derivative",
    "Verif.Props.C127_dc_violated",
    "Verif.Props.Ex127.C127_sum_violated",
    "Verif.Props.C127_divergences"
   ],
   "note": "Full for the scalar mobility (derivatives by the concentration within [0,1]). For the tensorial mobility direction and tangency hold; violated: the sum misses a thousandth of the surface mobility, which lets the flux of the equations cross the surface; dM_dc is four times the derivative for volume diffusion; dM_surf_dc differs from the derivative of M_surf. Solvers and mass matrix are parameters"
  },
  {
   "property": "C128",
   "status": "partial",
   "theorems": [
    "Verif.Props.C128_partial",
    "Verif.Props.C128_lost",
    "Verif.Props.Ex128.C128_violated"
   ],
   "note": "Holds as long as the divergences are found. Violated: if the linear solver for the divergences fails, the solution is reset while time and counter stay advanced"
  },
  {
   "property": "C129",
   "status": "partial",
   "theorems": [
    "Verif.Props.C129_table",
    "Verif.Props.C129_names",
    "Verif.Props.C129_settable_partial",
    "Verif.Props.C129_values",
    "Verif.Props.C129_accepted",
    "Verif.Props.C129_option",
    "Verif.Props.C129_undeclared",
    "Verif.Props.C129_defaults",
    "Verif.Props.C129_forgotten",
    "Verif.Props.Ex129.C129_settable_violated"
   ],
   "note": "Full for all members but one: the unit of the activation energies has no entry. Reading of files and of numbers is a parameter"
  },
  {
   "property": "C13",
   "status": "proved",
   "theorems": [
    "Verif.Props.C13_stitching",
    "Verif.Props.C13_graph",
    "Verif.Props.C13_graph_empty_ub",
    "Verif.Props.C13_count",
    "Verif.Props.C13_partition_independent"
   ],
   "note": "iterative stitching: terminates, no UB, assertion never fires, correct grouping and numbering 0..n-1, for every delivery order; graph variant for every components routine meeting the contract (UB when no rank has a particle, proved); end-to-end: local flooding + connectivity lists + stitching on any partition equals the connected regions of the whole mesh (symmetric neighbourhood as in C12)"
  },
  {
   "property": "C130",
   "status": "partial",
   "theorems": [
    "Verif.Props.C130_linear_partial",
    "Verif.Props.C130_linear_exact",
    "Verif.Props.C130_stale",
    "Verif.Props.C130_retry",
    "Verif.Props.C130_lost",
    "Verif.Props.C130_start_lost",
    "Verif.Props.C130_euler",
    "Verif.Props.C130_midpoint",
    "Verif.Props.C130_twice",
    "Verif.Props.C130_only",
    "Verif.Props.Ex130.C130_remap_violated"
   ],
   "note": "Linear: full for schemes of order two and three if refinement and tracker leave the solution before the last one as it is, and after failed attempts. Violated: the solution before the last one is not transferred (undefined after refinement, mixed numbering after a remap); the guess is the zero vector for order at most one and in the first step after a positive start time; the Euler and midpoint guesses lack the inverse of the mass matrix; an explicit scheme takes the guess as its last solution"
  },
  {
   "property": "C131",
   "status": "partial",
   "theorems": [
    "Verif.Props.C131_partial",
    "Verif.Props.C131_valid",
    "Verif.Props.C131_named",
    "Verif.Props.C131_runs",
    "Verif.Props.C131_precond",
    "Verif.Props.C131_direction",
    "Verif.Props.Ex131.C131_violated"
   ],
   "note": "Full for everything that runs, with the exact condition for a refusal. Violated: GMG and BlockGMG are offered for all preconditioners but refused in every program, and the second block accepts six of the eleven names"
  },
  {
   "property": "C132",
   "status": "partial",
   "theorems": [
    "Verif.Props.C132_partial",
    "Verif.Props.C132_spheres_partial",
    "Verif.Props.C132_gone",
    "Verif.Props.C132_agree",
    "Verif.Props.Ex132.C132_new_grain_violated",
    "Verif.Props.Ex132.C132_distance_violated",
    "Verif.Props.Ex132.C132_rim_violated"
   ],
   "note": "Never fails on consistent tables; exact result at every degree of freedom where zones do not disturb each other, which holds after reassignment for spheres that do not overlap away from the rims of the zones. Violated: a new grain in the order parameter of a grain that is gone is wiped; with other representations than spheres values are overwritten before they are moved; at nodes shared by two zones values are lost. One rank"
  },
  {
   "property": "C133",
   "status": "partial",
   "theorems": [
    "Verif.Props.C133_partial",
    "Verif.Props.C133_constrained",
    "Verif.Props.C133_blocks",
    "Verif.Props.C133_numbering",
    "Verif.Props.C133_numbering_exact",
    "Verif.Props.C133_dropped",
    "Verif.Props.Ex133.C133_periodic_violated",
    "Verif.Props.Ex133.C133_dropped_violated",
    "Verif.Props.Ex133.C133_numbering_violated"
   ],
   "note": "Full for the matrices of components and for constrained rows. The system matrix agrees with the operator without periodic boundaries, with at most one degree of freedom per component on every vertex, line, quadrilateral, hexahedron (degrees 1 and 2) and if no entry is dropped. Violated otherwise: periodicity constraints are missing in the constraints of the matrix, entries below 1e-10 of the greatest entry of the cell are dropped even if a whole component is that small, and the constraints are made in the numbering of a system of elements while the matrix uses interleaved scalar indices"
  },
  {
   "property": "C134",
   "status": "partial",
   "theorems": [
    "Verif.Props.C134_owner",
    "Verif.Props.C134_partial",
    "Verif.Props.C134_order",
    "Verif.Props.C134_negative_violated"
   ],
   "note": "Full if the entry was not negative before or at most one other rank writes to it (new values that are all at most zero: up to the tolerance 1e-6 of the code). Violated for negative entries which two or more ranks change: the entry can get the old magnitude times the number of these ranks less one, a value nobody wrote (all inputs)"
  },
  {
   "property": "C135",
   "status": "partial",
   "theorems": [
    "Verif.Props.C135_residual_partial",
    "Verif.Props.C135_vmult_partial",
    "Verif.Props.C135_frozen",
    "Verif.Props.C135_ends",
    "Verif.Props.C135_scatter",
    "Verif.Props.C135_instantiated",
    "Verif.Props.C135_width_violated",
    "Verif.Props.C135_diagonal_undefined",
    "Verif.Props.Ex135.C135_tolerance_violated",
    "Verif.Props.Ex135.C135_jacobian_violated"
   ],
   "note": "Proved for the residual if the order parameters left out vanish with gradient and old values (scalar mobility, at most 254 order parameters); the product with the Jacobian is that of the full loop for the increment without the order parameters left out. Violated otherwise: order parameters left out get no contribution at all (all inputs), values below the tolerance are not damped, their column of the Jacobian is lost (witnesses); the diagonal and the matrix are computed by the full kernel on the shortened storage and read beyond it (all inputs); without matrix the product never returns for Vector and BlockVector (all depths)"
  },
  {
   "property": "C136",
   "status": "partial",
   "theorems": [
    "Verif.Props.C136_levels_partial",
    "Verif.Props.C136_arrays_partial",
    "Verif.Props.C136_arrays_violated",
    "Verif.Props.C136_cells_partial",
    "Verif.Props.C136_cells_violated",
    "Verif.Props.C136_batch",
    "Verif.Props.C136_count",
    "Verif.Props.C136_coarsen",
    "Verif.Props.C136_coarsest_partial",
    "Verif.Props.C136_levels_violated"
   ],
   "note": "Bound on the levels proved for every run (induction over refinements and changes of the depth; the marks are those of the code, the execution by deal.II is a contract) unless the initial mesh has one level and the depth is 0; the arrays suffice as long as the depth was raised at most once. Violated: for all parameters there is a run with two increases in which the arrays are accessed out of bounds; the theoretical number of cells uses 2*dim children and is wrong in 3D exactly if there are at least two levels. Flags of fine batches proved for all meshes of one rank"
  },
  {
   "property": "C137",
   "status": "partial",
   "theorems": [
    "Verif.Props.C137_answers",
    "Verif.Props.C137_again_partial",
    "Verif.Props.C137_right_iff",
    "Verif.Props.C137_stale",
    "Verif.Props.C137_label_partial",
    "Verif.Props.Ex137.C137_throws_violated"
   ],
   "note": "Proved by induction over all sequences of runs: no undefined access, an exception exactly outside what the last search saw, and the grain named was kept in this order parameter before the last reassignment; all answers are right if the tracker looks again after the remapping. Violated without advection and boundary conditions that need the tracker: it does not look again, no reassigned grain is found where it is kept (all inputs); witness for an exception. In the code as it is nobody asks before the next search: output looks again first, C142. Contours in cells without particle get the number 0 of a grain. The search for particles and the effect of the remapping on what is seen are inputs"
  },
  {
   "property": "C138",
   "status": "partial",
   "theorems": [
    "Verif.Props.C138_ranks_partial",
    "Verif.Props.C138_partition_partial",
    "Verif.Props.C138_search_again",
    "Verif.Props.Ex138.C138_vacated_violated",
    "Verif.Props.Ex138.C138_stale_violated"
   ],
   "note": "Proved for any number of ranks and any distribution: the remapping does not fail, values inside of grains move, the rest stays; for two distributions of the same mesh the results are equal or both not above the threshold of the search for particles; the second search finds particles in the same cells although copies are out of date. Violated exactly: a rank changes only its own cells and nothing is exchanged before the owner's entry counts, so that values below the threshold at cells of other ranks stay in the old order parameter (witness with one and two ranks). What the first search has found is a hypothesis"
  },
  {
   "property": "C139",
   "status": "partial",
   "theorems": [
    "Verif.Props.C139_history_partial",
    "Verif.Props.C139_inner",
    "Verif.Props.C139_inconsistent",
    "Verif.Props.C139_recovers",
    "Verif.Props.C139_cold",
    "Verif.Props.C139_cold_contribution",
    "Verif.Props.Ex139.C139_inner_violated",
    "Verif.Props.Ex139.C139_inconsistent_violated",
    "Verif.Props.Ex139.C139_cold_violated"
   ],
   "note": "Refinement of the list of past solutions, by induction over all sequences of passes in which the tracker remaps nothing inside of a step. Violated otherwise (all inputs, with the exact condition): with check_inconsistency the tracker runs before the commit and leaves out the last solution, so two numberings are mixed; an inconsistency found after the remapping takes back the last solution but not the older ones. After a restart with history and without tracker the older solutions have no ghost values in the first step; the error of the contribution is given, and it vanishes after the first accepted step. Solvers, transfer and remapping are parameters"
  },
  {
   "property": "C14",
   "status": "partial",
   "theorems": [
    "Verif.Props.C14_max_partial",
    "Verif.Props.C14_violated",
    "Verif.Props.C14_negative"
   ],
   "note": "The code violates the property: maxima of several pieces of a particle on one rank overwrite each other (end-to-end witness), and negative maxima are lost. Proved for particles with at most one piece per rank and non-negative values"
  },
  {
   "property": "C140",
   "status": "partial",
   "theorems": [
    "Verif.Props.C140_refine",
    "Verif.Props.C140_uniform",
    "Verif.Props.C140_inner",
    "Verif.Props.Ex140.C140_inner_violated"
   ],
   "note": "Proved for all histories whose vectors have the components of the operator; in general the refinement is defined exactly if the total number of blocks is a multiple of it. Violated if the tracker changes the number of components inside of a step (check_inconsistency): a vector with the old number m stays in the history, the next refinement is defined exactly if the new number divides m, the next residual exactly if it is not larger than m (all inputs, from C139). The transfer of a block is a parameter; levels of the cells are C136"
  },
  {
   "property": "C141",
   "status": "partial",
   "theorems": [
    "Verif.Props.C141_histogram_partial",
    "Verif.Props.C141_ghosts",
    "Verif.Props.C141_loop",
    "Verif.Props.C141_percentage",
    "Verif.Props.Ex141.C141_ghosts_violated",
    "Verif.Props.Ex141.C141_offset_violated"
   ],
   "note": "Loop and percentage proved for all meshes (induction over the tree and over the passes). The histogram is right if ghost values are there; the caller passes a vector without, then no counter is too large and those at the boundary of a rank may be too small (witness). Out of range without any order parameter above the threshold; without concentration the first two order parameters are skipped (witness). Balance of the mesh and interpolation are parameters"
  },
  {
   "property": "C142",
   "status": "partial",
   "theorems": [
    "Verif.Props.C142_right",
    "Verif.Props.C142_number",
    "Verif.Props.C142_throws",
    "Verif.Props.C142_same_partial",
    "Verif.Props.Ex142.C142_ends_violated",
    "Verif.Props.Ex142.C142_numbers_violated",
    "Verif.Props.Ex142.C142_remains_violated"
   ],
   "note": "By induction over all sequences of runs and outputs: at output all answers of the tracker are right, the numbers of contours are those of grains in the order parameter (or 0 without particle). The search at output changes the tracker: it throws outside of the handler of failed steps exactly if an unmatched particle is above the threshold and new grains are forbidden (witness: simulation ends only with output); grains that move keep or lose their numbers depending on output (witness); the old remapping forgets grains that disappeared before the output (witness). If grains continue one by one, the next run gives the same with and without output (the reassignment and the transfer of identities do not depend on what differs). The search for particles is an input"
  },
  {
   "property": "C143",
   "status": "partial",
   "theorems": [
    "Verif.Props.C143_left",
    "Verif.Props.C143_numbers",
    "Verif.Props.C143_stuck",
    "Verif.Props.C143_same_partial",
    "Verif.Props.Ex143.C143_moved_violated",
    "Verif.Props.Ex143.C143_place_violated",
    "Verif.Props.Ex143.C143_debug_violated"
   ],
   "note": "What a rejected attempt leaves behind is characterised for all inputs: exactly the matched grains, where they were seen in the rejected solution; a grain that was not matched is forgotten. Hence (proved for all attempts) grains that were too far away in the first attempt are rejected in all later ones, also if they are back where they were known: the simulation ends although the smaller step would have been accepted (witness), or a state is accepted that would have been rejected (witness). With output for debugging the tracker runs and throws within the handler (witness). By induction over the attempts: no new numbers, all answers name known grains, no undefined access. If the grains of the next attempt continue those matched in the rejected one by one, the rejected one has no influence. Failures of solvers do not reach the tracker and are left out"
  },
  {
   "property": "C144",
   "status": "partial",
   "theorems": [
    "Verif.Props.C144_values",
    "Verif.Props.C144_apart",
    "Verif.Props.C144_frame",
    "Verif.Props.C144_view",
    "Verif.Props.C144_gather",
    "Verif.Props.C144_insert",
    "Verif.Props.C144_view_range",
    "Verif.Props.C144_write_partial",
    "Verif.Props.Ex144.C144_self_violated",
    "Verif.Props.Ex144.C144_assign_violated",
    "Verif.Props.Ex144.C144_stale_violated",
    "Verif.Props.Ex144.C144_grow_violated",
    "Verif.Props.Ex144.C144_insert_violated"
   ],
   "note": "Refinement for all programs of operations that do not share: memory with pointers behaves as vectors with values, undefined outcomes included, and no two places ever refer to one block. With sharing: what is not named and has no block in common stays as it is; views and gathered vectors agree with their vectors under all sequences of changes of entries; writing to a view gives the intended values and changes exactly its blocks. Witnesses for what fails: an operation that reads the vector and writes a shifted view of it, assignment from a view taken before a block was moved, views after the array of blocks changed, assignment of a longer vector to a view, blocks inserted by pointer. None of these occurs at this commit except the last, which the time marching with ARKODE uses on purpose (C123). Ghost values are left out"
  },
  {
   "property": "C145",
   "status": "partial",
   "theorems": [
    "Verif.Props.C145_run_partial",
    "Verif.Props.C145_source",
    "Verif.Props.C145_every_step",
    "Verif.Props.C145_unprepared",
    "Verif.Props.C145_memory_partial",
    "Verif.Props.Ex145.C145_one_matrix_violated",
    "Verif.Props.Ex145.C145_first_shape_violated",
    "Verif.Props.Ex145.C145_one_grain_violated",
    "Verif.Props.Ex145.C145_no_clear_violated",
    "Verif.Props.Ex145.C145_threshold_violated",
    "Verif.Props.Ex145.C145_memory_violated",
    "Verif.Props.Ex145.C145_total_violated"
   ],
   "note": "Induction over all runs: no exception, nothing undefined, and in every Newton step every part of the preconditioner applies the matrices of the present shape and of the step the specification names (which exists and is unique); the first application before an update would be undefined. Partial: the hypothesis Fits excludes classes the code cannot use. Witnesses: BlockAMG with one matrix for all order parameters is undefined; BlockILU constructed for one block throws when there are more; with one order parameter every update throws, as the matrix of OperatorAllenCahn is computed even if it is not used; a threshold of zero Newton iterations is a division by zero; with the report of the memory InverseComponentBlockDiagonalMatrix, InverseBlockDiagonalMatrix and GMG end the run; blocks are counted twice and the data of the model not at all. What the classes make of a matrix and the numerical tangent are not part of it"
  },
  {
   "property": "C146",
   "status": "partial",
   "theorems": [
    "Verif.Props.C146_margin",
    "Verif.Props.C146_independent",
    "Verif.Props.C146_restart_partial",
    "Verif.Props.C146_radius_partial",
    "Verif.Props.C146_thin",
    "Verif.Props.Ex146.C146_divisions_violated",
    "Verif.Props.Ex146.C146_switch_violated",
    "Verif.Props.Ex146.C146_factor_violated",
    "Verif.Props.Ex146.C146_custom_violated",
    "Verif.Props.Ex146.C146_radius_violated"
   ],
   "note": "Margin exact, coarse grid and levels independent of the kind of initial refinement, restart characterised by an if-and-only-if for all runs that started. Violated: a mesh of divisions with initial refinements is refined before load; the decision to repartition is taken by the parameter of the new run instead of the flag in the file (both directions of switching fail); changed parameters of the grid are not noticed; a custom box may cut particles; with a coarse mesh of the size of the largest particle the cells are up to one and a half times as large as wanted (proved bounds: between 1/4 and 3/2), and a box thinner than half of that particle gets no cell. load, save and repartition of deal.II are represented by their preconditions"
  },
  {
   "property": "C147",
   "status": "partial",
   "theorems": [
    "Verif.Props.C147_pieces",
    "Verif.Props.C147_written",
    "Verif.Props.C147_ghosts",
    "Verif.Props.C147_numbers_partial",
    "Verif.Props.C147_coarse",
    "Verif.Props.C147_surface",
    "Verif.Props.C147_spheres_partial",
    "Verif.Props.Ex147.C147_coarse_violated",
    "Verif.Props.Ex147.C147_ghosts_violated",
    "Verif.Props.Ex147.C147_surface_violated",
    "Verif.Props.Ex147.C147_spheres_violated"
   ],
   "note": "Every piece exactly once (a permutation of the pieces listed cell by cell) with order parameter and rank; extra elements are exactly one small cube per rank without pieces; the file is written if and only if the tracker answers; numbers right in all simulations without coarsening. Violated: with coarsening all numbers are 0; a piece without grain has the number of grain 0; the cubes of ranks without surface are unmarked in the files of the concentration and the boundaries, so that areas depend on the distribution of cells; every segment is written as a sphere once per rank; after an exception the vector keeps its ghost values. Marching cubes, parallel writing and insertion of particles are parameters or contracts"
  },
  {
   "property": "C148",
   "status": "partial",
   "theorems": [
    "Verif.Props.C148_kinds",
    "Verif.Props.C148_outputs_partial",
    "Verif.Props.C148_within",
    "Verif.Props.C148_numbers",
    "Verif.Props.C148_restart_partial",
    "Verif.Props.Ex148.C148_again_violated",
    "Verif.Props.Ex148.C148_sections_violated"
   ],
   "note": "For all runs: an output has exactly the files asked for, files of different outputs differ in name (proved from how names are put together from words, labels, sections, boxes and counters), within an output names of different kinds, boxes and sections differ, numbering without gaps, restart. Assumed of printing: numbers are non-empty digits and print differently, sections print differently and without underscore. Violated: contours in sections are written once for every box under the same name; sections whose positions agree in six digits print alike and overwrite each other"
  },
  {
   "property": "C149",
   "status": "partial",
   "theorems": [
    "Verif.Props.C149_equilibrium",
    "Verif.Props.C149_same",
    "Verif.Props.C149_kept",
    "Verif.Props.C149_inhomogeneous_violated"
   ],
   "note": "For zero values: the Newton method ends after at most one iteration in the equilibrium, the four ways give the same displacement of all nodes, and conditions by hand keep the initial values of the entries for every solver of Krylov type however inaccurate. Violated: with a value that is not small the Newton method never returns, since the residual of the entry is the value itself; an initial displacement that differs from the prescribed value is never corrected. Contracts: stiffness linear and definite once clamped, exact linear solver that combines vectors the operator was applied to"
  },
  {
   "property": "C15",
   "status": "proved",
   "theorems": [
    "Verif.Props.C15_info",
    "Verif.Props.C15_range_ub",
    "Verif.Props.C15_inertia",
    "Verif.Props.C15_inertia_tensor",
    "Verif.Props.C15_center_between",
    "Verif.Props.C15_radii"
   ],
   "note": "exact sums, barycentre, inertia and bounding radius for every distribution and visiting order of the cells (real arithmetic); zero measure gives no centre; a particle number out of range is UB (proved)"
  },
  {
   "property": "C150",
   "status": "partial",
   "theorems": [
    "Verif.Props.C150_forces",
    "Verif.Props.C150_balance",
    "Verif.Props.C150_ranks_partial",
    "Verif.Props.C150_unit_partial",
    "Verif.Props.C150_unit_violated",
    "Verif.Props.Ex150.C150_batches_violated"
   ],
   "note": "The loops with their flat arrays give exactly volume and force per contact of every segment without undefined behaviour, and the forces on all segments sum up to zero. Independence of batches and ranks needs that an order parameter that is not relevant in a batch belongs to no segment there (violated otherwise: which order parameters are relevant is decided per batch). Violated: the bound 1e-10 for a contact has a unit, in small enough units every force is zero; independence of the unit is proved when the same contacts are above the bound"
  },
  {
   "property": "C151",
   "status": "partial",
   "theorems": [
    "Verif.Props.C151_times",
    "Verif.Props.C151_match_partial",
    "Verif.Props.C151_printed",
    "Verif.Props.C151_collection",
    "Verif.Props.C151_agree",
    "Verif.Props.C151_due",
    "Verif.Props.Ex151.C151_match_violated"
   ],
   "note": "Times, calls, collection and common decision: full, for timers whose sections are named by ScopedName (deal.II timers as contract, exact time). Matching collective operations need that all ranks run the same code up to times; an exception on one rank alone leaves other sections there. Timers of operators have names without ScopedName and are not covered"
  },
  {
   "property": "C152",
   "status": "partial",
   "theorems": [
    "Verif.Props.C152_balance",
    "Verif.Props.C152_rate",
    "Verif.Props.C152_tangent",
    "Verif.Props.C152_newton",
    "Verif.Props.C152_explicit",
    "Verif.Props.C152_step",
    "Verif.Props.C152_run_partial",
    "Verif.Props.Ex152.C152_limit_violated",
    "Verif.Props.Ex152.C152_coarsening_violated"
   ],
   "note": "Balance for every residual, also one that does not vanish; conservation over all runs of the time loop (start with less history, rejected steps, changing steps) if sanity check and refinement keep the amount. Shape functions sum up to one (hypothesis); exact arithmetic; scalar mobility (the proof uses the value that is submitted only). Violated: the sanity check cuts off values above one, and coarsening keeps values at nodes only, both change the amount (witnesses); refinement keeps it in the witness"
  },
  {
   "property": "C153",
   "status": "partial",
   "theorems": [
    "Verif.Props.C153_decay",
    "Verif.Props.C153_antitone",
    "Verif.Props.C153_rate",
    "Verif.Props.C153_step_partial",
    "Verif.Props.C153_reported",
    "Verif.Props.Ex153.C153_step_violated"
   ],
   "note": "Decay of the energy along every solution of the equations discretised in space, with the rate of the order parameters as bound; for implicit steps of any order the energy falls in the direction of the discrete rate. A whole step of the implicit Euler method lowers the energy if the bulk energy is convex between the solutions; violated without this condition: a long step over the barrier between two minima solves the equations and ends at a higher energy (witness). Exact arithmetic, scalar mobility, order parameters not negative at the quadrature points (needed for the mobility of grain boundaries); higher orders, sanity check and refinement are not covered for whole steps"
  },
  {
   "property": "C154",
   "status": "proved",
   "theorems": [
    "Verif.Props.C154_residual",
    "Verif.Props.C154_solution",
    "Verif.Props.C154_tangent",
    "Verif.Props.C154_unused",
    "Verif.Props.C154_unused_tangent",
    "Verif.Props.C154_energy"
   ],
   "note": "Renumberings are permutations per quadrature point; entries of an order parameter at a node are those under its old number if around the node the numbers agree or there is no grain there. Exact arithmetic, scalar mobility; that remapping produces such renumberings is the subject of C10 and related properties"
  },
  {
   "property": "C155",
   "status": "partial",
   "theorems": [
    "Verif.Props.C155_kernel_partial",
    "Verif.Props.C155_vmult_partial",
    "Verif.Props.C155_levels",
    "Verif.Props.C155_helmholtz_partial",
    "Verif.Props.C155_fresh",
    "Verif.Props.C155_shape_violation",
    "Verif.Props.C155_dim_violation"
   ],
   "note": "Three dimensions, all cells the same box (as on the meshes the program makes), shape values of linear elements on the parts, exact arithmetic, one lane of the vectorised cells. Violated: cells of different shape all get the geometry of the first one; other dimensions silently give zero; not modelled: elements of higher degree with the same numbers of points, which the factory accepts too"
  },
  {
   "property": "C156",
   "status": "proved",
   "theorems": [
    "Verif.Props.C156_residual",
    "Verif.Props.C156_tangent",
    "Verif.Props.C156_independent",
    "Verif.Props.C156_rest",
    "Verif.Props.C156_uniform"
   ],
   "note": "Nodes near each other are those with shape functions of the constrained space seen at a common quadrature point. Exact arithmetic, scalar mobility; velocities are given (they are computed from contacts, C50 and related)"
  },
  {
   "property": "C157",
   "status": "proved",
   "theorems": [
    "Verif.Props.C157_residual",
    "Verif.Props.C157_tangent",
    "Verif.Props.C157_tensorial",
    "Verif.Props.C157_tensorial_tangent",
    "Verif.Props.C157_fluxes",
    "Verif.Props.C157_force",
    "Verif.Props.C157_rotation"
   ],
   "note": "The frame is changed by a linear map that preserves the inner product of gradients. Residual and tangent with scalar mobility; the tensorial mobility at a point, for any function in place of the root; forces at a point and rotations from given forces. Exact arithmetic"
  },
  {
   "property": "C158",
   "status": "partial",
   "theorems": [
    "Verif.Props.C158_args_partial",
    "Verif.Props.C158_silent_violation",
    "Verif.Props.C158_sizes",
    "Verif.Props.C158_counts",
    "Verif.Props.C158_negative_violation",
    "Verif.Props.C158_initial",
    "Verif.Props.C158_tests",
    "Verif.Props.C158_blocks",
    "Verif.Props.C158_first_partial",
    "Verif.Props.C158_zero_violation"
   ],
   "note": "Without arguments a string is made of a null pointer, unknown modes end silently, negative numbers of grains pass the check and -1 makes the loop endless; the remapping is repeated 110 times with the same tables, so that after a few calls only zeros are moved. Search for grains as contract, mesh given, times not modelled"
  },
  {
   "property": "C159",
   "status": "partial",
   "theorems": [
    "Verif.Props.C159_pores",
    "Verif.Props.C159_pores_undefined",
    "Verif.Props.C159_velocities",
    "Verif.Props.C159_forces",
    "Verif.Props.C159_names_violation"
   ],
   "note": "All components of the velocity of an order parameter are added under the same name, so the names do not differ. The values are right, also with cut-off, where get_velocity is wrong (C41): the relevant id is computed only once here. Ids from the detection of pores as contract (C73); C159_forces starts from the forces of all ranks"
  },
  {
   "property": "C16",
   "status": "partial",
   "theorems": [
    "Verif.Props.C16_aggregates",
    "Verif.Props.C16_order",
    "Verif.Props.C16_distance",
    "Verif.Props.C16_symmetric",
    "Verif.Props.C16_no_overlap_sound",
    "Verif.Props.C16_overlap_complete",
    "Verif.Props.C16_zones_partial",
    "Verif.Props.Ex16.C16_equality_differs",
    "Verif.Props.Ex16.C16_zones_overlap"
   ],
   "note": "Everything proved except that transfer zones of grains with overlapping bounding spheres do overlap (witness); zones are disjoint for disjoint bounding spheres, end to end after reassign_grains"
  },
  {
   "property": "C160",
   "status": "partial",
   "theorems": [
    "Verif.Props.C160_totals_partial",
    "Verif.Props.C160_all_partial",
    "Verif.Props.C160_max_dt",
    "Verif.Props.C160_newton",
    "Verif.Props.C160_linear_violation",
    "Verif.Props.C160_external_violation",
    "Verif.Props.C160_late_violation",
    "Verif.Props.C160_averages_partial",
    "Verif.Props.C160_averages_violation"
   ],
   "note": "Iterations of a linear or external solver that fails are counted nowhere; a failure of the solver of the divergences of the fluxes after the step was accepted counts the work twice; the averages divide by zero without steps or iterations. Work given as list of events, overflow of 32 bit left out"
  },
  {
   "property": "C161",
   "status": "proved",
   "theorems": [
    "Verif.Props.C161_pass",
    "Verif.Props.C161_past",
    "Verif.Props.C161_run",
    "Verif.Props.C161_end",
    "Verif.Props.C161_fresh"
   ],
   "note": "Composes time loop, history, weights, assembled residual and Newton solver. Refinement, sanity check and predictor are arbitrary as long as they map the phase to itself (the linear predictor does not in the cases of C130); the number of nodes is fixed; net flux of a moving grain zero as in C156"
  },
  {
   "property": "C162",
   "status": "partial",
   "theorems": [
    "Verif.Props.C162_plane",
    "Verif.Props.C162_space",
    "Verif.Props.C162_elsewhere",
    "Verif.Props.C162_components",
    "Verif.Props.C162_domain_violation"
   ],
   "note": "The domain without a bounding box is a cube around the origin whose corners are not among the nodes of the table, so the program stops. Decimal numbers taken as written; distances compared by their squares"
  },
  {
   "property": "C163",
   "status": "partial",
   "theorems": [
    "Verif.Props.C163_members_partial",
    "Verif.Props.C163_partition_partial",
    "Verif.Props.C163_view_violation",
    "Verif.Props.C163_move_violation",
    "Verif.Props.C163_zero"
   ],
   "note": "Holds for vectors whose stored sizes are up to date; a view has no stored sizes and move_block of blocks with different sizes leaves the old ones. Each process owns an interval of a block"
  },
  {
   "property": "C164",
   "status": "proved",
   "theorems": [
    "Verif.Props.C164_log",
    "Verif.Props.C164_determined",
    "Verif.Props.C164_dimension",
    "Verif.Props.C164_joined"
   ],
   "note": "gather, min and max of deal.II as documented; entries of printed lists are given as text"
  },
  {
   "property": "C165",
   "status": "proved",
   "theorems": [
    "Verif.Props.C165_split",
    "Verif.Props.C165_split_undefined",
    "Verif.Props.C165_merge",
    "Verif.Props.C165_round",
    "Verif.Props.C165_round_three"
   ],
   "note": "On the cells of one process with up-to-date ghost values; the numberings of deal.II by their contract. The vector is a function of the global index, so that sizes of global vectors are not checked"
  },
  {
   "property": "C166",
   "status": "partial",
   "theorems": [
    "Verif.Props.C166_records",
    "Verif.Props.C166_cloud",
    "Verif.Props.C166_files_differ",
    "Verif.Props.C166_files_partial",
    "Verif.Props.C166_files_violation"
   ],
   "note": "The colours of deal.II by their contract. Input files of the same name and different extensions in one folder have the same output files"
  },
  {
   "property": "C167",
   "status": "partial",
   "theorems": [
    "Verif.Props.C167_similar",
    "Verif.Props.C167_touch",
    "Verif.Props.C167_limits",
    "Verif.Props.C167_centre_partial",
    "Verif.Props.C167_centre_violation",
    "Verif.Props.C167_position",
    "Verif.Props.C167_centrify",
    "Verif.Props.C167_scale_zero"
   ],
   "note": "Centring subtracts half of the extent and so puts the middle where the packing started; it is right only for packings that start at 0. Columns as floating point numbers (the script reads columns of whole numbers as integers), cosine and sine by the sum of their squares"
  },
  {
   "property": "C168",
   "status": "partial",
   "theorems": [
    "Verif.Props.C168_prefix",
    "Verif.Props.C168_suffix",
    "Verif.Props.C168_labels_partial",
    "Verif.Props.C168_end_violation",
    "Verif.Props.C168_start_violation",
    "Verif.Props.C168_separator"
   ],
   "note": "For names with a common end that are not part of each other; the loop that handles empty labels and the option extend_to are not modelled"
  },
  {
   "property": "C169",
   "status": "partial",
   "theorems": [
    "Verif.Props.C169_contact",
    "Verif.Props.C169_radii",
    "Verif.Props.C169_gap",
    "Verif.Props.C169_strategy",
    "Verif.Props.C169_connected",
    "Verif.Props.C169_repair",
    "Verif.Props.C169_enlarged",
    "Verif.Props.C169_minimum_violation",
    "Verif.Props.C169_smallest_violation",
    "Verif.Props.C169_smallest_partial"
   ],
   "note": "Connected after one pass over the bridges; the gap is the smallest one only for equal radii, and the number of enlarged particles is bounded by the bridges but not the smallest; distances are exact"
  },
  {
   "property": "C17",
   "status": "proved",
   "theorems": [
    "Verif.Props.C17_insert",
    "Verif.Props.C17_remove",
    "Verif.Props.C17_insert_remove",
    "Verif.Props.C17_remove_insert",
    "Verif.Props.C17_move",
    "Verif.Props.C17_move_range",
    "Verif.Props.C17_reinit",
    "Verif.Props.C17_strip_restore",
    "Verif.Props.C17_restore_strip"
   ],
   "note": "shifting loops modelled with explicit index checks; stationary indices strictly ascending and in range"
  },
  {
   "property": "C170",
   "status": "proved",
   "theorems": [
    "Verif.Props.C170_hstack",
    "Verif.Props.C170_vstack",
    "Verif.Props.C170_reorder",
    "Verif.Props.C170_found",
    "Verif.Props.C170_candidates",
    "Verif.Props.C170_sort",
    "Verif.Props.C170_pairs",
    "Verif.Props.C170_degree"
   ],
   "note": "Distances are exact and symmetric; the search tree by contract (it accepts no empty set of points, so that at least two spheres are needed)"
  },
  {
   "property": "C171",
   "status": "partial",
   "theorems": [
    "Verif.Props.C171_save_partial",
    "Verif.Props.C171_save_violation",
    "Verif.Props.C171_names",
    "Verif.Props.C171_rows",
    "Verif.Props.C171_rows_violation",
    "Verif.Props.C171_covered",
    "Verif.Props.C171_coordination_partial",
    "Verif.Props.C171_plane_violation"
   ],
   "note": "For folders that all have files, none of them skipped, in three dimensions; the grid of points and the convex hull are not modelled"
  },
  {
   "property": "C172",
   "status": "partial",
   "theorems": [
    "Verif.Props.C172_mask_partial",
    "Verif.Props.C172_all_partial",
    "Verif.Props.C172_break_violation",
    "Verif.Props.C172_job",
    "Verif.Props.C172_join",
    "Verif.Props.C172_default_violation"
   ],
   "note": "If all job files are wanted or none is found, with masks given; the destination is taken as given"
  },
  {
   "property": "C18",
   "status": "partial",
   "theorems": [
    "Verif.Props.C18_access_partial",
    "Verif.Props.Ex18.C18_violated",
    "Verif.Props.Ex18.C18_view_violated"
   ],
   "note": "The code violates the property: move_block and create_view leave the index table behind (witnesses). Proved for all histories that move blocks of equal sizes only"
  },
  {
   "property": "C19",
   "status": "partial",
   "theorems": [
    "Verif.Props.C19_growth",
    "Verif.Props.C19_shrink_partial",
    "Verif.Props.C19_shrink_loses",
    "Verif.Props.C19_growth_without_reassignment",
    "Verif.Props.Ex19.C19_violated"
   ],
   "note": "The code violates the property: with displacements, shrinking always drops displacement blocks (C19_shrink_loses, for all sizes) and growth without reassigned grains puts the new blocks behind the displacements. Proved: growth with reassigned grains, shrinking without displacements"
  },
  {
   "property": "C20",
   "status": "proved",
   "theorems": [
    "Verif.Props.C20_history",
    "Verif.Props.C20_step_input",
    "Verif.Props.C20_filter",
    "Verif.Props.C20_commit",
    "Verif.Props.C20_too_short"
   ],
   "note": "for every run of the driver's loop (any pattern of failures, refinements and predictors) starting from a history of full length"
  },
  {
   "property": "C21",
   "status": "proved",
   "theorems": [
    "Verif.Props.C21_bdf1",
    "Verif.Props.C21_bdf2",
    "Verif.Props.C21_bdf3",
    "Verif.Props.C21_startup",
    "Verif.Props.C21_padding",
    "Verif.Props.C21_sum_zero"
   ],
   "note": "exact arithmetic in any ordered field, all positive variable step sizes"
  },
  {
   "property": "C22",
   "status": "proved",
   "theorems": [
    "Verif.Props.C22_steps",
    "Verif.Props.C22_fresh"
   ],
   "note": "for every run of the driver's loop; also weights belong to these sizes"
  },
  {
   "property": "C23",
   "status": "partial",
   "theorems": [
    "Verif.Props.C23_implicit_partial",
    "Verif.Props.C23_load",
    "Verif.Props.C23_lowest_order",
    "Verif.Props.C23_scheme_change",
    "Verif.Props.C23_violated"
   ],
   "note": "The code violates the property for explicit schemes: order 0 is saved and loading it back is UB for every step size (C23_violated). Proved for all implicit schemes, including a change of scheme between saving and loading"
  },
  {
   "property": "C24",
   "status": "partial",
   "theorems": [
    "Verif.Props.C24_euler",
    "Verif.Props.C24_algebraic",
    "Verif.Props.C24_rk4_exact",
    "Verif.Props.C24_rk4_partial",
    "Verif.Props.C24_rk4",
    "Verif.Props.Ex24.C24_violated"
   ],
   "note": "Forward Euler and systems without stationary equations: full. With stationary equations coupled into time dependent ones the Runge-Kutta stages use stationary blocks of the stage before, so the classical formula is missed (witness); proved if the time dependent equations do not involve stationary blocks. The time is the one of time_data, which the driver never sets to the start time"
  },
  {
   "property": "C25",
   "status": "proved",
   "theorems": [
    "Verif.Props.C25_converged",
    "Verif.Props.C25_decreasing",
    "Verif.Props.C25_total",
    "Verif.Props.C25_nan",
    "Verif.Props.C25_zero_threshold_ub",
    "Verif.Props.C25_precond_first",
    "Verif.Props.C25_affine"
   ],
   "note": "damped Newton solver; IEEE comparisons with infinity and not-a-number; all residual functions and linear solvers. Threshold parameter 0 is UB (proved)"
  },
  {
   "property": "C26",
   "status": "proved",
   "theorems": [
    "Verif.Props.C26_terminates",
    "Verif.Props.C26_progress",
    "Verif.Props.Ex26.C26_overshoot"
   ],
   "note": "for all oracles deciding failure and convergence, all positive limits; without the hypothesis that the first step fits, time overshoots and goes backwards (witness)"
  },
  {
   "property": "C27",
   "status": "proved",
   "theorems": [
    "Verif.Props.C27_rejected",
    "Verif.Props.C27_repeated"
   ],
   "note": "up to the refinement and limiting of solutions performed before the attempt"
  },
  {
   "property": "C28",
   "status": "partial",
   "theorems": [
    "Verif.Props.C28_accepted",
    "Verif.Props.C28_max",
    "Verif.Props.C28_min_partial",
    "Verif.Props.Ex26.C28_violated"
   ],
   "note": "The last part of the claim is false: a step cut to the remaining time can be below the minimum (witness). Proved: bounds by maximum and remaining time, monotonicity, and the minimum up to that cut"
  },
  {
   "property": "C29",
   "status": "partial",
   "theorems": [
    "Verif.Props.C29_restarted",
    "Verif.Props.C29_recent_irrelevant",
    "Verif.Props.C29_restart_partial",
    "Verif.Props.Ex29.C29_violated",
    "Verif.Props.Ex29.C29_overshoot"
   ],
   "note": "The code violates the property: the snapshot stores the step size and the integrator state of the step just accepted, so growth, the cut to the remaining time and the shift of the step history are lost (witnesses for growth, for constant steps at start-up and for running past the end). C29_restarted describes exactly what is restored; proved: identical continuation if the stored steps all equal the next step"
  },
  {
   "property": "C30",
   "status": "partial",
   "theorems": [
    "Verif.Props.C30_available",
    "Verif.Props.C30_recent",
    "Verif.Props.C30_after_writing",
    "Verif.Props.C30_violated"
   ],
   "note": "With a limit of one the only snapshot is overwritten in place (violated, witness); during writing only m-1 snapshots are kept. Proved for all other limits, any number of crashes, restarts from any complete snapshot"
  },
  {
   "property": "C31",
   "status": "partial",
   "theorems": [
    "Verif.Props.C31_calls",
    "Verif.Props.C31_fraction_ub",
    "Verif.Props.C31_simulation_time",
    "Verif.Props.C31_output_partial",
    "Verif.Props.C31_final",
    "Verif.Props.Ex31.C31_tolerance",
    "Verif.Props.Ex31.C31_negative_start"
   ],
   "note": "Calls: proved for intervals of at least one (fractions below one divide by zero, proved UB). Simulation time: apart by the interval minus the tolerance 1e-10 (witness). Output: proved for start times that are not negative (witness otherwise). Final output: except at exact equality with the tolerance"
  },
  {
   "property": "C32",
   "status": "partial",
   "theorems": [
    "Verif.Props.C32_linear_partial",
    "Verif.Props.C32_is_linear",
    "Verif.Props.C32_zero",
    "Verif.Props.C32_retry",
    "Verif.Props.Ex32.C32_stale"
   ],
   "note": "The code violates the property: for order one and at start-up or restart without history at positive time the guess is zero (C32_zero, for all states); after refinement stale vectors are mixed (witness). Proved for accepted steps of order at least two without refinement; on retries the guess is the last solution"
  },
  {
   "property": "C33",
   "status": "partial",
   "theorems": [
    "Verif.Props.C33_default",
    "Verif.Props.C33_tracked_stale",
    "Verif.Props.C33_order_one_partial",
    "Verif.Props.Ex33.C33_violated"
   ],
   "note": "Holds if tracking happens at the beginning of a step (default). If grains are tracked before the step is committed (check_inconsistency) the previous solution keeps the old numbering for every integrator of order at least two (C33_tracked_stale, witness)"
  },
  {
   "property": "C34",
   "status": "proved",
   "theorems": [
    "Verif.Props.C34_primes",
    "Verif.Props.C34_decompose",
    "Verif.Props.C34_exact",
    "Verif.Props.C34_small_ub",
    "Verif.Props.C34_adjust",
    "Verif.Props.C34_refines",
    "Verif.Props.Ex34.C34_limit_one"
   ],
   "note": "for prime limits between 2 and the number of divisions below 2^31; fewer divisions than the prime limit are UB (C34_small_ub), prime limit 1 yields zero divisions (witness)"
  },
  {
   "property": "C35",
   "status": "proved",
   "theorems": [
    "Verif.Props.C35_marking",
    "Verif.Props.Ex35.C35_below_minimum"
   ],
   "note": "for minimum level at most maximum level, flags before deal.II's smoothing; cells already below the minimum are still coarsened (witness)"
  },
  {
   "property": "C36",
   "status": "proved",
   "theorems": [
    "Verif.Props.C36_sorted",
    "Verif.Props.C36_strict",
    "Verif.Props.C36_order",
    "Verif.Props.C36_between",
    "Verif.Props.C36_bounds",
    "Verif.Props.C36_left",
    "Verif.Props.C36_right",
    "Verif.Props.C36_points",
    "Verif.Props.C36_degenerate",
    "Verif.Props.Ex36.C36_doubled"
   ],
   "note": "single points with extrapolation are UB, doubled end points divide by zero (witnesses)"
  },
  {
   "property": "C37",
   "status": "proved",
   "theorems": [
    "Verif.Props.C37_limit",
    "Verif.Props.C37_idempotent",
    "Verif.Props.C37_wrong_mask"
   ],
   "note": "all block vectors and masks; masks of other lengths are rejected"
  },
  {
   "property": "C38",
   "status": "proved",
   "theorems": [
    "Verif.Props.C38_value",
    "Verif.Props.C38_first",
    "Verif.Props.C38_second",
    "Verif.Props.C38_apply",
    "Verif.Props.C38_two",
    "Verif.Props.C38_uninitialised"
   ],
   "note": "derivatives in the sense of analysis over the reals, any number of order parameters; apply_d2f closed form; reading cubes that were not computed is UB (proved)"
  },
  {
   "property": "C39",
   "status": "partial",
   "theorems": [
    "Verif.Props.C39_nonneg",
    "Verif.Props.C39_scalar",
    "Verif.Props.C39_detai",
    "Verif.Props.C39_tensorial_nonneg",
    "Verif.Props.C39_tensorial_mu",
    "Verif.Props.Ex39.C39_outside",
    "Verif.Props.Ex39.C39_tensorial_violated"
   ],
   "note": "Scalar mobility: everything proved for c in [0,1] including the end points (false outside, witness). Tensorial mobility: positive semidefinite, but the linearisation is not the derivative: the surface term in c is four times too large (witness) and the isotropic part fsurf/1000 is missing (C39_tensorial_mu)"
  },
  {
   "property": "C40",
   "status": "partial",
   "theorems": [
    "Verif.Props.C40_storage_partial",
    "Verif.Props.C40_lanes_ub",
    "Verif.Props.C40_empty_ub",
    "Verif.Props.C40_all_blocks_ub",
    "Verif.Props.Ex40.C40_flags_violated"
   ],
   "note": "The code violates the property: more order parameters than SIMD lanes write past the lane table (C40_lanes_ub, for all inputs), a rank without cells takes the maximum of an empty range (C40_empty_ub), saving all blocks with blocks behind the grains reads past the component table (C40_all_blocks_ub), and different flags for table and storage overrun the storage (witness). Proved in full for the remaining configurations"
  },
  {
   "property": "C41",
   "status": "partial",
   "theorems": [
    "Verif.Props.C41_no_cutoff",
    "Verif.Props.C41_prefix_partial",
    "Verif.Props.C41_cutoff_read",
    "Verif.Props.Ex41.C41_violated"
   ],
   "note": "The code violates the property with cut-off (the map to relevant grains is applied twice): witness with a lost velocity, an exception and a velocity of another grain; C41_cutoff_read describes what is read in general. Proved without cut-off, and with cut-off if the relevant grains are the first ones"
  },
  {
   "property": "C42",
   "status": "partial",
   "theorems": [
    "Verif.Props.C42_row",
    "Verif.Props.C42_lines",
    "Verif.Props.C42_particles_partial",
    "Verif.Props.C42_no_particles",
    "Verif.Props.C42_faulty"
   ],
   "note": "Rows: for all lines. Particles: full for tables whose rows have at least four numeric columns; a blank line throws std::invalid_argument, a row with fewer columns is read out of bounds (C42_faulty, e.g. two dimensional tables x,y,r)"
  },
  {
   "property": "C43",
   "status": "proved",
   "theorems": [
    "Verif.Props.C43_map",
    "Verif.Props.C43_file",
    "Verif.Props.C43_roundtrip",
    "Verif.Props.Ex43.C43_fewer_vectors",
    "Verif.Props.Ex43.C43_other_partition"
   ],
   "note": "MPI-IO writes and reads at offsets are parameters with their standard meaning, in any order of the ranks. The round trip needs the same number of vectors and the same partition on both sides; witnesses show what is read otherwise (this can happen in the driver when the order of the time integration is reduced at restart)"
  },
  {
   "property": "C44",
   "status": "partial",
   "theorems": [
    "Verif.Props.C44_encloses",
    "Verif.Props.C44_cloud_partial",
    "Verif.Props.C44_negative",
    "Verif.Props.C44_array"
   ],
   "note": "The code violates the property: the upper boundary starts at numeric_limits::min(), the smallest positive number, so clouds which lie on the negative side altogether get an upper boundary at zero (C44_negative, all inputs). Proved when some particle reaches the positive side in every direction, and for arrays"
  },
  {
   "property": "C45",
   "status": "proved",
   "theorems": [
    "Verif.Props.C45_energies",
    "Verif.Props.C45_positive"
   ],
   "note": "exact arithmetic"
  },
  {
   "property": "C46",
   "status": "partial",
   "theorems": [
    "Verif.Props.C46_roundtrip_partial",
    "Verif.Props.C46_roundtrip_elliptical_partial",
    "Verif.Props.C46_wavefront",
    "Verif.Props.Ex46.C46_axes_lost"
   ],
   "note": "Proved for spherical and missing representations. The code violates the property for elliptical representations (axes not serialised; everything else is restored) and wavefront representations (class not exported, saving throws)"
  },
  {
   "property": "C47",
   "status": "partial",
   "theorems": [
    "Verif.Props.C47_remote_partial",
    "Verif.Props.Ex15.C47_violated",
    "Verif.Props.Ex15.C47_nan"
   ],
   "note": "The code violates the property: if several ranks reach the radius (symmetric particles) their remote points are added (witness), and a cell centred at the particle centre gives not-a-number (witness). Proved if one rank alone comes close to the radius"
  },
  {
   "property": "C48",
   "status": "proved",
   "theorems": [
    "Verif.Props.C48_dot",
    "Verif.Props.C48_dot_ub",
    "Verif.Props.C48_sadd",
    "Verif.Props.C48_equ",
    "Verif.Props.C48_l2",
    "Verif.Props.C48_l1",
    "Verif.Props.C48_linfty",
    "Verif.Props.C48_mean",
    "Verif.Props.C48_mean_view"
   ],
   "note": "real arithmetic; the square root is not modelled, the radicand is; mean of a view is not-a-number because views have an empty index table"
  },
  {
   "property": "C49",
   "status": "partial",
   "theorems": [
    "Verif.Props.C49_resolution_partial",
    "Verif.Props.Ex49.C49_violated"
   ],
   "note": "The code violates the property with a prime limit: 9 divisions become 8 (witness). Proved without prime adjustment"
  },
  {
   "property": "C50",
   "status": "partial",
   "theorems": [
    "Verif.Props.C50_3d_partial",
    "Verif.Props.C50_2d_violated",
    "Verif.Props.C50_2d_vs_3d"
   ],
   "note": "Three dimensions: proved. Two dimensions: violated for all inputs with a torque, as the two dimensional cross product has the opposite sign"
  },
  {
   "property": "C51",
   "status": "proved",
   "theorems": [
    "Verif.Props.C51_minima",
    "Verif.Props.Ex51.C51_range"
   ],
   "note": "outside of [0,2] the energy becomes negative (witness)"
  },
  {
   "property": "C52",
   "status": "proved",
   "theorems": [
    "Verif.Props.C52_linearisation"
   ],
   "note": "scalar mobility, c in [0,1], any number of order parameters, with velocities; tensorial mobility is covered by C39 where the linearisation is violated"
  },
  {
   "property": "C53",
   "status": "partial",
   "theorems": [
    "Verif.Props.C53_partial",
    "Verif.Props.C54_tables_partial",
    "Verif.Props.Ex53.C53_violated"
   ],
   "note": "The code violates the property: the centre is added once per cell (and order parameter) on the rank and never divided (C54_tables_partial states the factor, witness). Proved for a segment with exactly one cell on the rank"
  },
  {
   "property": "C54",
   "status": "partial",
   "theorems": [
    "Verif.Props.C54_tables_partial",
    "Verif.Props.C54_weighted_ub"
   ],
   "note": "Generic operator: full. Weighted operator: violated for all inputs, the tables are discarded after the loop and every read is out of bounds"
  },
  {
   "property": "C55",
   "status": "partial",
   "theorems": [
    "Verif.Props.C55_read_partial",
    "Verif.Props.C55_shifted",
    "Verif.Props.Ex55.C55_violated"
   ],
   "note": "The code violates the property: with advection and scalar mobility gradients are stored with stride 2+n and read with stride 2 (C55_shifted states what is read). Proved for all configurations in which both sides use the same stride"
  },
  {
   "property": "C56",
   "status": "proved",
   "theorems": [
    "Verif.Props.C56_balance"
   ],
   "note": "at every quadrature point, any set of relevant order parameters, with sharp, smoothened or no filter; exact arithmetic"
  },
  {
   "property": "C57",
   "status": "proved",
   "theorems": [
    "Verif.Props.C57_sphere",
    "Verif.Props.C57_monotone",
    "Verif.Props.C57_directions",
    "Verif.Props.C57_concentration",
    "Verif.Props.C57_no_order_parameters",
    "Verif.Props.C57_components",
    "Verif.Props.C57_array"
   ],
   "note": "cos is a parameter with its values in [-1,1] and monotonicity as contract. Without order parameters the maximum of an empty range is dereferenced (C57_no_order_parameters)"
  },
  {
   "property": "C58",
   "status": "proved",
   "theorems": [
    "Verif.Props.C58_circle",
    "Verif.Props.C58_hypercube",
    "Verif.Props.C58_cloud"
   ],
   "note": "the colouring of deal.II is a parameter with its contract; with a single order parameter the hypercube puts all grains into it on request"
  },
  {
   "property": "C59",
   "status": "partial",
   "theorems": [
    "Verif.Props.C59_distance",
    "Verif.Props.C59_same_plane_partial",
    "Verif.Props.C59_violated",
    "Verif.Props.C59_nan",
    "Verif.Props.C59_plane_partial"
   ],
   "note": "The code violates the property: the distance of the plane is always taken positive, hence wrong when the centre of the smaller particle lies beyond the plane (C59_violated, all inputs), NaN for nested particles (C59_nan)"
  },
  {
   "property": "C60",
   "status": "partial",
   "theorems": [
    "Verif.Props.C60_particle",
    "Verif.Props.C60_exclusive_partial",
    "Verif.Props.C60_value_partial",
    "Verif.Props.Ex60.C60_inside_violated"
   ],
   "note": "The code violates the property for the interface direction inside with the default buffer (witness). Proved when the buffer exceeds the reach of the interface"
  },
  {
   "property": "C61",
   "status": "partial",
   "theorems": [
    "Verif.Props.C61_frame2",
    "Verif.Props.C61_row2",
    "Verif.Props.C61_frame3_partial",
    "Verif.Props.C61_row3",
    "Verif.Props.C61_collinear",
    "Verif.Props.C61_hole"
   ],
   "note": "Two dimensions: full. Three dimensions: violated when the centres are collinear with the origin (C61_collinear, all inputs): NaN, and the particle vanishes near this contact (C61_hole)"
  },
  {
   "property": "C62",
   "status": "partial",
   "theorems": [
    "Verif.Props.C62_neck_partial"
   ],
   "note": "for contacts with a frame and a plane, i.e. except the cases of C59_nan and C61_collinear"
  },
  {
   "property": "C63",
   "status": "partial",
   "theorems": [
    "Verif.Props.C63_outside",
    "Verif.Props.C63_cut",
    "Verif.Props.C63_edge_distance",
    "Verif.Props.C63_distance",
    "Verif.Props.C63_repeated_vertex",
    "Verif.Props.C63_values",
    "Verif.Props.C63_directions",
    "Verif.Props.C63_opValue",
    "Verif.Props.C63_box"
   ],
   "note": "The code violates the property for contours with repeated vertices: the distance is NaN (C63_repeated_vertex, all inputs with the first point repeated at the end). Proved for all other contours"
  },
  {
   "property": "C64",
   "status": "partial",
   "theorems": [
    "Verif.Props.C64_value",
    "Verif.Props.C64_first",
    "Verif.Props.C64_second",
    "Verif.Props.C64_linearisation",
    "Verif.Props.C64_residual",
    "Verif.Props.C64_apply_undefined",
    "Verif.Props.C64_apply_first_missing",
    "Verif.Props.C64_output_partial",
    "Verif.Props.C64_output_violated",
    "Verif.Props.C64_output_both_violated",
    "Verif.Props.C64_output_undefined"
   ],
   "note": "Energy, derivatives, residual and linearised operator: full. Violated: the operator applying the mixed derivatives reads an uninitialised variable from two order parameters on and skips the first (C64_apply_*, all inputs); the output df writes mixed second derivatives under the names of first ones (C64_output_violated) and runs out of bounds for four or more order parameters (C64_output_undefined)"
  },
  {
   "property": "C65",
   "status": "partial",
   "theorems": [
    "Verif.Props.C65_interpolation",
    "Verif.Props.C65_phase_functions",
    "Verif.Props.C65_potentials_mu",
    "Verif.Props.C65_potentials_phase",
    "Verif.Props.C65_zeta_violated",
    "Verif.Props.C65_phi_partial",
    "Verif.Props.C65_eta_partial",
    "Verif.Props.C65_mu_partial",
    "Verif.Props.C65_mu_violated",
    "Verif.Props.C65_eta_violated"
   ],
   "note": "The code violates the property: zeta and its derivative do not match, the row of mu uses the second derivative of the wrong potential, the gradient terms of the order parameters miss the derivative of kappa, and the linearised operator adds to uninitialised variables (Verif.Props.C65_vmult_undefined). The partial theorems state for each row exactly what the operator is if these variables are zero"
  },
  {
   "property": "C66",
   "status": "partial",
   "theorems": [
    "Verif.Props.C66_shape",
    "Verif.Props.C66_divergences",
    "Verif.Props.C66_concentration_partial",
    "Verif.Props.C66_concentration_violated",
    "Verif.Props.C66_eta_partial",
    "Verif.Props.C66_eta_defect",
    "Verif.Props.C66_numbering_partial",
    "Verif.Props.C66_numbering_violated"
   ],
   "note": "Shape and derivatives with respect to the divergences: full. Concentration: exact for c^2<1, violated for c^2>1 (all inputs). Order parameters: exact where the normal vanishes and the blending factor is not cut; otherwise C66_eta_defect states the missing term. Numbering: invariant for two grains, violated for three (witness)"
  },
  {
   "property": "C67",
   "status": "proved",
   "theorems": [
    "Verif.Props.C67_check",
    "Verif.Props.C67_stale",
    "Verif.Props.C67_precompute"
   ],
   "note": "speeds that are not a number count as violation; unused lanes get the largest number as diameter and do not matter as long as the speeds in them stay below it"
  },
  {
   "property": "C68",
   "status": "partial",
   "theorems": [
    "Verif.Props.C68_filter",
    "Verif.Props.C68_position",
    "Verif.Props.C68_weight_not_outside",
    "Verif.Props.C68_inside_weight_partial",
    "Verif.Props.C68_inside_weight_violated",
    "Verif.Props.C68_intersects",
    "Verif.Props.C68_intersects_violated",
    "Verif.Props.C68_line_plane",
    "Verif.Props.C68_line_plane_none",
    "Verif.Props.C68_between",
    "Verif.Props.C68_guard_violated",
    "Verif.Props.C68_section_value",
    "Verif.Props.C68_clip",
    "Verif.Props.C68_clip_below"
   ],
   "note": "Weights, intersections, sections and clipping: full. The code violates the rest: for boxes with sides of one or more a point slightly below a face counts as inside (relative against absolute tolerance), a cell containing the whole box is not reported as cut, the test |fac|<1 alone accepts points outside of the edge"
  },
  {
   "property": "C69",
   "status": "partial",
   "theorems": [
    "Verif.Props.C69_user_boxes",
    "Verif.Props.C69_filters",
    "Verif.Props.C69_names",
    "Verif.Props.C69_names_distinct",
    "Verif.Props.C69_auto_box",
    "Verif.Props.C69_auto_box_proper_partial",
    "Verif.Props.C69_auto_box_violated"
   ],
   "note": "Selection and naming: full. The code violates the property for the automatic box: the size check counts the padding once, the box is shrunk by it on both sides, so inverted boxes pass (witness)"
  },
  {
   "property": "C70",
   "status": "partial",
   "theorems": [
    "Verif.Props.C70_average",
    "Verif.Props.C70_partition",
    "Verif.Props.C70_inside",
    "Verif.Props.C70_grains_at",
    "Verif.Props.C70_unknown_grain",
    "Verif.Props.C70_symmetric",
    "Verif.Props.C70_box_asymmetric",
    "Verif.Props.C70_isolated_violated"
   ],
   "note": "Proved with the average taken over the grains that have a neighbour; the code leaves out grains without neighbours (C70_isolated_violated). A grain unknown to the tracker throws when a box is used"
  },
  {
   "property": "C71",
   "status": "partial",
   "theorems": [
    "Verif.Props.C71_quality",
    "Verif.Props.C71_partition",
    "Verif.Props.C71_range",
    "Verif.Props.C71_output_partial",
    "Verif.Props.C71_output_violated"
   ],
   "note": "The estimate: full. The output variant is violated as soon as a rank stores a cell of another rank: its entry stays zero and the reported minimum is at most zero for every solution (C71_output_violated, all inputs)"
  },
  {
   "property": "C72",
   "status": "partial",
   "theorems": [
    "Verif.Props.C72_box_partial",
    "Verif.Props.C72_candidate",
    "Verif.Props.C72_no_interface_violated",
    "Verif.Props.C72_solid_missed_violated",
    "Verif.Props.C72_partition_violated"
   ],
   "note": "The code violates the property: solid cells that are not crossed by the interface are skipped, without interface cells the inverted box is returned (all inputs), and the refined points depend on the partition. Proved: the box covers all solid support points of the interface cells of all ranks and is attained"
  },
  {
   "property": "C73",
   "status": "partial",
   "theorems": [
    "Verif.Props.C73_regions",
    "Verif.Props.C73_coarse",
    "Verif.Props.C73_smooth_partial",
    "Verif.Props.C73_smooth_violated"
   ],
   "note": "Local pores and the coarse contour data: full (the stitching across ranks is that of C13). Smooth contour data: exact in serial, violated in parallel since the zeros written by a rank are not exchanged (witness)"
  },
  {
   "property": "C74",
   "status": "partial",
   "theorems": [
    "Verif.Props.C74_point_inside",
    "Verif.Props.C74_scaled",
    "Verif.Props.C74_radii_2d",
    "Verif.Props.C74_radii_3d",
    "Verif.Props.C74_form_violated",
    "Verif.Props.C74_form_origin_violated"
   ],
   "note": "Built from a centre, axes and radii or from moments of inertia: full. The constructor from a quadratic form (not used in production) violates the property: it divides by twice the constant term with the wrong sign, so the radii are right only if the squared centre distance in the form equals two (C74_form_violated, all inputs)"
  },
  {
   "property": "C75",
   "status": "partial",
   "theorems": [
    "Verif.Props.C75_attained_partial",
    "Verif.Props.C75_symmetric",
    "Verif.Props.C75_coinciding",
    "Verif.Props.C75_spheres",
    "Verif.Props.Ex75.C75_violated"
   ],
   "note": "Proved: the result is always the distance of two points of the ellipsoids found within the allowed iterations, it is symmetric, zero for equal centres and exact for separate spheres. Violated: crossing needles are reported more than 0.99 apart although they intersect (witness), since the first iterate already meets the convergence criterion"
  },
  {
   "property": "C76",
   "status": "partial",
   "theorems": [
    "Verif.Props.C76_encloses_partial",
    "Verif.Props.C76_barycenter",
    "Verif.Props.C76_degenerate_violated",
    "Verif.Props.Ex76.C76_centred_violated"
   ],
   "note": "Enclosure: proved for ellipsoids with positive radii and cells not centred at the particle centre, over all ranks. Violated for cells centred at the centre of the particle (skipped) and for vanishing moments (no ellipsoid)"
  },
  {
   "property": "C77",
   "status": "proved",
   "theorems": [
    "Verif.Props.C77_axes",
    "Verif.Props.C77_global",
    "Verif.Props.C77_quaternions"
   ],
   "note": "Full, for right-handed orthonormal frames"
  },
  {
   "property": "C78",
   "status": "partial",
   "theorems": [
    "Verif.Props.C78_block",
    "Verif.Props.C78_vector_partial",
    "Verif.Props.C78_interleaved_violated"
   ],
   "note": "Block vectors and vectors with one component: full. For several components stored together the code violates the property: the last loop steps through constrained indices as if they were not interleaved and overwrites entries of source and destination with those of other unknowns (all inputs)"
  },
  {
   "property": "C79",
   "status": "proved",
   "theorems": [
    "Verif.Props.C79_split",
    "Verif.Props.C79_merge",
    "Verif.Props.C79_round_trip",
    "Verif.Props.C79_undefined"
   ],
   "note": "Full, for any grouping of blocks; sizes that are not multiples read out of range, an outcome of the model of its own"
  },
  {
   "property": "C80",
   "status": "partial",
   "theorems": [
    "Verif.Props.C80_destination_partial",
    "Verif.Props.C80_zero_indices",
    "Verif.Props.C80_source_violated",
    "Verif.Props.C80_twice_violated",
    "Verif.Props.C80_interleaved_violated",
    "Verif.Props.C80_matrix_violated"
   ],
   "note": "Proved for the destination of the matrix-free block variant with indices listed once. Violated: the source loses its entries at points with small concentration, an index listed twice (as clamp_domain does, C84) gives a zero row, the interleaved and the matrix-based variants give zero rows (all inputs)"
  },
  {
   "property": "C81",
   "status": "proved",
   "theorems": [
    "Verif.Props.C81_domain",
    "Verif.Props.C81_cell"
   ],
   "note": "Full"
  },
  {
   "property": "C82",
   "status": "partial",
   "theorems": [
    "Verif.Props.C82_voigt",
    "Verif.Props.C82_plane_strain",
    "Verif.Props.C82_plane_stress",
    "Verif.Props.C82_space_partial",
    "Verif.Props.C82_none_partial",
    "Verif.Props.C82_rotation_violated",
    "Verif.Props.C82_rotation_plane",
    "Verif.Props.C82_reciprocal",
    "Verif.Props.C82_energy",
    "Verif.Props.C82_fraction"
   ],
   "note": "Plane strain and plane stress: full, against Hooke's law in space. In space, and in the plane without plane type, the law is right for symmetric tensors only; the operators pass the displacement gradient, so rotations cause stress (C82_rotation_violated, all inputs). Energy for non-negative Poisson's ratio below one half"
  },
  {
   "property": "C83",
   "status": "partial",
   "theorems": [
    "Verif.Props.C83_applied_partial",
    "Verif.Props.C83_not_linear_violated",
    "Verif.Props.C83_zero_rows_violated",
    "Verif.Props.C83_residual_violated",
    "Verif.Props.C83_residual_free",
    "Verif.Props.C83_attach"
   ],
   "note": "The code violates the property: prescribed values are written to the destination, so the operator is not linear (values not zero) or has zero rows (values zero), and the residual is the prescribed value whatever the displacement (all inputs). Proved: the entries of all other unknowns, and which unknowns are prescribed"
  },
  {
   "property": "C84",
   "status": "partial",
   "theorems": [
    "Verif.Props.C84_section",
    "Verif.Props.C84_particle",
    "Verif.Props.C84_translation_violated",
    "Verif.Props.C84_rotation_violated",
    "Verif.Props.C84_plane_partial",
    "Verif.Props.C84_space_partial",
    "Verif.Props.C84_domain",
    "Verif.Props.C84_domain_violated",
    "Verif.Props.C84_mask_violated",
    "Verif.Props.Ex84.C84_section_violated",
    "Verif.Props.Ex84.C84_partition_violated"
   ],
   "note": "Proved: which unknowns are constrained, and that no rigid motion remains if the sections contain enough unknowns. Violated: translations along the one direction not requested, rotations about the only direction requested (all inputs); the mask of directions is not initialised; clamp_domain lists shared unknowns repeatedly; on locally refined meshes faces across the section count as part of it; within a particle the constraints depend on the partition (witnesses)"
  },
  {
   "property": "C85",
   "status": "partial",
   "theorems": [
    "Verif.Props.C85_owner",
    "Verif.Props.C85_vertex",
    "Verif.Props.C85_nearest",
    "Verif.Props.C85_growing_partial",
    "Verif.Props.C85_primary",
    "Verif.Props.Ex85.C85_growing_violated"
   ],
   "note": "Rank, vertex, largest particle and nearest segment: full. The preference for growing grains is violated: the segment visited first is kept unless a nearer one grows at least as fast, so the result depends on the order of the grains (witness)"
  },
  {
   "property": "C86",
   "status": "partial",
   "theorems": [
    "Verif.Props.C86_ch",
    "Verif.Props.C86_ac_rows",
    "Verif.Props.C86_ac_partial",
    "Verif.Props.C86_ac_violated",
    "Verif.Props.C86_single_violated",
    "Verif.Props.C86_blocked"
   ],
   "note": "Cahn-Hilliard block and blocked Allen-Cahn with approximation all: full (scalar mobility). Allen-Cahn block without velocities: full for two or more order parameters. Violated: with velocities every advection term takes the increment of the first order parameter (all inputs); one order parameter throws"
  },
  {
   "property": "C87",
   "status": "partial",
   "theorems": [
    "Verif.Props.C87_mean",
    "Verif.Props.C87_largest",
    "Verif.Props.C87_labels_violated",
    "Verif.Props.C87_accepted",
    "Verif.Props.C87_drop",
    "Verif.Props.C87_drop_symmetric",
    "Verif.Props.C87_diagonal",
    "Verif.Props.C87_inactive"
   ],
   "note": "Violated: label max computes the mean, label avg the entry of largest absolute value. All other parts of the claim are proved"
  },
  {
   "property": "C88",
   "status": "partial",
   "theorems": [
    "Verif.Props.C88_plain",
    "Verif.Props.C88_solid",
    "Verif.Props.C88_short",
    "Verif.Props.C88_blockwise",
    "Verif.Props.C88_amg_violated",
    "Verif.Props.C88_ilu_single",
    "Verif.Props.C88_ilu_violated",
    "Verif.Props.C88_ilu_grown_violated"
   ],
   "note": "Distribution to the parts and one matrix per block: full. Violated: BlockAMG with one matrix for all order parameters leaves the array (all inputs with two or more blocks), BlockILU rejects 20 blocks or more, BlockILU constructed for one order parameter cannot be updated for more"
  },
  {
   "property": "C89",
   "status": "proved",
   "theorems": [
    "Verif.Props.C89_identity",
    "Verif.Props.C89_symmetric",
    "Verif.Props.C89_positive",
    "Verif.Props.C89_partition",
    "Verif.Props.C89_ghost",
    "Verif.Props.C89_point"
   ],
   "note": "Square root as a parameter with its contract; inverses of the blocks as parameters"
  },
  {
   "property": "C90",
   "status": "partial",
   "theorems": [
    "Verif.Props.C90_point",
    "Verif.Props.C90_amg_violated",
    "Verif.Props.C90_amg_partial"
   ],
   "note": "InverseComponentBlockDiagonalMatrix: full. AMG, ILU and IC: only if cleared after every change of the system; without clear an update keeps the old work vectors (all sizes)"
  },
  {
   "property": "C91",
   "status": "partial",
   "theorems": [
    "Verif.Props.C91_result",
    "Verif.Props.C91_fallback",
    "Verif.Props.C91_limit_partial",
    "Verif.Props.C91_limit_violated",
    "Verif.Props.C91_steps_partial",
    "Verif.Props.C91_steps_violated",
    "Verif.Props.C91_plain",
    "Verif.Props.C91_labels",
    "Verif.Props.C91_kinds",
    "Verif.Props.C91_orthogonalization"
   ],
   "note": "Violated: another exception leaves the limit of Bicgstab in the control; if Bicgstab gives up early too many steps are reported"
  },
  {
   "property": "C92",
   "status": "partial",
   "theorems": [
    "Verif.Props.C92_step",
    "Verif.Props.C92_vmult_partial",
    "Verif.Props.C92_affine",
    "Verif.Props.C92_plain",
    "Verif.Props.C92_fallback",
    "Verif.Props.C92_violated",
    "Verif.Props.C92_modes"
   ],
   "note": "For operators that take pre and post operations, with and without advection, for all schedules that keep the contract of the cell loop: full (exact arithmetic). Violated for the wrapper of operators that take none: it passes the range of cell batches as a range of vector entries"
  },
  {
   "property": "C93",
   "status": "partial",
   "theorems": [
    "Verif.Props.C93_entries",
    "Verif.Props.C93_affine_partial",
    "Verif.Props.C93_stale_violated"
   ],
   "note": "First use: within the tolerance, except that small diagonal entries become one. Violated from the second use on: the matrix is not cleared and small derivatives leave the old entry"
  },
  {
   "property": "C94",
   "status": "partial",
   "theorems": [
    "Verif.Props.C94_bits_partial",
    "Verif.Props.C94_sign_violated",
    "Verif.Props.C94_any",
    "Verif.Props.C94_zero"
   ],
   "note": "Bits 1 to 31: full. Bit 32 can be given but is never reported"
  },
  {
   "property": "C95",
   "status": "partial",
   "theorems": [
    "Verif.Props.C95_plain",
    "Verif.Props.C95_quoted_violated",
    "Verif.Props.C95_other",
    "Verif.Props.C95_refused",
    "Verif.Props.C95_middle_violated",
    "Verif.Props.C95_order"
   ],
   "note": "Options without quotes, files, order: full. Violated: the closing quote becomes part of the value; arguments that are no options are ignored silently after the first; text before a second -- is ignored"
  },
  {
   "property": "C96",
   "status": "proved",
   "theorems": [
    "Verif.Props.C96"
   ],
   "note": "One thread"
  },
  {
   "property": "C97",
   "status": "proved",
   "theorems": [
    "Verif.Props.C97_table",
    "Verif.Props.C97_lists",
    "Verif.Props.C97_edges",
    "Verif.Props.C97_faces",
    "Verif.Props.C97_weight"
   ],
   "note": "Numbering of lines by deal.II and one level of difference at edges (2:1 balance of p4est) as contracts"
  },
  {
   "property": "C98",
   "status": "partial",
   "theorems": [
    "Verif.Props.C98_scalar_partial",
    "Verif.Props.C98_nothing_lost_partial",
    "Verif.Props.C98_violated",
    "Verif.Props.C98_components",
    "Verif.Props.C98_numbering_partial",
    "Verif.Props.C98_numbering_violated"
   ],
   "note": "Shape functions without negative values whose gradient vanishes where they vanish at quadrature points, one shape function per object and component: full. Violated otherwise: cancellation, quadrature at the nodes, numbering of FESystem for two or more shape functions per line (contract of deal.II)"
  },
  {
   "property": "C99",
   "status": "partial",
   "theorems": [
    "Verif.Props.C99_read_partial",
    "Verif.Props.C99_domain",
    "Verif.Props.C99_gaps",
    "Verif.Props.C99_odd_violated",
    "Verif.Props.C99_rows_violated",
    "Verif.Props.C99_missing_violated"
   ],
   "note": "Files of the documented form with order parameters numbered from zero without gaps: full; gaps make op_value throw out_of_range (C99_gaps). Violated otherwise: an odd number of values reads beyond the row, more contours than order parameters is undefined, fewer contours are accepted and the domain is then undefined; the number in the first line is ignored"
  }
 ]
}