import Verif.Model.Res
import Verif.Model.BaseTools

/-!
# Parameters of the program: what is declared and what a run sets

`applications/sintering/include/pf-applications/sintering/parameters.h` (`Parameters`): the members and their initial values, the declarations of
`add_parameters`, and `parse`, `set`, `check` as they are called by `parse_params` (module `BaseTools`).

`dealii::ParameterHandler` is outside of the repository. It is modelled by what the code relies on: `add_parameter` binds a path (the open
subsections and the name) to a member and a pattern; a value given for a declared path has to match the pattern and is then stored in the member;
`Patterns::Selection` accepts exactly the listed texts; the other patterns are a parameter `reads`. A member holds the text of its value; reading the
text as a number or a list is not modelled. The syntax of files is a parameter `content`. With `skip_undefined` (the third argument of `parse_input`)
entries with an undeclared path are left out.
-/

namespace Verif.Params

open Verif.BaseTools (Call)

/-- Types of the members. -/
inductive Kind where
  | boolean | natural | integer | real | text | other
deriving DecidableEq

structure Member where
  name : List String
  kind : Kind
deriving DecidableEq

/-- Calls on `prm`; `sel` are the alternatives of `Patterns::Selection` if it is given. -/
inductive Op where
  | enter (section_ : String)
  | leave
  | add (name : String) (member : List String) (sel : Option (List String))

/-- The data of the program, `parameters.h:32-318` with `preconditioner_parameters.h:22-64`, `solvers_nonlinear_parameters.h:23-68`,
`solvers_linear_parameters.h:22-25`, `time_integrator_parameters.h:24-41`, `arkode_parameters.h:22-30`: every scalar, text or container in the structs,
with the kind of its type. -/
def members : List Member :=
  [ ⟨["approximation_data", "fe_degree"], .natural⟩
  , ⟨["approximation_data", "n_subdivisions"], .natural⟩
  , ⟨["approximation_data", "n_points_1D"], .natural⟩
  , ⟨["geometry_data", "divisions_per_interface"], .real⟩
  , ⟨["geometry_data", "boundary_factor"], .real⟩
  , ⟨["geometry_data", "interface_width"], .real⟩
  , ⟨["geometry_data", "interface_direction"], .text⟩
  , ⟨["geometry_data", "minimize_order_parameters"], .boolean⟩
  , ⟨["geometry_data", "interface_buffer_ratio"], .real⟩
  , ⟨["geometry_data", "radius_buffer_ratio"], .real⟩
  , ⟨["geometry_data", "periodic"], .boolean⟩
  , ⟨["geometry_data", "custom_bounding_box"], .boolean⟩
  , ⟨["geometry_data", "max_prime"], .natural⟩
  , ⟨["geometry_data", "global_refinement"], .text⟩
  , ⟨["geometry_data", "initial_mesh"], .text⟩
  , ⟨["geometry_data", "accumulative"], .boolean⟩
  , ⟨["geometry_data", "max_level0_divisions_per_interface"], .real⟩
  , ⟨["geometry_data", "bounding_box_data", "x_min"], .real⟩
  , ⟨["geometry_data", "bounding_box_data", "x_max"], .real⟩
  , ⟨["geometry_data", "bounding_box_data", "y_min"], .real⟩
  , ⟨["geometry_data", "bounding_box_data", "y_max"], .real⟩
  , ⟨["geometry_data", "bounding_box_data", "z_min"], .real⟩
  , ⟨["geometry_data", "bounding_box_data", "z_max"], .real⟩
  , ⟨["geometry_data", "divisions_data", "nx"], .natural⟩
  , ⟨["geometry_data", "divisions_data", "ny"], .natural⟩
  , ⟨["geometry_data", "divisions_data", "nz"], .natural⟩
  , ⟨["geometry_data", "divisions_data", "n_refinements"], .natural⟩
  , ⟨["geometry_data", "hanging_node_weight"], .real⟩
  , ⟨["adaptivity_data", "top_fraction_of_cells"], .real⟩
  , ⟨["adaptivity_data", "bottom_fraction_of_cells"], .real⟩
  , ⟨["adaptivity_data", "min_refinement_depth"], .natural⟩
  , ⟨["adaptivity_data", "max_refinement_depth"], .natural⟩
  , ⟨["adaptivity_data", "refinement_frequency"], .natural⟩
  , ⟨["adaptivity_data", "extra_coarsening"], .boolean⟩
  , ⟨["adaptivity_data", "interface_val_min"], .real⟩
  , ⟨["adaptivity_data", "interface_val_max"], .real⟩
  , ⟨["adaptivity_data", "quality_control"], .boolean⟩
  , ⟨["adaptivity_data", "auto_quality_min"], .boolean⟩
  , ⟨["adaptivity_data", "auto_quality_initial_factor"], .real⟩
  , ⟨["adaptivity_data", "quality_min"], .real⟩
  , ⟨["grain_tracker_data", "threshold_lower"], .real⟩
  , ⟨["grain_tracker_data", "threshold_new_grains"], .real⟩
  , ⟨["grain_tracker_data", "buffer_distance_ratio"], .real⟩
  , ⟨["grain_tracker_data", "buffer_distance_fixed"], .real⟩
  , ⟨["grain_tracker_data", "grain_tracker_frequency"], .natural⟩
  , ⟨["grain_tracker_data", "verbosity"], .natural⟩
  , ⟨["grain_tracker_data", "fast_reassignment"], .boolean⟩
  , ⟨["grain_tracker_data", "track_with_quality"], .boolean⟩
  , ⟨["grain_tracker_data", "use_old_remap"], .boolean⟩
  , ⟨["grain_tracker_data", "check_inconsistency"], .boolean⟩
  , ⟨["grain_tracker_data", "grain_representation"], .text⟩
  , ⟨["material_data", "type"], .text⟩
  , ⟨["material_data", "time_scale"], .real⟩
  , ⟨["material_data", "length_scale"], .real⟩
  , ⟨["material_data", "energy_scale"], .real⟩
  , ⟨["material_data", "temperature"], .other⟩
  , ⟨["material_data", "energy_abstract_data", "A"], .real⟩
  , ⟨["material_data", "energy_abstract_data", "B"], .real⟩
  , ⟨["material_data", "energy_abstract_data", "kappa_c"], .real⟩
  , ⟨["material_data", "energy_abstract_data", "kappa_p"], .real⟩
  , ⟨["material_data", "energy_realistic_data", "surface_energy"], .real⟩
  , ⟨["material_data", "energy_realistic_data", "grain_boundary_energy"], .real⟩
  , ⟨["material_data", "mobility_abstract_data", "Mvol"], .real⟩
  , ⟨["material_data", "mobility_abstract_data", "Mvap"], .real⟩
  , ⟨["material_data", "mobility_abstract_data", "Msurf"], .real⟩
  , ⟨["material_data", "mobility_abstract_data", "Mgb"], .real⟩
  , ⟨["material_data", "mobility_abstract_data", "L"], .real⟩
  , ⟨["material_data", "mobility_realistic_data", "omega"], .real⟩
  , ⟨["material_data", "mobility_realistic_data", "D_vol0"], .real⟩
  , ⟨["material_data", "mobility_realistic_data", "D_vap0"], .real⟩
  , ⟨["material_data", "mobility_realistic_data", "D_surf0"], .real⟩
  , ⟨["material_data", "mobility_realistic_data", "D_gb0"], .real⟩
  , ⟨["material_data", "mobility_realistic_data", "Q_vol"], .real⟩
  , ⟨["material_data", "mobility_realistic_data", "Q_vap"], .real⟩
  , ⟨["material_data", "mobility_realistic_data", "Q_surf"], .real⟩
  , ⟨["material_data", "mobility_realistic_data", "Q_gb"], .real⟩
  , ⟨["material_data", "mobility_realistic_data", "D_gb_mob0"], .real⟩
  , ⟨["material_data", "mobility_realistic_data", "Q_gb_mob"], .real⟩
  , ⟨["material_data", "mobility_realistic_data", "arrhenius_unit"], .text⟩
  , ⟨["material_data", "mechanics_data", "E"], .real⟩
  , ⟨["material_data", "mechanics_data", "nu"], .real⟩
  , ⟨["material_data", "mechanics_data", "plane_type"], .text⟩
  , ⟨["material_data", "mechanics_data", "c_min"], .real⟩
  , ⟨["advection_data", "enable"], .boolean⟩
  , ⟨["advection_data", "k"], .real⟩
  , ⟨["advection_data", "mt"], .real⟩
  , ⟨["advection_data", "mr"], .real⟩
  , ⟨["advection_data", "cgb"], .real⟩
  , ⟨["advection_data", "ceq"], .real⟩
  , ⟨["advection_data", "smoothening"], .real⟩
  , ⟨["advection_data", "check_courant"], .boolean⟩
  , ⟨["advection_data", "weighted_forces"], .boolean⟩
  , ⟨["boundary_conditions", "type"], .text⟩
  , ⟨["boundary_conditions", "direction"], .other⟩
  , ⟨["boundary_conditions", "prefer_growing"], .boolean⟩
  , ⟨["boundary_conditions", "use_barycenter"], .boolean⟩
  , ⟨["time_integration_data", "integration_scheme"], .text⟩
  , ⟨["time_integration_data", "predictor"], .text⟩
  , ⟨["time_integration_data", "time_start"], .real⟩
  , ⟨["time_integration_data", "time_end"], .real⟩
  , ⟨["time_integration_data", "time_step_init"], .real⟩
  , ⟨["time_integration_data", "time_step_min"], .real⟩
  , ⟨["time_integration_data", "time_step_max"], .real⟩
  , ⟨["time_integration_data", "growth_factor"], .real⟩
  , ⟨["time_integration_data", "desirable_newton_iterations"], .natural⟩
  , ⟨["time_integration_data", "desirable_linear_iterations"], .natural⟩
  , ⟨["time_integration_data", "sanity_check_predictor"], .boolean⟩
  , ⟨["time_integration_data", "sanity_check_solution"], .boolean⟩
  , ⟨["time_integration_data", "arkode_data", "maximum_order"], .natural⟩
  , ⟨["time_integration_data", "arkode_data", "explicit_method_name"], .text⟩
  , ⟨["time_integration_data", "arkode_data", "implicit_method_name"], .text⟩
  , ⟨["time_integration_data", "arkode_data", "time_step_size_adaptive"], .boolean⟩
  , ⟨["time_integration_data", "arkode_data", "absolute_tolerance"], .real⟩
  , ⟨["time_integration_data", "arkode_data", "relative_tolerance"], .real⟩
  , ⟨["output_data", "regular"], .boolean⟩
  , ⟨["output_data", "contours"], .boolean⟩
  , ⟨["output_data", "contours_tex"], .boolean⟩
  , ⟨["output_data", "n_coarsening_steps"], .natural⟩
  , ⟨["output_data", "n_mca_subdivisions"], .natural⟩
  , ⟨["output_data", "porosity"], .boolean⟩
  , ⟨["output_data", "porosity_contours"], .boolean⟩
  , ⟨["output_data", "porosity_smooth"], .boolean⟩
  , ⟨["output_data", "porosity_stats"], .boolean⟩
  , ⟨["output_data", "porosity_max_value"], .real⟩
  , ⟨["output_data", "shrinkage"], .boolean⟩
  , ⟨["output_data", "shrinkage_intervals"], .natural⟩
  , ⟨["output_data", "grains_stats"], .boolean⟩
  , ⟨["output_data", "quality"], .boolean⟩
  , ⟨["output_data", "table"], .boolean⟩
  , ⟨["output_data", "debug"], .boolean⟩
  , ⟨["output_data", "higher_order_cells"], .boolean⟩
  , ⟨["output_data", "fluxes_divergences"], .boolean⟩
  , ⟨["output_data", "concentration_contour"], .boolean⟩
  , ⟨["output_data", "coordination_number"], .boolean⟩
  , ⟨["output_data", "grains_as_spheres"], .boolean⟩
  , ⟨["output_data", "particle_indices"], .boolean⟩
  , ⟨["output_data", "output_time_interval"], .real⟩
  , ⟨["output_data", "vtk_path"], .text⟩
  , ⟨["output_data", "fields"], .other⟩
  , ⟨["output_data", "mesh_overhead_estimate"], .boolean⟩
  , ⟨["output_data", "only_control_boxes"], .boolean⟩
  , ⟨["output_data", "domain_integrals"], .other⟩
  , ⟨["output_data", "grain_boundaries"], .boolean⟩
  , ⟨["output_data", "iso_surf_area"], .boolean⟩
  , ⟨["output_data", "iso_gb_area"], .boolean⟩
  , ⟨["output_data", "quality_min"], .boolean⟩
  , ⟨["output_data", "gb_threshold"], .real⟩
  , ⟨["output_data", "auto_control_box"], .boolean⟩
  , ⟨["output_data", "box_rel_padding"], .real⟩
  , ⟨["output_data", "control_boxes"], .other⟩
  , ⟨["output_data", "sections"], .other⟩
  , ⟨["restart_data", "prefix"], .text⟩
  , ⟨["restart_data", "type"], .text⟩
  , ⟨["restart_data", "interval"], .real⟩
  , ⟨["restart_data", "max_output"], .natural⟩
  , ⟨["restart_data", "flexible_output"], .boolean⟩
  , ⟨["restart_data", "full_history"], .boolean⟩
  , ⟨["preconditioners_data", "outer", "type"], .text⟩
  , ⟨["preconditioners_data", "outer", "amg_data", "smoother_sweeps"], .natural⟩
  , ⟨["preconditioners_data", "outer", "amg_data", "n_cycles"], .natural⟩
  , ⟨["preconditioners_data", "outer", "ilu_data", "ilu_fill"], .natural⟩
  , ⟨["preconditioners_data", "outer", "ilu_data", "ilu_atol"], .real⟩
  , ⟨["preconditioners_data", "outer", "ilu_data", "ilu_rtol"], .real⟩
  , ⟨["preconditioners_data", "outer", "ilu_data", "overlap"], .natural⟩
  , ⟨["preconditioners_data", "outer", "ic_data", "ic_fill"], .natural⟩
  , ⟨["preconditioners_data", "outer", "ic_data", "ic_atol"], .real⟩
  , ⟨["preconditioners_data", "outer", "ic_data", "ic_rtol"], .real⟩
  , ⟨["preconditioners_data", "outer", "ic_data", "overlap"], .natural⟩
  , ⟨["preconditioners_data", "block_preconditioner_2_data", "block_0", "type"], .text⟩
  , ⟨["preconditioners_data", "block_preconditioner_2_data", "block_0", "amg_data", "smoother_sweeps"], .natural⟩
  , ⟨["preconditioners_data", "block_preconditioner_2_data", "block_0", "amg_data", "n_cycles"], .natural⟩
  , ⟨["preconditioners_data", "block_preconditioner_2_data", "block_0", "ilu_data", "ilu_fill"], .natural⟩
  , ⟨["preconditioners_data", "block_preconditioner_2_data", "block_0", "ilu_data", "ilu_atol"], .real⟩
  , ⟨["preconditioners_data", "block_preconditioner_2_data", "block_0", "ilu_data", "ilu_rtol"], .real⟩
  , ⟨["preconditioners_data", "block_preconditioner_2_data", "block_0", "ilu_data", "overlap"], .natural⟩
  , ⟨["preconditioners_data", "block_preconditioner_2_data", "block_0", "ic_data", "ic_fill"], .natural⟩
  , ⟨["preconditioners_data", "block_preconditioner_2_data", "block_0", "ic_data", "ic_atol"], .real⟩
  , ⟨["preconditioners_data", "block_preconditioner_2_data", "block_0", "ic_data", "ic_rtol"], .real⟩
  , ⟨["preconditioners_data", "block_preconditioner_2_data", "block_0", "ic_data", "overlap"], .natural⟩
  , ⟨["preconditioners_data", "block_preconditioner_2_data", "block_1", "type"], .text⟩
  , ⟨["preconditioners_data", "block_preconditioner_2_data", "block_1", "amg_data", "smoother_sweeps"], .natural⟩
  , ⟨["preconditioners_data", "block_preconditioner_2_data", "block_1", "amg_data", "n_cycles"], .natural⟩
  , ⟨["preconditioners_data", "block_preconditioner_2_data", "block_1", "ilu_data", "ilu_fill"], .natural⟩
  , ⟨["preconditioners_data", "block_preconditioner_2_data", "block_1", "ilu_data", "ilu_atol"], .real⟩
  , ⟨["preconditioners_data", "block_preconditioner_2_data", "block_1", "ilu_data", "ilu_rtol"], .real⟩
  , ⟨["preconditioners_data", "block_preconditioner_2_data", "block_1", "ilu_data", "overlap"], .natural⟩
  , ⟨["preconditioners_data", "block_preconditioner_2_data", "block_1", "ic_data", "ic_fill"], .natural⟩
  , ⟨["preconditioners_data", "block_preconditioner_2_data", "block_1", "ic_data", "ic_atol"], .real⟩
  , ⟨["preconditioners_data", "block_preconditioner_2_data", "block_1", "ic_data", "ic_rtol"], .real⟩
  , ⟨["preconditioners_data", "block_preconditioner_2_data", "block_1", "ic_data", "overlap"], .natural⟩
  , ⟨["preconditioners_data", "block_preconditioner_2_data", "block_2", "type"], .text⟩
  , ⟨["preconditioners_data", "block_preconditioner_2_data", "block_2", "amg_data", "smoother_sweeps"], .natural⟩
  , ⟨["preconditioners_data", "block_preconditioner_2_data", "block_2", "amg_data", "n_cycles"], .natural⟩
  , ⟨["preconditioners_data", "block_preconditioner_2_data", "block_2", "ilu_data", "ilu_fill"], .natural⟩
  , ⟨["preconditioners_data", "block_preconditioner_2_data", "block_2", "ilu_data", "ilu_atol"], .real⟩
  , ⟨["preconditioners_data", "block_preconditioner_2_data", "block_2", "ilu_data", "ilu_rtol"], .real⟩
  , ⟨["preconditioners_data", "block_preconditioner_2_data", "block_2", "ilu_data", "overlap"], .natural⟩
  , ⟨["preconditioners_data", "block_preconditioner_2_data", "block_2", "ic_data", "ic_fill"], .natural⟩
  , ⟨["preconditioners_data", "block_preconditioner_2_data", "block_2", "ic_data", "ic_atol"], .real⟩
  , ⟨["preconditioners_data", "block_preconditioner_2_data", "block_2", "ic_data", "ic_rtol"], .real⟩
  , ⟨["preconditioners_data", "block_preconditioner_2_data", "block_2", "ic_data", "overlap"], .natural⟩
  , ⟨["preconditioners_data", "block_preconditioner_2_data", "block_1_approximation"], .text⟩
  , ⟨["profiling_data", "run_vmults"], .boolean⟩
  , ⟨["profiling_data", "output_time_interval"], .real⟩
  , ⟨["profiling_data", "output_memory_consumption"], .boolean⟩
  , ⟨["nonlinear_data", "nl_max_iter"], .integer⟩
  , ⟨["nonlinear_data", "nl_abs_tol"], .real⟩
  , ⟨["nonlinear_data", "nl_rel_tol"], .real⟩
  , ⟨["nonlinear_data", "l_max_iter"], .integer⟩
  , ⟨["nonlinear_data", "l_abs_tol"], .real⟩
  , ⟨["nonlinear_data", "l_rel_tol"], .real⟩
  , ⟨["nonlinear_data", "l_solver"], .text⟩
  , ⟨["nonlinear_data", "l_bisgstab_tries"], .natural⟩
  , ⟨["nonlinear_data", "newton_do_update"], .boolean⟩
  , ⟨["nonlinear_data", "newton_threshold_newton_iter"], .natural⟩
  , ⟨["nonlinear_data", "newton_threshold_linear_iter"], .natural⟩
  , ⟨["nonlinear_data", "newton_reuse_preconditioner"], .boolean⟩
  , ⟨["nonlinear_data", "newton_use_damping"], .boolean⟩
  , ⟨["nonlinear_data", "nonlinear_solver_type"], .text⟩
  , ⟨["nonlinear_data", "fdm_jacobian_approximation"], .boolean⟩
  , ⟨["nonlinear_data", "fdm_precond_system_approximation"], .boolean⟩
  , ⟨["nonlinear_data", "jacobi_free"], .boolean⟩
  , ⟨["nonlinear_data", "verbosity"], .natural⟩
  , ⟨["nonlinear_data", "nox_data", "output_information"], .integer⟩
  , ⟨["nonlinear_data", "nox_data", "direction_method"], .text⟩
  , ⟨["nonlinear_data", "nox_data", "line_search_method"], .text⟩
  , ⟨["nonlinear_data", "nox_data", "line_search_interpolation_type"], .text⟩
  , ⟨["nonlinear_data", "nox_data", "nonlinear_solver"], .text⟩
  , ⟨["nonlinear_data", "snes_data", "solver_name"], .text⟩
  , ⟨["nonlinear_data", "snes_data", "line_search_name"], .text⟩
  , ⟨["nonlinear_data", "gmres_data", "orthogonalization_strategy"], .text⟩
  , ⟨["matrix_based"], .boolean⟩
  , ⟨["grain_cut_off_tolerance"], .real⟩
  , ⟨["use_tensorial_mobility_gradient_on_the_fly"], .boolean⟩
  , ⟨["print_time_loop"], .boolean⟩ ]

/-- The same files: the initialisers of the scalars and texts, as they are written (containers are left out). -/
def initial : List (List String × String) :=
  [ (["approximation_data", "fe_degree"], "1")
  , (["approximation_data", "n_subdivisions"], "1")
  , (["approximation_data", "n_points_1D"], "2")
  , (["geometry_data", "divisions_per_interface"], "4")
  , (["geometry_data", "boundary_factor"], "0.5")
  , (["geometry_data", "interface_width"], "2.0")
  , (["geometry_data", "interface_direction"], "Middle")
  , (["geometry_data", "minimize_order_parameters"], "true")
  , (["geometry_data", "interface_buffer_ratio"], "1.0")
  , (["geometry_data", "radius_buffer_ratio"], "0.0")
  , (["geometry_data", "periodic"], "false")
  , (["geometry_data", "custom_bounding_box"], "false")
  , (["geometry_data", "max_prime"], "20")
  , (["geometry_data", "global_refinement"], "None")
  , (["geometry_data", "initial_mesh"], "Interface")
  , (["geometry_data", "accumulative"], "false")
  , (["geometry_data", "max_level0_divisions_per_interface"], "1.0 - 1e-9")
  , (["geometry_data", "bounding_box_data", "x_min"], "0")
  , (["geometry_data", "bounding_box_data", "x_max"], "0")
  , (["geometry_data", "bounding_box_data", "y_min"], "0")
  , (["geometry_data", "bounding_box_data", "y_max"], "0")
  , (["geometry_data", "bounding_box_data", "z_min"], "0")
  , (["geometry_data", "bounding_box_data", "z_max"], "0")
  , (["geometry_data", "divisions_data", "nx"], "0")
  , (["geometry_data", "divisions_data", "ny"], "0")
  , (["geometry_data", "divisions_data", "nz"], "0")
  , (["geometry_data", "divisions_data", "n_refinements"], "0")
  , (["geometry_data", "hanging_node_weight"], "1.0")
  , (["adaptivity_data", "top_fraction_of_cells"], "0.3")
  , (["adaptivity_data", "bottom_fraction_of_cells"], "0.1")
  , (["adaptivity_data", "min_refinement_depth"], "3")
  , (["adaptivity_data", "max_refinement_depth"], "0")
  , (["adaptivity_data", "refinement_frequency"], "10")
  , (["adaptivity_data", "extra_coarsening"], "false")
  , (["adaptivity_data", "interface_val_min"], "0.05")
  , (["adaptivity_data", "interface_val_max"], "0.95")
  , (["adaptivity_data", "quality_control"], "false")
  , (["adaptivity_data", "auto_quality_min"], "true")
  , (["adaptivity_data", "auto_quality_initial_factor"], "0.85")
  , (["adaptivity_data", "quality_min"], "0.5")
  , (["grain_tracker_data", "threshold_lower"], "0.01")
  , (["grain_tracker_data", "threshold_new_grains"], "0.02")
  , (["grain_tracker_data", "buffer_distance_ratio"], "0.05")
  , (["grain_tracker_data", "buffer_distance_fixed"], "0.0")
  , (["grain_tracker_data", "grain_tracker_frequency"], "10")
  , (["grain_tracker_data", "verbosity"], "0")
  , (["grain_tracker_data", "fast_reassignment"], "false")
  , (["grain_tracker_data", "track_with_quality"], "false")
  , (["grain_tracker_data", "use_old_remap"], "false")
  , (["grain_tracker_data", "check_inconsistency"], "false")
  , (["grain_tracker_data", "grain_representation"], "Spherical")
  , (["material_data", "type"], "Abstract")
  , (["material_data", "time_scale"], "1.")
  , (["material_data", "length_scale"], "1.")
  , (["material_data", "energy_scale"], "1.")
  , (["material_data", "energy_abstract_data", "A"], "16")
  , (["material_data", "energy_abstract_data", "B"], "1")
  , (["material_data", "energy_abstract_data", "kappa_c"], "1")
  , (["material_data", "energy_abstract_data", "kappa_p"], "0.5")
  , (["material_data", "energy_realistic_data", "surface_energy"], "0")
  , (["material_data", "energy_realistic_data", "grain_boundary_energy"], "0")
  , (["material_data", "mobility_abstract_data", "Mvol"], "1e-2")
  , (["material_data", "mobility_abstract_data", "Mvap"], "1e-10")
  , (["material_data", "mobility_abstract_data", "Msurf"], "4")
  , (["material_data", "mobility_abstract_data", "Mgb"], "0.4")
  , (["material_data", "mobility_abstract_data", "L"], "1")
  , (["material_data", "mobility_realistic_data", "omega"], "0")
  , (["material_data", "mobility_realistic_data", "D_vol0"], "0")
  , (["material_data", "mobility_realistic_data", "D_vap0"], "0")
  , (["material_data", "mobility_realistic_data", "D_surf0"], "0")
  , (["material_data", "mobility_realistic_data", "D_gb0"], "0")
  , (["material_data", "mobility_realistic_data", "Q_vol"], "0")
  , (["material_data", "mobility_realistic_data", "Q_vap"], "0")
  , (["material_data", "mobility_realistic_data", "Q_surf"], "0")
  , (["material_data", "mobility_realistic_data", "Q_gb"], "0")
  , (["material_data", "mobility_realistic_data", "D_gb_mob0"], "0")
  , (["material_data", "mobility_realistic_data", "Q_gb_mob"], "0")
  , (["material_data", "mobility_realistic_data", "arrhenius_unit"], "Boltzmann")
  , (["material_data", "mechanics_data", "E"], "1.0")
  , (["material_data", "mechanics_data", "nu"], "0.25")
  , (["material_data", "mechanics_data", "plane_type"], "None")
  , (["material_data", "mechanics_data", "c_min"], "0.1")
  , (["advection_data", "enable"], "false")
  , (["advection_data", "k"], "100.")
  , (["advection_data", "mt"], "1.")
  , (["advection_data", "mr"], "1.")
  , (["advection_data", "cgb"], "0.")
  , (["advection_data", "ceq"], "1.")
  , (["advection_data", "smoothening"], "0.")
  , (["advection_data", "check_courant"], "true")
  , (["advection_data", "weighted_forces"], "false")
  , (["boundary_conditions", "type"], "Domain")
  , (["boundary_conditions", "prefer_growing"], "false")
  , (["boundary_conditions", "use_barycenter"], "false")
  , (["time_integration_data", "integration_scheme"], "BDF2")
  , (["time_integration_data", "predictor"], "None")
  , (["time_integration_data", "time_start"], "0")
  , (["time_integration_data", "time_end"], "1e3")
  , (["time_integration_data", "time_step_init"], "1e-3")
  , (["time_integration_data", "time_step_min"], "1e-5")
  , (["time_integration_data", "time_step_max"], "1e2")
  , (["time_integration_data", "growth_factor"], "1.2")
  , (["time_integration_data", "desirable_newton_iterations"], "5")
  , (["time_integration_data", "desirable_linear_iterations"], "100")
  , (["time_integration_data", "sanity_check_predictor"], "false")
  , (["time_integration_data", "sanity_check_solution"], "false")
  , (["time_integration_data", "arkode_data", "maximum_order"], "0")
  , (["time_integration_data", "arkode_data", "explicit_method_name"], "")
  , (["time_integration_data", "arkode_data", "implicit_method_name"], "")
  , (["time_integration_data", "arkode_data", "time_step_size_adaptive"], "true")
  , (["time_integration_data", "arkode_data", "absolute_tolerance"], "1e-6")
  , (["time_integration_data", "arkode_data", "relative_tolerance"], "1e-5")
  , (["output_data", "regular"], "true")
  , (["output_data", "contours"], "true")
  , (["output_data", "contours_tex"], "false")
  , (["output_data", "n_coarsening_steps"], "0")
  , (["output_data", "n_mca_subdivisions"], "1")
  , (["output_data", "porosity"], "false")
  , (["output_data", "porosity_contours"], "false")
  , (["output_data", "porosity_smooth"], "true")
  , (["output_data", "porosity_stats"], "false")
  , (["output_data", "porosity_max_value"], "0.8")
  , (["output_data", "shrinkage"], "false")
  , (["output_data", "shrinkage_intervals"], "20")
  , (["output_data", "grains_stats"], "false")
  , (["output_data", "quality"], "false")
  , (["output_data", "table"], "false")
  , (["output_data", "debug"], "false")
  , (["output_data", "higher_order_cells"], "false")
  , (["output_data", "fluxes_divergences"], "false")
  , (["output_data", "concentration_contour"], "false")
  , (["output_data", "coordination_number"], "false")
  , (["output_data", "grains_as_spheres"], "false")
  , (["output_data", "particle_indices"], "false")
  , (["output_data", "output_time_interval"], "10")
  , (["output_data", "vtk_path"], ".")
  , (["output_data", "mesh_overhead_estimate"], "false")
  , (["output_data", "only_control_boxes"], "false")
  , (["output_data", "grain_boundaries"], "false")
  , (["output_data", "iso_surf_area"], "false")
  , (["output_data", "iso_gb_area"], "false")
  , (["output_data", "quality_min"], "false")
  , (["output_data", "gb_threshold"], "0.14")
  , (["output_data", "auto_control_box"], "false")
  , (["output_data", "box_rel_padding"], "0.05")
  , (["restart_data", "prefix"], "./restart")
  , (["restart_data", "type"], "never")
  , (["restart_data", "interval"], "10.0")
  , (["restart_data", "max_output"], "0")
  , (["restart_data", "flexible_output"], "false")
  , (["restart_data", "full_history"], "true")
  , (["preconditioners_data", "outer", "type"], "BlockPreconditioner2")
  , (["preconditioners_data", "outer", "amg_data", "smoother_sweeps"], "4")
  , (["preconditioners_data", "outer", "amg_data", "n_cycles"], "5")
  , (["preconditioners_data", "outer", "ilu_data", "ilu_fill"], "0")
  , (["preconditioners_data", "outer", "ilu_data", "ilu_atol"], "0.0")
  , (["preconditioners_data", "outer", "ilu_data", "ilu_rtol"], "1.0")
  , (["preconditioners_data", "outer", "ilu_data", "overlap"], "0")
  , (["preconditioners_data", "outer", "ic_data", "ic_fill"], "0")
  , (["preconditioners_data", "outer", "ic_data", "ic_atol"], "0.0")
  , (["preconditioners_data", "outer", "ic_data", "ic_rtol"], "1.0")
  , (["preconditioners_data", "outer", "ic_data", "overlap"], "0")
  , (["preconditioners_data", "block_preconditioner_2_data", "block_0", "type"], "ILU")
  , (["preconditioners_data", "block_preconditioner_2_data", "block_0", "amg_data", "smoother_sweeps"], "4")
  , (["preconditioners_data", "block_preconditioner_2_data", "block_0", "amg_data", "n_cycles"], "5")
  , (["preconditioners_data", "block_preconditioner_2_data", "block_0", "ilu_data", "ilu_fill"], "0")
  , (["preconditioners_data", "block_preconditioner_2_data", "block_0", "ilu_data", "ilu_atol"], "0.0")
  , (["preconditioners_data", "block_preconditioner_2_data", "block_0", "ilu_data", "ilu_rtol"], "1.0")
  , (["preconditioners_data", "block_preconditioner_2_data", "block_0", "ilu_data", "overlap"], "0")
  , (["preconditioners_data", "block_preconditioner_2_data", "block_0", "ic_data", "ic_fill"], "0")
  , (["preconditioners_data", "block_preconditioner_2_data", "block_0", "ic_data", "ic_atol"], "0.0")
  , (["preconditioners_data", "block_preconditioner_2_data", "block_0", "ic_data", "ic_rtol"], "1.0")
  , (["preconditioners_data", "block_preconditioner_2_data", "block_0", "ic_data", "overlap"], "0")
  , (["preconditioners_data", "block_preconditioner_2_data", "block_1", "type"], "InverseDiagonalMatrix")
  , (["preconditioners_data", "block_preconditioner_2_data", "block_1", "amg_data", "smoother_sweeps"], "4")
  , (["preconditioners_data", "block_preconditioner_2_data", "block_1", "amg_data", "n_cycles"], "5")
  , (["preconditioners_data", "block_preconditioner_2_data", "block_1", "ilu_data", "ilu_fill"], "0")
  , (["preconditioners_data", "block_preconditioner_2_data", "block_1", "ilu_data", "ilu_atol"], "0.0")
  , (["preconditioners_data", "block_preconditioner_2_data", "block_1", "ilu_data", "ilu_rtol"], "1.0")
  , (["preconditioners_data", "block_preconditioner_2_data", "block_1", "ilu_data", "overlap"], "0")
  , (["preconditioners_data", "block_preconditioner_2_data", "block_1", "ic_data", "ic_fill"], "0")
  , (["preconditioners_data", "block_preconditioner_2_data", "block_1", "ic_data", "ic_atol"], "0.0")
  , (["preconditioners_data", "block_preconditioner_2_data", "block_1", "ic_data", "ic_rtol"], "1.0")
  , (["preconditioners_data", "block_preconditioner_2_data", "block_1", "ic_data", "overlap"], "0")
  , (["preconditioners_data", "block_preconditioner_2_data", "block_2", "type"], "AMG")
  , (["preconditioners_data", "block_preconditioner_2_data", "block_2", "amg_data", "smoother_sweeps"], "4")
  , (["preconditioners_data", "block_preconditioner_2_data", "block_2", "amg_data", "n_cycles"], "5")
  , (["preconditioners_data", "block_preconditioner_2_data", "block_2", "ilu_data", "ilu_fill"], "0")
  , (["preconditioners_data", "block_preconditioner_2_data", "block_2", "ilu_data", "ilu_atol"], "0.0")
  , (["preconditioners_data", "block_preconditioner_2_data", "block_2", "ilu_data", "ilu_rtol"], "1.0")
  , (["preconditioners_data", "block_preconditioner_2_data", "block_2", "ilu_data", "overlap"], "0")
  , (["preconditioners_data", "block_preconditioner_2_data", "block_2", "ic_data", "ic_fill"], "0")
  , (["preconditioners_data", "block_preconditioner_2_data", "block_2", "ic_data", "ic_atol"], "0.0")
  , (["preconditioners_data", "block_preconditioner_2_data", "block_2", "ic_data", "ic_rtol"], "1.0")
  , (["preconditioners_data", "block_preconditioner_2_data", "block_2", "ic_data", "overlap"], "0")
  , (["preconditioners_data", "block_preconditioner_2_data", "block_1_approximation"], "all")
  , (["profiling_data", "run_vmults"], "false")
  , (["profiling_data", "output_time_interval"], "-1.0")
  , (["profiling_data", "output_memory_consumption"], "false")
  , (["nonlinear_data", "nl_max_iter"], "10")
  , (["nonlinear_data", "nl_abs_tol"], "1.e-20")
  , (["nonlinear_data", "nl_rel_tol"], "1.e-5")
  , (["nonlinear_data", "l_max_iter"], "1000")
  , (["nonlinear_data", "l_abs_tol"], "1.e-10")
  , (["nonlinear_data", "l_rel_tol"], "1.e-2")
  , (["nonlinear_data", "l_solver"], "GMRES")
  , (["nonlinear_data", "l_bisgstab_tries"], "30")
  , (["nonlinear_data", "newton_do_update"], "true")
  , (["nonlinear_data", "newton_threshold_newton_iter"], "100")
  , (["nonlinear_data", "newton_threshold_linear_iter"], "20")
  , (["nonlinear_data", "newton_reuse_preconditioner"], "true")
  , (["nonlinear_data", "newton_use_damping"], "true")
  , (["nonlinear_data", "nonlinear_solver_type"], "damped")
  , (["nonlinear_data", "fdm_jacobian_approximation"], "false")
  , (["nonlinear_data", "fdm_precond_system_approximation"], "false")
  , (["nonlinear_data", "jacobi_free"], "false")
  , (["nonlinear_data", "verbosity"], "1")
  , (["nonlinear_data", "nox_data", "output_information"], "0")
  , (["nonlinear_data", "nox_data", "direction_method"], "Newton")
  , (["nonlinear_data", "nox_data", "line_search_method"], "Full Step")
  , (["nonlinear_data", "nox_data", "line_search_interpolation_type"], "Cubic")
  , (["nonlinear_data", "nox_data", "nonlinear_solver"], "Line Search Based")
  , (["nonlinear_data", "snes_data", "solver_name"], "newtonls")
  , (["nonlinear_data", "snes_data", "line_search_name"], "bt")
  , (["nonlinear_data", "gmres_data", "orthogonalization_strategy"], "classical gram schmidt")
  , (["matrix_based"], "false")
  , (["grain_cut_off_tolerance"], "0.0")
  , (["use_tensorial_mobility_gradient_on_the_fly"], "false")
  , (["print_time_loop"], "true") ]

/-- `parameters.h:1083-1084`. -/
def preconditionerTypes : List String :=
  ["AMG", "BlockAMG", "BlockILU", "InverseBlockDiagonalMatrix", "InverseDiagonalMatrix", "ILU", "InverseComponentBlockDiagonalMatrix", "BlockGMG", "GMG", "Identity", "IC"]

/-- `parameters.h:1086-1122` `add_preconditioner_data`. -/
def preconditionerOps (data : List String) (types : List String) : List Op :=
  [.add "Type" (data ++ ["type"]) (some types)
  , .enter "AMG"
  , .add "SmootherSweeps" (data ++ ["amg_data", "smoother_sweeps"]) none
  , .add "NCycles" (data ++ ["amg_data", "n_cycles"]) none
  , .leave
  , .enter "ILU"
  , .add "ILUFill" (data ++ ["ilu_data", "ilu_fill"]) none
  , .add "ILUAtol" (data ++ ["ilu_data", "ilu_atol"]) none
  , .add "ILURtol" (data ++ ["ilu_data", "ilu_rtol"]) none
  , .add "Overlap" (data ++ ["ilu_data", "overlap"]) none
  , .leave
  , .enter "IC"
  , .add "ICFill" (data ++ ["ic_data", "ic_fill"]) none
  , .add "ICAtol" (data ++ ["ic_data", "ic_atol"]) none
  , .add "ICRtol" (data ++ ["ic_data", "ic_rtol"]) none
  , .add "Overlap" (data ++ ["ic_data", "overlap"]) none
  , .leave]

/-- `parameters.h:418-427`. -/
def opsRoot : List Op :=
  [.add "MatrixBased" ["matrix_based"] none
  , .add "GrainCutOffTolerance" ["grain_cut_off_tolerance"] none
  , .add "TensorialMobilityGradientOnTheFly" ["use_tensorial_mobility_gradient_on_the_fly"] none
  , .add "PrintTimeLoop" ["print_time_loop"] none]

/-- `parameters.h:431-441`. -/
def opsApproximation : List Op :=
  [.enter "Approximation"
  , .add "FEDegree" ["approximation_data", "fe_degree"] none
  , .add "NSubdivisions" ["approximation_data", "n_subdivisions"] none
  , .add "NPoints1D" ["approximation_data", "n_points_1D"] none
  , .leave]

/-- `parameters.h:444-525`. -/
def opsGeometry : List Op :=
  [.enter "Geometry"
  , .add "DivisionsPerInterface" ["geometry_data", "divisions_per_interface"] none
  , .add "BoundaryFactor" ["geometry_data", "boundary_factor"] none
  , .add "InterfaceWidth" ["geometry_data", "interface_width"] none
  , .add "InterfaceDirection" ["geometry_data", "interface_direction"] (some ["Inside", "Outside", "Middle"])
  , .add "MinimizeOrderParameters" ["geometry_data", "minimize_order_parameters"] none
  , .add "InterfaceBufferRatio" ["geometry_data", "interface_buffer_ratio"] none
  , .add "RadiusBufferRatio" ["geometry_data", "radius_buffer_ratio"] none
  , .add "Periodic" ["geometry_data", "periodic"] none
  , .add "CustomBoundingBox" ["geometry_data", "custom_bounding_box"] none
  , .add "MaxPrime" ["geometry_data", "max_prime"] none
  , .add "GlobalRefinement" ["geometry_data", "global_refinement"] (some ["None", "Base", "Full"])
  , .add "InitialMesh" ["geometry_data", "initial_mesh"] (some ["Interface", "MaxRadius", "Divisions"])
  , .add "MaxLevel0DivisionsPerInterface" ["geometry_data", "max_level0_divisions_per_interface"] none
  , .add "Accumulative" ["geometry_data", "accumulative"] none
  , .enter "BoundingBox"
  , .add "Xmin" ["geometry_data", "bounding_box_data", "x_min"] none
  , .add "Xmax" ["geometry_data", "bounding_box_data", "x_max"] none
  , .add "Ymin" ["geometry_data", "bounding_box_data", "y_min"] none
  , .add "Ymax" ["geometry_data", "bounding_box_data", "y_max"] none
  , .add "Zmin" ["geometry_data", "bounding_box_data", "z_min"] none
  , .add "Zmax" ["geometry_data", "bounding_box_data", "z_max"] none
  , .leave
  , .enter "Divisions"
  , .add "Nx" ["geometry_data", "divisions_data", "nx"] none
  , .add "Ny" ["geometry_data", "divisions_data", "ny"] none
  , .add "Nz" ["geometry_data", "divisions_data", "nz"] none
  , .add "Refinements" ["geometry_data", "divisions_data", "n_refinements"] none
  , .leave
  , .add "HangingNodeWeight" ["geometry_data", "hanging_node_weight"] none
  , .leave]

/-- `parameters.h:528-565`. -/
def opsAdaptivity : List Op :=
  [.enter "Adaptivity"
  , .add "TopFractionOfCells" ["adaptivity_data", "top_fraction_of_cells"] none
  , .add "BottomFractionOfCells" ["adaptivity_data", "bottom_fraction_of_cells"] none
  , .add "MinRefinementDepth" ["adaptivity_data", "min_refinement_depth"] none
  , .add "MaxRefinementDepth" ["adaptivity_data", "max_refinement_depth"] none
  , .add "RefinementFrequency" ["adaptivity_data", "refinement_frequency"] none
  , .add "QualityControl" ["adaptivity_data", "quality_control"] none
  , .add "AutoQualityMin" ["adaptivity_data", "auto_quality_min"] none
  , .add "AutoQualityInitialFactor" ["adaptivity_data", "auto_quality_initial_factor"] none
  , .add "QualityMin" ["adaptivity_data", "quality_min"] none
  , .add "ExtraCoarsening" ["adaptivity_data", "extra_coarsening"] none
  , .add "InterfaceValueMin" ["adaptivity_data", "interface_val_min"] none
  , .add "InterfaceValueMax" ["adaptivity_data", "interface_val_max"] none
  , .leave]

/-- `parameters.h:568-604`. -/
def opsGrainTracker : List Op :=
  [.enter "GrainTracker"
  , .add "ThresholdLower" ["grain_tracker_data", "threshold_lower"] none
  , .add "ThresholdNewGrains" ["grain_tracker_data", "threshold_new_grains"] none
  , .add "BufferDistanceRatio" ["grain_tracker_data", "buffer_distance_ratio"] none
  , .add "BufferDistanceFixed" ["grain_tracker_data", "buffer_distance_fixed"] none
  , .add "GrainTrackerFrequency" ["grain_tracker_data", "grain_tracker_frequency"] none
  , .add "Verbosity" ["grain_tracker_data", "verbosity"] none
  , .add "FastReassignment" ["grain_tracker_data", "fast_reassignment"] none
  , .add "TrackWithQuality" ["grain_tracker_data", "track_with_quality"] none
  , .add "UseOldRemap" ["grain_tracker_data", "use_old_remap"] none
  , .add "CheckInconsistency" ["grain_tracker_data", "check_inconsistency"] none
  , .add "GrainRepresentation" ["grain_tracker_data", "grain_representation"] (some ["Spherical", "Elliptical", "Wavefront"])
  , .leave]

/-- `parameters.h:607-720`. -/
def opsMaterial : List Op :=
  [.enter "Material"
  , .add "Type" ["material_data", "type"] (some ["Abstract", "Realistic"])
  , .add "TimeScale" ["material_data", "time_scale"] none
  , .add "LengthScale" ["material_data", "length_scale"] none
  , .add "EnergyScale" ["material_data", "energy_scale"] none
  , .add "Temperature" ["material_data", "temperature"] none
  , .enter "EnergyAbstract"
  , .add "A" ["material_data", "energy_abstract_data", "A"] none
  , .add "B" ["material_data", "energy_abstract_data", "B"] none
  , .add "KappaC" ["material_data", "energy_abstract_data", "kappa_c"] none
  , .add "KappaP" ["material_data", "energy_abstract_data", "kappa_p"] none
  , .leave
  , .enter "MobilityAbstract"
  , .add "Mvol" ["material_data", "mobility_abstract_data", "Mvol"] none
  , .add "Mvap" ["material_data", "mobility_abstract_data", "Mvap"] none
  , .add "Msurf" ["material_data", "mobility_abstract_data", "Msurf"] none
  , .add "Mgb" ["material_data", "mobility_abstract_data", "Mgb"] none
  , .add "L" ["material_data", "mobility_abstract_data", "L"] none
  , .leave
  , .enter "EnergyRealistic"
  , .add "SurfaceEnergy" ["material_data", "energy_realistic_data", "surface_energy"] none
  , .add "GrainBoundaryEnergy" ["material_data", "energy_realistic_data", "grain_boundary_energy"] none
  , .leave
  , .enter "MobilityRealistic"
  , .add "Omega" ["material_data", "mobility_realistic_data", "omega"] none
  , .add "DVol0" ["material_data", "mobility_realistic_data", "D_vol0"] none
  , .add "DVap0" ["material_data", "mobility_realistic_data", "D_vap0"] none
  , .add "DSurf0" ["material_data", "mobility_realistic_data", "D_surf0"] none
  , .add "DGb0" ["material_data", "mobility_realistic_data", "D_gb0"] none
  , .add "QVol" ["material_data", "mobility_realistic_data", "Q_vol"] none
  , .add "QVap" ["material_data", "mobility_realistic_data", "Q_vap"] none
  , .add "QSurf" ["material_data", "mobility_realistic_data", "Q_surf"] none
  , .add "QGb" ["material_data", "mobility_realistic_data", "Q_gb"] none
  , .add "DGbMob0" ["material_data", "mobility_realistic_data", "D_gb_mob0"] none
  , .add "QGbMob" ["material_data", "mobility_realistic_data", "Q_gb_mob"] none
  , .leave
  , .enter "Mechanics"
  , .add "E" ["material_data", "mechanics_data", "E"] none
  , .add "nu" ["material_data", "mechanics_data", "nu"] none
  , .add "Type" ["material_data", "mechanics_data", "plane_type"] (some ["None", "PlaneStrain", "PlaneStress"])
  , .add "Cmin" ["material_data", "mechanics_data", "c_min"] none
  , .leave
  , .leave]

/-- `parameters.h:723-744`. -/
def opsAdvection : List Op :=
  [.enter "Advection"
  , .add "Enable" ["advection_data", "enable"] none
  , .add "K" ["advection_data", "k"] none
  , .add "Mt" ["advection_data", "mt"] none
  , .add "Mr" ["advection_data", "mr"] none
  , .add "Cgb" ["advection_data", "cgb"] none
  , .add "Ceq" ["advection_data", "ceq"] none
  , .add "Smoothening" ["advection_data", "smoothening"] none
  , .add "CheckCourant" ["advection_data", "check_courant"] none
  , .add "WeightedForces" ["advection_data", "weighted_forces"] none
  , .leave]

/-- `parameters.h:747-766`. -/
def opsBoundaryConditions : List Op :=
  [.enter "BoundaryConditions"
  , .add "Type" ["boundary_conditions", "type"] (some ["None", "CentralSection", "CentralParticle", "CentralParticleSection", "Domain"])
  , .add "Direction" ["boundary_conditions", "direction"] none
  , .add "PreferGrowing" ["boundary_conditions", "prefer_growing"] none
  , .add "UseBarycenter" ["boundary_conditions", "use_barycenter"] none
  , .leave]

/-- `parameters.h:769-831`. -/
def opsTimeIntegration : List Op :=
  [.enter "TimeIntegration"
  , .add "IntegrationScheme" ["time_integration_data", "integration_scheme"] (some ["BDF1", "BDF2", "BDF3", "FE", "RK4"])
  , .add "Predictor" ["time_integration_data", "predictor"] (some ["None", "Linear", "Euler", "Midpoint"])
  , .add "TimeStart" ["time_integration_data", "time_start"] none
  , .add "TimeEnd" ["time_integration_data", "time_end"] none
  , .add "TimeStepInit" ["time_integration_data", "time_step_init"] none
  , .add "TimeStepMin" ["time_integration_data", "time_step_min"] none
  , .add "TimeStepMax" ["time_integration_data", "time_step_max"] none
  , .add "GrowthFactor" ["time_integration_data", "growth_factor"] none
  , .add "DesirableNewtonIterations" ["time_integration_data", "desirable_newton_iterations"] none
  , .add "DesirableLinearIterations" ["time_integration_data", "desirable_linear_iterations"] none
  , .add "SanityCheckPredictor" ["time_integration_data", "sanity_check_predictor"] none
  , .add "SanityCheckSolution" ["time_integration_data", "sanity_check_solution"] none
  , .enter "ARKode"
  , .add "MaximumOrder" ["time_integration_data", "arkode_data", "maximum_order"] none
  , .add "ExplicitMethodName" ["time_integration_data", "arkode_data", "explicit_method_name"] none
  , .add "ImplicitMethodName" ["time_integration_data", "arkode_data", "implicit_method_name"] none
  , .add "TimeStepSizeAdaptive" ["time_integration_data", "arkode_data", "time_step_size_adaptive"] none
  , .add "AbsoluteTolerance" ["time_integration_data", "arkode_data", "absolute_tolerance"] none
  , .add "RelativeTolerance" ["time_integration_data", "arkode_data", "relative_tolerance"] none
  , .leave
  , .leave]

/-- `parameters.h:833-962`. -/
def opsOutput : List Op :=
  [.enter "Output"
  , .add "Regular" ["output_data", "regular"] none
  , .add "Contour" ["output_data", "contours"] none
  , .add "ContourTex" ["output_data", "contours_tex"] none
  , .add "ContourNCoarseningSteps" ["output_data", "n_coarsening_steps"] none
  , .add "MCASubdivisions" ["output_data", "n_mca_subdivisions"] none
  , .add "Porosity" ["output_data", "porosity"] none
  , .add "PorosityContours" ["output_data", "porosity_contours"] none
  , .add "PorositySmooth" ["output_data", "porosity_smooth"] none
  , .add "PorosityStats" ["output_data", "porosity_stats"] none
  , .add "PorosityMaxValue" ["output_data", "porosity_max_value"] none
  , .add "Shrinkage" ["output_data", "shrinkage"] none
  , .add "ShrinkageIntervals" ["output_data", "shrinkage_intervals"] none
  , .add "GrainsStats" ["output_data", "grains_stats"] none
  , .add "Quality" ["output_data", "quality"] none
  , .add "Table" ["output_data", "table"] none
  , .add "Debug" ["output_data", "debug"] none
  , .add "HigherOrderCells" ["output_data", "higher_order_cells"] none
  , .add "FluxesDivergences" ["output_data", "fluxes_divergences"] none
  , .add "ConcentrationContour" ["output_data", "concentration_contour"] none
  , .add "CoordinationNumber" ["output_data", "coordination_number"] none
  , .add "GrainsAsSpheres" ["output_data", "grains_as_spheres"] none
  , .add "ParticleIndices" ["output_data", "particle_indices"] none
  , .add "OutputTimeInterval" ["output_data", "output_time_interval"] none
  , .add "VtkPath" ["output_data", "vtk_path"] none
  , .add "Fields" ["output_data", "fields"] none
  , .add "MeshOverheadEstimate" ["output_data", "mesh_overhead_estimate"] none
  , .add "OnlyControlBoxes" ["output_data", "only_control_boxes"] none
  , .add "DomainIntegrals" ["output_data", "domain_integrals"] none
  , .add "ControlBoxes" ["output_data", "control_boxes"] none
  , .add "Sections" ["output_data", "sections"] none
  , .add "GrainBoundaries" ["output_data", "grain_boundaries"] none
  , .add "IsoSurfaceArea" ["output_data", "iso_surf_area"] none
  , .add "IsoGrainBoundariesArea" ["output_data", "iso_gb_area"] none
  , .add "QualityMin" ["output_data", "quality_min"] none
  , .add "GrainBoundariesThreshold" ["output_data", "gb_threshold"] none
  , .add "AutoControlBox" ["output_data", "auto_control_box"] none
  , .add "BoxRelativePadding" ["output_data", "box_rel_padding"] none
  , .leave]

/-- `parameters.h:964-990`. -/
def opsRestart : List Op :=
  [.enter "Restart"
  , .add "Prefix" ["restart_data", "prefix"] none
  , .add "Type" ["restart_data", "type"] (some ["never", "n_calls", "real_time", "simulation_time"])
  , .add "Interval" ["restart_data", "interval"] none
  , .add "FlexibleOutput" ["restart_data", "flexible_output"] none
  , .add "FullHistory" ["restart_data", "full_history"] none
  , .add "MaximalOutput" ["restart_data", "max_output"] none
  , .leave]

/-- `parameters.h:992-1080`. -/
def opsNonLinearData : List Op :=
  [.enter "NonLinearData"
  , .add "NonLinearMaxIterations" ["nonlinear_data", "nl_max_iter"] none
  , .add "NonLinearAbsoluteTolerance" ["nonlinear_data", "nl_abs_tol"] none
  , .add "NonLinearRelativeTolerance" ["nonlinear_data", "nl_rel_tol"] none
  , .add "LinearMaxIterations" ["nonlinear_data", "l_max_iter"] none
  , .add "LinearAbsoluteTolerance" ["nonlinear_data", "l_abs_tol"] none
  , .add "LinearRelativeTolerance" ["nonlinear_data", "l_rel_tol"] none
  , .add "NewtonDoUpdate" ["nonlinear_data", "newton_do_update"] none
  , .add "LinearSolver" ["nonlinear_data", "l_solver"] (some ["GMRES", "IDR", "Bicgstab", "Relaxation", "Direct"])
  , .add "LinearSolverBicgstabTries" ["nonlinear_data", "l_bisgstab_tries"] none
  , .add "NewtonThresholdNewtonIterations" ["nonlinear_data", "newton_threshold_newton_iter"] none
  , .add "NewtonThresholdLinearIterations" ["nonlinear_data", "newton_threshold_linear_iter"] none
  , .add "NewtonReusePreconditioner" ["nonlinear_data", "newton_reuse_preconditioner"] none
  , .add "NewtonUseDamping" ["nonlinear_data", "newton_use_damping"] none
  , .add "NonLinearSolverType" ["nonlinear_data", "nonlinear_solver_type"] (some ["damped", "NOX", "SNES"])
  , .add "FDMJacobianApproximation" ["nonlinear_data", "fdm_jacobian_approximation"] none
  , .add "FDMPrecondSystemApproximation" ["nonlinear_data", "fdm_precond_system_approximation"] none
  , .add "JacobiFree" ["nonlinear_data", "jacobi_free"] none
  , .add "Verbosity" ["nonlinear_data", "verbosity"] none
  , .enter "NOXData"
  , .add "OutputInformation" ["nonlinear_data", "nox_data", "output_information"] none
  , .add "DirectionMethod" ["nonlinear_data", "nox_data", "direction_method"] (some ["Newton", "Steepest Descent", "NonlinearCG", "Broyden"])
  , .add "LineSearchMethod" ["nonlinear_data", "nox_data", "line_search_method"] (some ["Full Step", "Backtrack", "Polynomial"])
  , .add "LineSearchInterpolationType" ["nonlinear_data", "nox_data", "line_search_interpolation_type"] (some ["Quadratic", "Quadratic3", "Cubic"])
  , .add "NonlinearSolver" ["nonlinear_data", "nox_data", "nonlinear_solver"] (some ["Newton", "Line Search Based", "Trust Region Based", "Inexact Trust Region Based", "Tensor Based"])
  , .leave
  , .enter "SNESData"
  , .add "SolverName" ["nonlinear_data", "snes_data", "solver_name"] (some ["newtonls", "newtontr", "ngmres", "anderson"])
  , .add "LineSearchName" ["nonlinear_data", "snes_data", "line_search_name"] (some ["bt", "basic", "none", "l2", "cp"])
  , .leave
  , .enter "GMRESData"
  , .add "OrthogonalizationStrategy" ["nonlinear_data", "gmres_data", "orthogonalization_strategy"] (some ["classical gram schmidt", "modified gram schmidt"])
  , .leave
  , .leave]

/-- `parameters.h:1082-1158`. -/
def opsPreconditioners : List Op :=
  [.enter "Preconditioners"
  , .enter "Outer"] ++
  preconditionerOps ["preconditioners_data", "outer"] (preconditionerTypes ++ ["BlockPreconditioner2"]) ++
  [.leave
  , .enter "BlockPreconditioner2"
  , .enter "Block0"] ++
  preconditionerOps ["preconditioners_data", "block_preconditioner_2_data", "block_0"] preconditionerTypes ++
  [.leave
  , .enter "Block1"] ++
  preconditionerOps ["preconditioners_data", "block_preconditioner_2_data", "block_1"] preconditionerTypes ++
  [.leave
  , .add "Block1Approximation" ["preconditioners_data", "block_preconditioner_2_data", "block_1_approximation"] (some ["all", "const", "max", "avg"])
  , .enter "Block2"] ++
  preconditionerOps ["preconditioners_data", "block_preconditioner_2_data", "block_2"] preconditionerTypes ++
  [.leave
  , .leave
  , .leave]

/-- `parameters.h:1160-1170`. -/
def opsProfiling : List Op :=
  [.enter "Profiling"
  , .add "RunVmults" ["profiling_data", "run_vmults"] none
  , .add "OutputMemoryConsumption" ["profiling_data", "output_memory_consumption"] none
  , .add "OutputTimeInterval" ["profiling_data", "output_time_interval"] none
  , .leave]

/-- `parameters.h:415-1171` `add_parameters`. -/
def addParameters : List Op :=
  opsRoot ++ opsApproximation ++ opsGeometry ++ opsAdaptivity ++ opsGrainTracker ++ opsMaterial ++ opsAdvection ++ opsBoundaryConditions ++ opsTimeIntegration ++ opsOutput ++ opsRestart ++ opsNonLinearData ++ opsPreconditioners ++ opsProfiling

/-- A declared entry. -/
structure Decl where
  path : List String
  member : List String
  sel : Option (List String)
deriving DecidableEq

/-- `ParameterHandler`: the calls of `add_parameters` with the open subsections; `leave_subsection` at the top level throws. -/
def declare : List String → List Op → Res (List String × List Decl)
  | open_, [] => .ok (open_, [])
  | open_, .enter s :: l => declare (open_ ++ [s]) l
  | open_, .leave :: l => if open_ = [] then .exc .assertThrow else declare open_.dropLast l
  | open_, .add n m sel :: l => do
    let r ← declare open_ l
    .ok (r.1, ⟨open_ ++ [n], m, sel⟩ :: r.2)

/-- The declarations, empty if `add_parameters` throws. -/
def decls : List Decl :=
  match declare [] addParameters with
  | .ok r => r.2
  | _ => []

/-- Values of the members, as text. -/
abbrev Vals := List String → List Char

/-- Outside of the code: patterns other than selections by kind of the type, contents of files as entries (`none`: cannot be read), texts as
numbers, and the macros of the build. -/
structure World where
  reads : Kind → List Char → Bool
  content : List Char → Option (List (List String × List Char))
  number : List Char → Nat
  feDegree : Option Nat
  nQPoints1D : Option Nat

/-- The kind of a member. -/
def kindOf (m : List String) : Kind :=
  match members.find? (fun x => x.name == m) with
  | some x => x.kind
  | none => .other

/-- Whether the pattern of an entry matches a value. -/
def accepts (w : World) (d : Decl) (v : List Char) : Bool :=
  match d.sel with
  | some l => l.any fun s => s.toList == v
  | none => w.reads (kindOf d.member) v

/-- The action bound to an entry. -/
def store (d : Decl) (v : List Char) (x : Vals) : Vals := fun m => if m = d.member then v else x m

/-- `ParameterHandler::set` and the reading of one entry of a file; `skip`: `skip_undefined`. -/
def assign (w : World) (D : List Decl) (skip : Bool) (x : Vals) (p : List String) (v : List Char) : Res Vals :=
  match D.find? (fun d => d.path == p) with
  | some d => if accepts w d v then .ok (store d v x) else .exc .assertThrow
  | none => if skip then .ok x else .exc .assertThrow

/-- `parameters.h:319-326` `parse`. -/
def parse (w : World) (D : List Decl) (x : Vals) (file : List Char) : Res Vals :=
  match w.content file with
  | some es => es.foldlM (fun y e => assign w D true y e.1 e.2) x
  | none => .exc .assertThrow

/-- `boost::split` with `is_any_of(".")`. -/
def splitDots : List Char → List (List Char)
  | [] => [[]]
  | c :: l =>
    if c = '.' then [] :: splitDots l
    else match splitDots l with
      | t :: ts => (c :: t) :: ts
      | [] => [[c]]

/-- `parameters.h:328-343` `set`: all but the last part are entered as subsections. -/
def set (w : World) (D : List Decl) (x : Vals) (name value : List Char) : Res Vals :=
  assign w D false x ((splitDots name).map String.ofList) value

/-- `parameters.h:345-379` `check`. -/
def check (w : World) (x : Vals) : Res Unit := do
  let n := fun s => w.number (x ["approximation_data", s])
  match w.feDegree with
  | some k => Res.assertThrow (decide (k = if n "n_subdivisions" = 1 then n "fe_degree" else n "n_subdivisions"))
  | none => .ok ()
  match w.nQPoints1D with
  | some k => Res.assertThrow (decide (k = if n "n_subdivisions" = 1 then n "n_points_1D" else n "n_points_1D" * n "n_subdivisions"))
  | none => .ok ()

/-- One call. -/
def call (w : World) (D : List Decl) (x : Vals) : Call → Res Vals
  | .file f => parse w D x f
  | .set n v => set w D x n v
  | .check => do
    check w x
    .ok x

/-- The calls of `parse_params` one after another. -/
def calls (w : World) (D : List Decl) (x : Vals) (cs : List Call) : Res Vals := cs.foldlM (call w D) x

end Verif.Params
