{
 "claims": [
  {
   "property": "C01",
   "status": "proved",
   "theorems": [
    "Heracles.C01_consecutive_balanced",
    "Heracles.C01_unique_owner",
    "Heracles.C01_negative_size_rejected"
   ],
   "note": ""
  },
  {
   "property": "C02",
   "status": "proved",
   "theorems": [
    "Heracles.C02_border_iff",
    "Heracles.C02_more_ranks_than_cells"
   ],
   "note": "Holds when no direction has more ranks than cells; with more ranks than cells some ranks are empty and the equivalence fails for them."
  },
  {
   "property": "C03",
   "status": "proved",
   "theorems": [
    "Heracles.C03_nodes",
    "Heracles.C03_neighbours_agree"
   ],
   "note": ""
  },
  {
   "property": "C04",
   "status": "proved",
   "theorems": [
    "Heracles.C04_halo_is_periodic_image",
    "Heracles.C04_decomposition_independent"
   ],
   "note": ""
  },
  {
   "property": "C05",
   "status": "proved",
   "theorems": [
    "Heracles.C05_interior_unchanged",
    "Heracles.C05_thin_rank_counterexample"
   ],
   "note": "Holds when every rank has at least as many cells as ghost layers; C05_thin_rank_counterexample shows the halo is wrong otherwise (the code does not check)."
  },
  {
   "property": "C06",
   "status": "proved",
   "theorems": [
    "Heracles.C06_null_gradient",
    "Heracles.C06_order_independent",
    "Heracles.C06_no_interior_out_of_bounds"
   ],
   "note": ""
  },
  {
   "property": "C07",
   "status": "proved",
   "theorems": [
    "Heracles.C07_reflexive",
    "Heracles.C07_reads_interior",
    "Heracles.C07_order_independent"
   ],
   "note": ""
  },
  {
   "property": "C08",
   "status": "partial",
   "theorems": [
    "Heracles.C08_code_uses_positions",
    "Heracles.C08_documented_iff_involutive",
    "Heracles.C08_involutive_partial",
    "Heracles.C08_one_dimension",
    "Heracles.C08_violated",
    "Heracles.C08_default_violated",
    "Heracles.C08_builtin_order_irrelevant",
    "Heracles.C08_violated_corner"
   ],
   "note": "Violated by the code: generate_order stores positions and uses them as face numbers; proved for involutive priorities and for built-in conditions, witnesses for the rest."
  },
  {
   "property": "C09",
   "status": "partial",
   "theorems": [
    "Heracles.C09_accepted_iff",
    "Heracles.C09_rejects_partial",
    "Heracles.C09_complete_list_initialised",
    "Heracles.C09_violated_duplicate",
    "Heracles.C09_violated_extra_words"
   ],
   "note": "Violated by the code for duplicated faces and for extra words; the exact set of accepted inputs is proved."
  },
  {
   "property": "C10",
   "status": "proved",
   "theorems": [
    "Heracles.C10_fallback",
    "Heracles.C10_select"
   ],
   "note": ""
  },
  {
   "property": "C11",
   "status": "proved",
   "theorems": [
    "Heracles.C11_full_update",
    "Heracles.C11_last_executed_face_wins"
   ],
   "note": ""
  },
  {
   "property": "C12",
   "status": "proved",
   "theorems": [
    "Heracles.C12_accepts_iff",
    "Heracles.C12_layer_bounds",
    "Heracles.C12_withGhosts"
   ],
   "note": ""
  },
  {
   "property": "C13",
   "status": "proved",
   "theorems": [
    "Heracles.C13_box",
    "Heracles.C13_inside_and_nested",
    "Heracles.C13_each_once"
   ],
   "note": ""
  },
  {
   "property": "C14",
   "status": "proved",
   "theorems": [
    "Heracles.C14_conversions_inverse",
    "Heracles.C14_perfect_gas"
   ],
   "note": ""
  },
  {
   "property": "C15",
   "status": "proved",
   "theorems": [
    "Heracles.C15_prim_to_cons",
    "Heracles.C15_cons_to_prim",
    "Heracles.C15_round_trip"
   ],
   "note": ""
  },
  {
   "property": "C16",
   "status": "proved",
   "theorems": [
    "Heracles.C16_flux_from_either_representation"
   ],
   "note": ""
  },
  {
   "property": "C17",
   "status": "proved",
   "theorems": [
    "Heracles.C17_perfect_gas_law",
    "Heracles.C17_mutually_inverse",
    "Heracles.C17_monotone_positive",
    "Heracles.C17_sound_speed"
   ],
   "note": ""
  },
  {
   "property": "C18",
   "status": "proved",
   "theorems": [
    "Heracles.C18_constructor_ok_iff",
    "Heracles.C18_constructed_is_physical"
   ],
   "note": ""
  },
  {
   "property": "C19",
   "status": "partial",
   "theorems": [
    "Heracles.C19_temperature_exists_unique",
    "Heracles.C19_temp_from_pres_partial",
    "Heracles.C19_temp_from_evol_partial",
    "Heracles.C19_one_sided",
    "Heracles.C19_never_reports",
    "Heracles.C19_violated"
   ],
   "note": "Accuracy proved when gas and radiation temperatures are within a factor 5e8; otherwise violated: the error branch is unreachable and a witness returns 80 times the true temperature silently."
  },
  {
   "property": "C20",
   "status": "proved",
   "theorems": [
    "Heracles.C20_limiter_symmetry_and_sign",
    "Heracles.C20_constant_is_zero"
   ],
   "note": ""
  },
  {
   "property": "C21",
   "status": "proved",
   "theorems": [
    "Heracles.C21_tvd_region"
   ],
   "note": ""
  },
  {
   "property": "C22",
   "status": "partial",
   "theorems": [
    "Heracles.C22_no_new_extrema",
    "Heracles.C22_exact_on_linear_data",
    "Heracles.C22_nonuniform_overshoot",
    "Heracles.C22_reconstruction_array"
   ],
   "note": "Proved for every limiter where the cell is not larger than its neighbours (so on uniform grids) and for minmod on every mesh; violated by van Leer and van Albada on stretched meshes (C22_nonuniform_overshoot)."
  },
  {
   "property": "C23",
   "status": "proved",
   "theorems": [
    "Heracles.C23_in_bounds",
    "Heracles.C23_one_ghost_reads_out_of_bounds",
    "Heracles.C23_no_ghost_rejected",
    "Heracles.C23_gravity_in_bounds"
   ],
   "note": ""
  },
  {
   "property": "C24",
   "status": "proved",
   "theorems": [
    "Heracles.C24_consistency"
   ],
   "note": ""
  },
  {
   "property": "C25",
   "status": "proved",
   "theorems": [
    "Heracles.C25_supersonic_upwind"
   ],
   "note": ""
  },
  {
   "property": "C26",
   "status": "proved",
   "theorems": [
    "Heracles.C26_mirror_symmetry"
   ],
   "note": ""
  },
  {
   "property": "C27",
   "status": "proved",
   "theorems": [
    "Heracles.C27_contacts",
    "Heracles.C27_hll_diffuses"
   ],
   "note": ""
  },
  {
   "property": "C28",
   "status": "proved",
   "theorems": [
    "Heracles.C28_hllc_fan"
   ],
   "note": ""
  },
  {
   "property": "C29",
   "status": "proved",
   "theorems": [
    "Heracles.C29_mirror_wall"
   ],
   "note": ""
  },
  {
   "property": "C30",
   "status": "proved",
   "theorems": [
    "Heracles.C30_mass_balance",
    "Heracles.C30_periodic_box",
    "Heracles.C30_conserved"
   ],
   "note": ""
  },
  {
   "property": "C31",
   "status": "proved",
   "theorems": [
    "Heracles.C31_single_interface_flux"
   ],
   "note": ""
  },
  {
   "property": "C32",
   "status": "proved",
   "theorems": [
    "Heracles.C32_uniform_flow"
   ],
   "note": ""
  },
  {
   "property": "C33",
   "status": "proved",
   "theorems": [
    "Heracles.C33_rest_state"
   ],
   "note": ""
  },
  {
   "property": "C34",
   "status": "proved",
   "theorems": [
    "Heracles.C34_fractions_bounded",
    "Heracles.C34_scalars_conserved",
    "Heracles.C34_uniform_stays_uniform"
   ],
   "note": ""
  },
  {
   "property": "C35",
   "status": "proved",
   "theorems": [
    "Heracles.C35_decomposition_independent"
   ],
   "note": ""
  },
  {
   "property": "C36",
   "status": "proved",
   "theorems": [
    "Heracles.C36_cfl",
    "Heracles.C36_rate_pos",
    "Heracles.C36_decomposition"
   ],
   "note": ""
  },
  {
   "property": "C37",
   "status": "partial",
   "theorems": [
    "Heracles.C37_exact_partial",
    "Heracles.C37_phi_face",
    "Heracles.C37_violated",
    "Heracles.C37_positive",
    "Heracles.C37_total_volume"
   ],
   "note": "Volumes and all face areas proved equal to the iterated integrals, except the 3-D spherical phi-face, whose area the code computes with the inner radius; C37_violated gives a concrete cell, C37_phi_face the exact deficit."
  },
  {
   "property": "C38",
   "status": "proved",
   "theorems": [
    "Heracles.C38_regular",
    "Heracles.C38_cell_size_center"
   ],
   "note": ""
  },
  {
   "property": "C39",
   "status": "proved",
   "theorems": [
    "Heracles.C39_fresh_run",
    "Heracles.C39_strictly_increasing",
    "Heracles.C39_late_start"
   ],
   "note": "For runs that start before t_end; C39_late_start shows the zero or negative step taken otherwise."
  },
  {
   "property": "C40",
   "status": "proved",
   "theorems": [
    "Heracles.C40_no_multiple_missing",
    "Heracles.C40_only_requested",
    "Heracles.C40_consecutive_numbers"
   ],
   "note": ""
  },
  {
   "property": "C41",
   "status": "proved",
   "theorems": [
    "Heracles.C41_exact_times",
    "Heracles.C41_step_shortened",
    "Heracles.C41_first_output_too_early"
   ],
   "note": ""
  },
  {
   "property": "C42",
   "status": "partial",
   "theorems": [
    "Heracles.C42_restart_from_file",
    "Heracles.C42_stopped_and_restarted",
    "Heracles.C42_violated",
    "Heracles.C42_crash_dump_counters"
   ],
   "note": "Proved for restarts from any file with the same parameters and for stops by iteration limit or wall clock (output numbers shift by one when the last file was forced), given that reading restores the fluid. Violated when the stopping criterion is t_end (C42_violated: a timed output is skipped) and for crash dumps (C42_crash_dump_counters)."
  },
  {
   "property": "C43",
   "status": "proved",
   "theorems": [
    "Heracles.C43_exactly_one_rank",
    "Heracles.C43_written",
    "Heracles.C43_round_trip",
    "Heracles.C43_axes"
   ],
   "note": ""
  },
  {
   "property": "C44",
   "status": "proved",
   "theorems": [
    "Heracles.C44_distinct",
    "Heracles.C44_written_distinct",
    "Heracles.C44_ordered",
    "Heracles.C44_prefix",
    "Heracles.C44_nine_digits"
   ],
   "note": ""
  },
  {
   "property": "C45",
   "status": "proved",
   "theorems": [
    "Heracles.C45_document",
    "Heracles.C45_lists_written_files",
    "Heracles.C45_variables"
   ],
   "note": "The prefix is written unescaped, so the theorem asks it (and the printed times) to contain no markup characters; the file is rewritten from the first output of each run."
  },
  {
   "property": "C46",
   "status": "proved",
   "theorems": [
    "Heracles.C46_latest_write",
    "Heracles.C46_copy_resets",
    "Heracles.C46_counter_wraps"
   ],
   "note": "Under the condition that fewer than 2^32 modifications of one side happen without a synchronisation; C46_counter_wraps shows the condition is needed."
  },
  {
   "property": "C47",
   "status": "proved",
   "theorems": [
    "Heracles.C47_value_preserved"
   ],
   "note": ""
  },
  {
   "property": "C48",
   "status": "proved",
   "theorems": [
    "Heracles.C48_neighbours"
   ],
   "note": ""
  },
  {
   "property": "C49",
   "status": "proved",
   "theorems": [
    "Heracles.C49_uniform",
    "Heracles.C49_point_mass",
    "Heracles.C49_internal_mass",
    "Heracles.C49_rejects_radial_decomposition",
    "Heracles.C49_shell_mean",
    "Heracles.C49_uniform_sphere",
    "Heracles.C49_point_mass_attractive",
    "Heracles.C49_at_least_central"
   ],
   "note": ""
  },
  {
   "property": "C50",
   "status": "proved",
   "theorems": [
    "Heracles.C50_fields",
    "Heracles.C50_decomposed",
    "Heracles.C50_nodes",
    "Heracles.C50_ratio_kept",
    "Heracles.C50_shift"
   ],
   "note": ""
  },
  {
   "property": "C51",
   "status": "proved",
   "theorems": [
    "Heracles.C51_decay_chain",
    "Heracles.C51_decay_rate",
    "Heracles.C51_rate_pos",
    "Heracles.C51_heating",
    "Heracles.C51_only_adds",
    "Heracles.C51_off",
    "Heracles.C51_without_scalars"
   ],
   "note": ""
  },
  {
   "property": "C52",
   "status": "partial",
   "theorems": [
    "Heracles.C52_untouched",
    "Heracles.C52_triggered_partial",
    "Heracles.C52_one_dimension_partial",
    "Heracles.C52_violated",
    "Heracles.C52_shear_is_not_divergence_free"
   ],
   "note": "Violated by the code: where the fix triggers it adds the kinetic energy of the state before the update, not of the new state (C52_violated: negative internal energy in a uniform cold flow with gravity), and in 2D/3D its divergence adds the transverse velocities (C52_shear_is_not_divergence_free). Proved: untouched elsewhere, only the energy changes, the blend and its weight; the full claim when the kinetic energy is unchanged in 1D."
  },
  {
   "property": "C53",
   "status": "proved",
   "theorems": [
    "Heracles.C53_limiters",
    "Heracles.C53_solvers",
    "Heracles.C53_boundaries",
    "Heracles.C53_grids",
    "Heracles.C53_user_steps",
    "Heracles.C53_limiter_formulas"
   ],
   "note": ""
  },
  {
   "property": "C54",
   "status": "partial",
   "theorems": [
    "Heracles.C54_detects_negative_partial",
    "Heracles.C54_finite_data",
    "Heracles.C54_violated",
    "Heracles.C54_isnan_is_dead"
   ],
   "note": "Negative energies are detected for every distribution of the loops (C54_detects_negative_partial; full claim on finite data: C54_finite_data). The NaN half of the claim is false for the code: the minimum drops NaN, so the isnan test is dead (C54_violated, C54_isnan_is_dead)."
  },
  {
   "property": "C55",
   "status": "proved",
   "theorems": [
    "Heracles.C55_integrate"
   ],
   "note": ""
  },
  {
   "property": "C56",
   "status": "proved",
   "theorems": [
    "Heracles.C56_scalar",
    "Heracles.C56_profile",
    "Heracles.C56_components",
    "Heracles.C56_ghosts_out_of_bounds"
   ],
   "note": ""
  },
  {
   "property": "C57",
   "status": "proved",
   "theorems": [
    "Heracles.C57_entries",
    "Heracles.C57_written_once",
    "Heracles.C57_case_insensitive",
    "Heracles.C57_first_error",
    "Heracles.C57_last_line",
    "Heracles.C57_defaults",
    "Heracles.C57_integer",
    "Heracles.C57_boolean",
    "Heracles.C57_integer_spellings",
    "Heracles.C57_hash_kept",
    "Heracles.C57_duplicates",
    "Heracles.C57_indented",
    "Heracles.C57_long_line",
    "Heracles.C57_long_name"
   ],
   "note": ""
  },
  {
   "property": "C58",
   "status": "proved",
   "theorems": [
    "Heracles.C58_gravity_in_update",
    "Heracles.C58_gravity_in_predictor"
   ],
   "note": ""
  },
  {
   "property": "C59",
   "status": "proved",
   "theorems": [
    "Heracles.C59_permutation",
    "Heracles.C59_reflection"
   ],
   "note": ""
  },
  {
   "property": "C60",
   "status": "proved",
   "theorems": [
    "Heracles.C60_perfect_gas",
    "Heracles.C60_radiative_gas"
   ],
   "note": ""
  },
  {
   "property": "C61",
   "status": "proved",
   "theorems": [
    "Heracles.C61_hllc_positive",
    "Heracles.C61_hll_positive"
   ],
   "note": ""
  },
  {
   "property": "C62",
   "status": "partial",
   "theorems": [
    "Heracles.C62_sources_partial",
    "Heracles.C62_angular_momentum",
    "Heracles.C62_axial_momentum",
    "Heracles.C62_violated"
   ],
   "note": "Radial component and pressure terms exact; u_r terms exact up to the square of the relative half width; the u_phi^2 term of the theta component is multiplied by cot(theta_m)/2 by the code although the face areas already contain the cotangent (source_terms.hpp 52-57): negation proved in C62_violated."
  },
  {
   "property": "C63",
   "status": "proved",
   "theorems": [
    "Heracles.C63_carried",
    "Heracles.C63_scalars_carried",
    "Heracles.C63_exact_1d"
   ],
   "note": ""
  },
  {
   "property": "C64",
   "status": "partial",
   "theorems": [
    "Heracles.C64_stratified_partial",
    "Heracles.C64_stratified_upward",
    "Heracles.C64_sphere",
    "Heracles.C64_rt3d",
    "Heracles.C64_rt2d_unbalanced",
    "Heracles.C64_rt2d_partial"
   ],
   "note": "Proved for the isothermal atmosphere with downward gravity, the isothermal sphere and both layers of the 3-D Rayleigh-Taylor problem. Refuted for upward gravity (the scale height uses fabs(gx)) and for the 2-D Rayleigh-Taylor problem, whose pressure uses the density of the upper fluid below the interface; the 2-D part that holds (equal densities) is C64_rt2d_partial."
  },
  {
   "property": "C65",
   "status": "partial",
   "theorems": [
    "Heracles.C65_gresho_partial",
    "Heracles.C65_density_ignored"
   ],
   "note": "Balance proved for rho0 = 1 and u0 = 0; for any other rho0 the pressure, which does not contain rho0, is nowhere balanced inside the vortex (C65_density_ignored)."
  },
  {
   "property": "C66",
   "status": "partial",
   "theorems": [
    "Heracles.C66_independent_1d",
    "Heracles.C66_independent_2d",
    "Heracles.C66_run",
    "Heracles.C66_sedov1d_violated",
    "Heracles.C66_sedov1d_partial",
    "Heracles.C66_sedov3d_violated",
    "Heracles.C66_sedov3d_partial"
   ],
   "note": "Proved for thirteen setups, and for the complete run started from them. Refuted for sedov1d in spherical geometry (C66_sedov1d_violated: each rank uses the volume of its own third cell) and for sedov3d (C66_sedov3d_violated: local indices compared with global sizes); the parts that hold are C66_sedov1d_partial (regular Cartesian mesh, two ghosts) and C66_sedov3d_partial (process grids that cut the first direction only). The tabulated setup v1d is not covered."
  },
  {
   "property": "C67",
   "status": "partial",
   "theorems": [
    "Heracles.C67_stratified_partial",
    "Heracles.C67_stratified_moving",
    "Heracles.C67_equilibrium_partial",
    "Heracles.C67_equilibrium_moving"
   ],
   "note": "Proved for u0 = 0 and perfect gases (C67_stratified_partial, C67_equilibrium_partial). Refuted for every u0 ≠ 0 (C67_*_moving): the momentum is rho0·u0 instead of rho·u0 and the energy lacks the kinetic part, in every ghost cell."
  },
  {
   "property": "C68",
   "status": "proved",
   "theorems": [
    "Heracles.C68_decomposition",
    "Heracles.C68_restart",
    "Heracles.C68_stopped_and_restarted"
   ],
   "note": "Exact arithmetic, so that sums in another order give the same result. The gravity of a rank is assumed to be its part of a field of the global array (C50/C35). The grid shift (off by default) and the XDMF file (C44) are not in the composition. C68_restart is for runs that are still running when the file is written, C68_stopped_and_restarted for runs stopped by the clock or the iteration limit."
  },
  {
   "property": "C69",
   "status": "proved",
   "theorems": [
    "Heracles.C69_mass",
    "Heracles.C69_momentum",
    "Heracles.C69_energy",
    "Heracles.C69_fractions",
    "Heracles.C69_rest",
    "Heracles.C69_rest_finishes"
   ],
   "note": "Exact arithmetic. The program is that of C68 (no grid shift). Momentum is density times velocity as written in the file, hence for files without a zero density. C69_rest_finishes assumes no outputs at given times, since these can throw (C41)."
  },
  {
   "property": "C70",
   "status": "proved",
   "theorems": [
    "Heracles.C70_profile",
    "Heracles.C70_accepts",
    "Heracles.C70_needs_scalars",
    "Heracles.C70_grid"
   ],
   "note": "HDF5 and PDI as for C43: a read copies the selected elements in order. Finding: without passive scalars a file that lacks the dataset /fx_1d is refused (C70_needs_scalars)."
  },
  {
   "property": "C71",
   "status": "partial",
   "theorems": [
    "Heracles.C71_refused_iff",
    "Heracles.C71_reached_partial",
    "Heracles.C71_one_column_partial",
    "Heracles.C71_always_shifts",
    "Heracles.C71_depends_on_processes",
    "Heracles.C71_window_violated"
   ],
   "note": "For a positive threshold the answer is the same on all process grids that are accepted and is yes exactly if the speed is reached in one of the last cell_shift + nghost columns (C71_reached_partial). Violated: the window begins nghost columns too early (C71_window_violated); with two or more process columns and the default threshold 0 the answer is always yes (C71_always_shifts, C71_depends_on_processes); the refusal depends on the number of processes (C71_refused_iff)."
  },
  {
   "property": "C72",
   "status": "partial",
   "theorems": [
    "Heracles.C72_decomposition",
    "Heracles.C72_turn",
    "Heracles.C72_outer",
    "Heracles.C72_restart_partial",
    "Heracles.C72_restart_forgets",
    "Heracles.C72_restart_violated"
   ],
   "note": "Independence of the process grid, the meaning of a turn and the bound on the outer boundary are proved in full. Restarts are proved for runs whose criterion is still as at the start (C72_restart_partial). Violated otherwise: the file keeps neither the opened outer boundary nor the dropped criterion, so that the restarted run has the closed boundary again (C72_restart_forgets, witness C72_restart_violated). User boundary conditions and the heating step are covered as in C68."
  },
  {
   "property": "C73",
   "status": "partial",
   "theorems": [
    "Heracles.C73_velocity_partial",
    "Heracles.C73_internal_loss",
    "Heracles.C73_pressure_violated",
    "Heracles.C73_program_violated",
    "Heracles.C73_program_partial",
    "Heracles.C73_run_partial",
    "Heracles.C73_run_violated"
   ],
   "note": "Density, scalars and velocity are as claimed, in one step (C73_velocity_partial), after any number of iterations on any decomposition (C73_run_partial) and in all files of whole runs of the program, where the velocity is that of the start plus gravity times the elapsed time (C73_program_partial). The pressure is not: the gravitational work uses the momentum before the step, so that the internal energy falls by exactly rho*|force|^2*dt^2/2 per step (C73_internal_loss), and the pressure can become negative in one step (C73_pressure_violated). With a constant time step, and also with the time step the program computes, a falling gas always ends with a negative internal energy (C73_run_violated, C73_program_violated)."
  },
  {
   "property": "C74",
   "status": "partial",
   "theorems": [
    "Heracles.C74_step_partial",
    "Heracles.C74_run_partial",
    "Heracles.C74_predictor_violated",
    "Heracles.C74_second_order_violated"
   ],
   "note": "Proved for the constant reconstruction on Cartesian grids without gravity, pressure fix and heating, for one step (C74_step_partial) and for whole runs on any process grid (C74_run_partial). Violated for VanLeer, Minmod and VanAlbada: the predictor can make face pressures negative for data within the Courant condition (C74_predictor_violated), and with HLL the step can make the internal energy of a cell negative (C74_second_order_violated)."
  },
  {
   "property": "C75",
   "status": "partial",
   "theorems": [
    "Heracles.C75_step_partial",
    "Heracles.C75_run_partial",
    "Heracles.C75_gravity_violated"
   ],
   "note": "Step (C75_step_partial): any limiter and solver, when cell lengths and gravity are mirrored at the walls and the predicted states there are physical. Whole runs (C75_run_partial): constant reconstruction, HLL or HLLC, no gravity, any process grid. Violated under a uniform gravity across a wall, as in inputs/rayleigh_taylor.ini: the predictor pushes the ghost cell the same way as the cell it mirrors and the wall leaks (C75_gravity_violated, every limiter and solver). Missing: whole runs with slopes, where predicted states need not be physical (C74)."
  },
  {
   "property": "C76",
   "status": "partial",
   "theorems": [
    "Heracles.C76_real",
    "Heracles.C76_real_cast",
    "Heracles.C76_param",
    "Heracles.C76_config",
    "Heracles.C76_texts",
    "Heracles.C76_only_known",
    "Heracles.C76_other_keys_ignored",
    "Heracles.C76_no_integer",
    "Heracles.C76_switches_violated",
    "Heracles.C76_unchecked",
    "Heracles.C76_backwards",
    "Heracles.C76_prog",
    "Heracles.C76_periodic_mass"
   ],
   "note": "Proved for all files: parameters (C76_param, C76_real), choices (C76_config), texts and names of accepted files (C76_texts, C76_only_known), refused integers (C76_no_integer), other keys ignored (C76_other_keys_ignored), the parameters of the run itself (C76_prog), end to end with the mass of C69 (C76_periodic_mass). Violated: unknown names of pressure_fix and shift_grid are not refused but mean off (C76_switches_violated); no check of the number of cells, of heating without scalar, of t_ini beyond t_end (C76_unchecked, C76_backwards). The parameters of the setups are in C89. Missing: rounding, infinities and hexadecimal numerals of std::stod."
  },
  {
   "property": "C77",
   "status": "partial",
   "theorems": [
    "Heracles.C77_sedov2d",
    "Heracles.C77_sedov2d_partial",
    "Heracles.C77_sedov2d_resolution",
    "Heracles.C77_sedov2d_violated",
    "Heracles.C77_sedov1d_partial",
    "Heracles.C77_sedov1d_violated",
    "Heracles.C77_sedov1d_spherical",
    "Heracles.C77_sedov3d",
    "Heracles.C77_sedov3d_partial",
    "Heracles.C77_sedov3d_violated"
   ],
   "note": "General formulas: sedov2d gives E1 once per cell whose lower left node is closer than 0.025 to the origin (C77_sedov2d), sedov3d once per cell selected by the exact radius 1 and the local indices (C77_sedov3d). Holds on the shipped inputs (C77_sedov2d_partial, C77_sedov1d_partial, C77_sedov3d_partial on one process; spherical sedov1d on one process C77_sedov1d_spherical). Violated: 2-D, no explosion with 201^2 cells, 4 E1 with 401^2, 9 E1 with 800^2; 1-D, none with 3 ghosts; 3-D, twice E1 on 1x2x1 processes, none on 1x4x1, none with 21 radial cells. In double precision the shipped 2-D file puts E1 in three cells instead of one, see C92. Missing: the test `x == 1` of the 3-D problem in floating point."
  },
  {
   "property": "C78",
   "status": "partial",
   "theorems": [
    "Heracles.C78_physical_1d",
    "Heracles.C78_physical_2d",
    "Heracles.C78_rt_partial",
    "Heracles.C78_rt_violated",
    "Heracles.C78_rt3d",
    "Heracles.C78_sedov"
   ],
   "note": "Proved for shock tube, shock wall, both advections, stratified atmosphere, spherical equilibrium, nickel (C78_physical_1d), implosion, Gresho, Kelvin-Helmholtz, sedov2d (C78_physical_2d), Rayleigh-Taylor 3-D (C78_rt3d), sedov1d and sedov3d (C78_sedov); Rayleigh-Taylor 2-D under conditions (C78_rt_partial). Violated in Rayleigh-Taylor 2-D (C78_rt_violated): the mass fraction lacks the offset fx1 of its profile, so that fx0 = fx1 gives 0 everywhere and fx0 < fx1 a negative one, and the pressure is not positive where rho0 |g| y >= 10/7 + 1/4. Missing: the tabulated setup, whose state is the content of its file (C70)."
  },
  {
   "property": "C79",
   "status": "partial",
   "theorems": [
    "Heracles.C79_content_partial",
    "Heracles.C79_index",
    "Heracles.C79_scalars_violated",
    "Heracles.C79_restart",
    "Heracles.C79_roundtrip_partial",
    "Heracles.C79_refused_partial",
    "Heracles.C79_ghosts_violated",
    "Heracles.C79_gas_violated"
   ],
   "note": "Proved: content of the file for up to ten scalars (C79_content_partial), the index refers only to datasets that exist with the announced sizes (C79_index), reading (C79_restart), round trip between any two process grids (C79_roundtrip_partial), refusal of other extents, missing scalars and missing dimensions (C79_refused_partial). Violated: with more than ten scalars every output fails (C79_scalars_violated); a file with another number of ghosts but the same extents is accepted and each cell gets the values of a cell with other bounds (C79_ghosts_violated); the gas coefficient of the file is not compared (C79_gas_violated). Missing: attributes with the version of the code, and PDI and HDF5 themselves, whose conventions are assumed."
  },
  {
   "property": "C80",
   "status": "proved",
   "theorems": [
    "Heracles.C80_units"
   ],
   "note": "For fresh runs. The heating by nickel is excluded because its constants have units, and the radiation gas because its constants fix the unit of energy density. The assumption RateOk (some cell has non-negative lengths, speeds of sound are not negative, the starting value of the reduction is not positive) excludes that the reduction returns its starting value, which is not rescaled."
  },
  {
   "property": "C81",
   "status": "partial",
   "theorems": [
    "Heracles.C81_exchange",
    "Heracles.C81_symmetric",
    "Heracles.C81_mirror_partial",
    "Heracles.C81_mirror_any_partial",
    "Heracles.C81_mirror_first_order_partial",
    "Heracles.C81_mirror_symmetric_partial",
    "Heracles.C81_fix_mirror_violated"
   ],
   "note": "Full statement for permutations (C81_exchange, C81_symmetric). For a reversed axis: without the pressure fix; with HLL and the low-Mach solver for every run (C81_mirror_any_partial); with HLLC if in every turn the states extrapolated to the faces normal to that axis have positive density and pressure (C81_mirror_partial); with the constant reconstruction without gravity no such assumption is needed (C81_mirror_first_order_partial, C81_mirror_symmetric_partial). Missing: reversed axes with HLLC where extrapolated states are not admissible. With the pressure fix a reversed axis gives other energies (C81_fix_mirror_violated)."
  },
  {
   "property": "C82",
   "status": "proved",
   "theorems": [
    "Heracles.C82_bitwise_decomposition_independent",
    "Heracles.C82_ieee_decomposition_independent"
   ],
   "note": "For kernels that are arbitrary functions the numbers are those of a linear order; with IEEE doubles, NaN, infinities and signed zeros included, for the kernels of the code (C82_ieee_decomposition_independent). Gravity is a common function of the global state (uniform, point mass); the sums of the internal mass gravity are not covered. The kernels are functions of the numbers they read, that is, all processes run the same code."
  },
  {
   "property": "C83",
   "status": "proved",
   "theorems": [
    "Heracles.C83_exact_operations",
    "Heracles.C83_exact_grid",
    "Heracles.C83_exact_pressure_fix"
   ],
   "note": "Run without heating, output and grid shift (the iteration of Model/Distributed); grid arrays and pressure fix in separate theorems. The order of operations is the one written in the source."
  },
  {
   "property": "C84",
   "status": "partial",
   "theorems": [
    "Heracles.C84_time",
    "Heracles.C84_end_exact",
    "Heracles.C84_outputs_partial",
    "Heracles.C84_separated",
    "Heracles.C84_extra_file",
    "Heracles.C84_end_missed",
    "Heracles.C84_stagnation"
   ],
   "note": "Proved for every rounding to nearest: time and end of the run (C84_time, C84_end_exact), timed files when the frequency is at least t_end/2^47 (C84_outputs_partial, C84_separated). Violated: first output 0.7, frequency 0.1 and end 0.8 give a file too many and a step of 2^-53, because 0.7 + 0.1 is below 0.8 (C84_extra_file); the last step can end one digit beside t_end (C84_end_missed); steps below half a digit of t leave the time unchanged and only max_iter ends the run (C84_stagnation). Missing: overflow, underflow, NaN."
  },
  {
   "property": "C85",
   "status": "partial",
   "theorems": [
    "Heracles.C85_uniform_flow_partial",
    "Heracles.C85_uniform_flow_double_partial",
    "Heracles.C85_pure_scalars",
    "Heracles.C85_scalar_violated"
   ],
   "note": "Proved for every arithmetic with the laws of 0 that rounding has, and for doubles with any rounding to nearest: density, momentum and energy stay bit by bit over whole runs on any process grid; scalars follow x*rho/rho, clamped; scalars 0 and 1 stay. Violated for other scalars: 0.11 in density 5 changes in the first iteration (C85_scalar_violated). Missing: overflow to infinities, spherical geometry, gravity, pressure fix."
  },
  {
   "property": "C86",
   "status": "partial",
   "theorems": [
    "Heracles.C86_restart_close_partial",
    "Heracles.C86_restart_violated"
   ],
   "note": "violated: C86_restart_violated (a run that stops and restarts has another momentum in every cell than the uninterrupted one, for every rounding to nearest). Proved: density and scalars are kept bit by bit, momentum to 3/2^53 and energy to 21/2^53 of itself per restart (perfect gas). How such a difference grows in the iterations after the restart is not bounded."
  },
  {
   "property": "C87",
   "status": "partial",
   "theorems": [
    "Heracles.C87_integral_partial",
    "Heracles.C87_integral_violated",
    "Heracles.C87_gravity_partial",
    "Heracles.C87_gravity_violated"
   ],
   "note": "violated: C87_integral_violated (1.2000000000000002 on one process, 1.2 on two), C87_gravity_violated (the gravity of one shell differs in the last digit, with the constants of the code). Proved: integrals of quantities that are not negative are within (q+2)/2^53 of the exact one, gravities on two distributions within (4q+2s+13)/2^53 of each other, where a cell goes through at most q additions and a shell through at most s. Quantities of either sign, where sums cancel, have no such bound."
  },
  {
   "property": "C88",
   "status": "proved",
   "theorems": [
    "Heracles.C88_fresh",
    "Heracles.C88_restart",
    "Heracles.C88_every_execution",
    "Heracles.C88_own_clock"
   ],
   "note": "Proved for main.cpp 305-568 with the modelled kernels: any interleaving, any buffering, any clocks. MPI itself is a model (messages of one pair and tag do not overtake each other, a collective call ends when the needed contributions are there). The grid shift and the MPI calls before line 305 are not part of it; exact arithmetic."
  },
  {
   "property": "C89",
   "status": "partial",
   "theorems": [
    "Heracles.C89_setup_params",
    "Heracles.C89_gresho_vortex_violated",
    "Heracles.C89_kelvin_helmholtz_violated",
    "Heracles.C89_with_known_names",
    "Heracles.C89_example_init_violated",
    "Heracles.C89_unknown_key",
    "Heracles.C89_shipped_keys_ignored_violated",
    "Heracles.C89_no_effect_violated",
    "Heracles.C89_shock_tube_start",
    "Heracles.C89_advection_gap",
    "Heracles.C89_advection_sinus",
    "Heracles.C89_eq_hydro_sphe",
    "Heracles.C89_heat_nickel",
    "Heracles.C89_implosion_test",
    "Heracles.C89_rayleigh_taylor",
    "Heracles.C89_rayleigh_taylor3d",
    "Heracles.C89_sedov1d",
    "Heracles.C89_sedov2d",
    "Heracles.C89_sedov3d_sph",
    "Heracles.C89_shock_tube",
    "Heracles.C89_shock_tube1d_sph",
    "Heracles.C89_shock_tube3d_sph",
    "Heracles.C89_shock_wall_pg",
    "Heracles.C89_shock_wall_rad",
    "Heracles.C89_stratified_atm",
    "Heracles.C89_v1d_1d",
    "Heracles.C89_v1d_3d"
   ],
   "note": "Proved: 18 of the 21 files in inputs/ are accepted and give the run they describe (one theorem per file, from the text of the file); for any file the parameters of every setup are the numbers of the file or the defaults (C89_setup_params); what is written under an unknown key has no effect (C89_unknown_key); the initial state of a shock tube from the file (C89_shock_tube_start). Violated: gresho_vortex.ini and kelvin_helmholtz.ini are refused because the order of the faces is written with names that are not known (C89_gresho_vortex_violated, C89_kelvin_helmholtz_violated; accepted with the known names, C89_with_known_names), example_init.ini is refused (C89_example_init_violated); three files write keys that are not read (C89_shipped_keys_ignored_violated); four parameters are read and have no effect on the initial state (C89_no_effect_violated). Missing: the tables of user-defined grids and of v1d, rounding of the numerals."
  },
  {
   "property": "C90",
   "status": "partial",
   "theorems": [
    "Heracles.C90_nan_spreads",
    "Heracles.C90_nan_everywhere",
    "Heracles.C90_clock_stands",
    "Heracles.C90_infinite_rate",
    "Heracles.C90_energy_check_partial",
    "Heracles.C90_stops_violated"
   ],
   "note": "Violated: a tube with a vacuum in the middle runs for any number of iterations, passes the check of the internal energy each time, holds NaN in all cells from the first iteration on and computes the time step -2^-1024 from the fourth on (C90_stops_violated). In general, for any initial state with a NaN velocity or pressure in one cell: the run goes on and NaN spreads by one face per iteration (C90_nan_spreads), to the whole domain with HLL and the low Mach solver, after which every time step is -2^-1024 (C90_nan_everywhere) and the time stands still (C90_clock_stands); an infinite rate gives the time step 0 (C90_infinite_rate). What holds: the check stops the run exactly when a cell whose internal energy is a number has a negative one (C90_energy_check_partial). Missing: with HLLC the spread towards larger indices, which depends on the speeds."
  },
  {
   "property": "C91",
   "status": "partial",
   "theorems": [
    "Heracles.C91_mirror_partial",
    "Heracles.C91_symmetry_double_partial",
    "Heracles.C91_limiter_violated",
    "Heracles.C91_hllc_violated",
    "Heracles.C91_axes_violated"
   ],
   "note": "Proved for whole runs on any two process grids: first order (constant reconstruction), HLL and low Mach solver, Cartesian grids, every dimension, equation of state, boundary condition but the user-defined one, mirrored gravity; for any arithmetic that treats signs symmetrically (C91_mirror_partial) and for finite doubles rounded to nearest (C91_symmetry_double_partial). Violated, each by a run in IEEE doubles of the perfect gas evaluated by the kernel, on every decomposition: with any of the three limiters with slopes (C91_limiter_violated), with HLLC (C91_hllc_violated), under exchange of axes (C91_axes_violated). Missing: infinities, NaN and the sign of zeros in the positive part; spherical geometry."
  },
  {
   "property": "C92",
   "status": "partial",
   "theorems": [
    "Heracles.C92_implosion",
    "Heracles.C92_implosion_violated",
    "Heracles.C92_sedov2d",
    "Heracles.C92_sedov2d_violated",
    "Heracles.C92_shock_tube",
    "Heracles.C92_advection_gap",
    "Heracles.C92_nodes",
    "Heracles.C92_cells",
    "Heracles.C92_last_node_violated",
    "Heracles.C92_sizes_violated"
   ],
   "note": "Mesh, for all roundings to nearest: first node exact, nodes nondecreasing, error bound (C92_nodes), increasing nodes, positive sizes and centres inside the cells when the cells are larger than the rounding errors (C92_cells). Violated: the last node of 49 cells over [0, 1] is below 1 (C92_last_node_violated); cells of different sizes, nodes of a symmetric box not symmetric (C92_sizes_violated). Initial states in IEEE doubles, on every process grid: as in exact arithmetic for shock_tube.ini and advection_gap.ini (C92_shock_tube, C92_advection_gap). Violated: sedov2d.ini puts the energy E1 in three cells instead of one (C92_sedov2d, C92_sedov2d_violated), implosion_test.ini puts 86 of the 200 cells whose centres lie on the line x + y = 0.15 on the other side of the others (C92_implosion, C92_implosion_violated). Missing: the other setups, which call library functions (sin, exp, atan2) or generate irregular grids."
  },
  {
   "property": "C93",
   "status": "partial",
   "theorems": [
    "Heracles.C93_domain_of_dependence",
    "Heracles.C93_two_cells_reached",
    "Heracles.C93_time_step_violated"
   ],
   "note": "Proved for all kernels and any arithmetic, two decompositions, built-in conditions, any number of iterations, two cells per iteration or one at first order, given equal time steps (C93_domain_of_dependence). The two cells are reached: a run in IEEE doubles with minmod and HLL (C93_two_cells_reached). Without the hypothesis on the time steps the statement is false: the energy of a cell four faces away changes the first time step and with it the result everywhere (C93_time_step_violated). Missing: the internal mass gravity, which depends on the state of all cells; user-defined conditions; the shift of the moving grid and the user step."
  },
  {
   "property": "C94",
   "status": "proved",
   "theorems": [
    "Heracles.C94_linear_density_carried",
    "Heracles.C94_linear_fraction_carried",
    "Heracles.C94_first_order_violated"
   ],
   "note": "Density: C94_linear_density_carried (energy per volume a function of pressure only, as for the perfect gas). Mass fractions with uniform density, any equation of state: C94_linear_fraction_carried. Cells closer than two per iteration to the faces of the domain are left out, because the built-in boundary conditions do not continue a slope. That the limiter Constant is excluded is necessary: C94_first_order_violated."
  },
  {
   "property": "C95",
   "status": "partial",
   "theorems": [
    "Heracles.C95_si",
    "Heracles.C95_astronomy",
    "Heracles.C95_cgs_shipped",
    "Heracles.C95_cgs_violated",
    "Heracles.C95_hubble_violated",
    "Heracles.C95_radiative_shipped",
    "Heracles.C95_radiative_violated",
    "Heracles.C95_perfect_gas",
    "Heracles.C95_radiative_gas_violated",
    "Heracles.C95_proton_mass_violated",
    "Heracles.C95_shipped"
   ],
   "note": "Proved for the mechanical units, the constants but the radiative one, the units of time and astronomy (C95_si, C95_astronomy), the perfect gas (C95_perfect_gas); cgs quantities, Hubble and radiative constant in the base units of the code only (C95_cgs_shipped, C95_radiative_shipped). Violated in other base units: C95_cgs_violated, C95_hubble_violated, C95_radiative_violated, C95_radiative_gas_violated; violated as shipped: the proton mass (C95_proton_mass_violated)."
  },
  {
   "property": "C96",
   "status": "proved",
   "theorems": [
    "Heracles.C96_fractions_apart"
   ],
   "note": "C96_fractions_apart: any arithmetic. The two runs share the process grid and the order of the reductions; user-defined boundary conditions and user steps that read the mass fractions (heating with composition) are left out, gravity must not look at the fractions."
  },
  {
   "property": "C97",
   "status": "partial",
   "theorems": [
    "Heracles.C97_two_fractions_partial",
    "Heracles.C97_first_order_partial",
    "Heracles.C97_three_violated"
   ],
   "note": "Proved in exact arithmetic for two fractions (C97_two_fractions_partial) and for any number with the reconstruction Constant when nothing is clamped (C97_first_order_partial), as long as no density comes out as zero. Violated for three fractions with a limiter (C97_three_violated): the sum exceeds 1.01 after one iteration."
  },
  {
   "property": "C98",
   "status": "partial",
   "theorems": [
    "Heracles.C98_slab_partial",
    "Heracles.C98_rate",
    "Heracles.C98_fix_violated"
   ],
   "note": "Proved in exact arithmetic on Cartesian grids for runs that take the same time steps, any decompositions (C98_slab). The time steps of the code are not the same (C98_rate). With the pressure fix and cells of two sizes along the new axis it is false: a uniform stream loses energy (C98_fix_violated). Rounding, spherical grids, user-defined conditions left out."
  },
  {
   "property": "C99",
   "status": "partial",
   "theorems": [
    "Heracles.C99_boost_partial",
    "Heracles.C99_rate"
   ],
   "note": "Proved in exact arithmetic on Cartesian grids for runs that take the same time steps, any decompositions (C99_boost_partial). The time steps of the code depend on the added velocity (C99_rate). With the pressure fix it is false (C98_fix_violated: a gas at rest stays as it is, the same gas in motion does not). Rounding, spherical grids, user-defined conditions left out."
  },
  {
   "property": "C100",
   "status": "partial",
   "theorems": [
    "Heracles.C100_bounds_partial",
    "Heracles.C100_sum_partial",
    "Heracles.C100_slopes_violated",
    "Heracles.C100_mass_violated",
    "Heracles.C100_run_partial"
   ],
   "note": "Proved without slopes: runs in which no cell gives away more mass than it has (C100_bounds_partial, C100_sum_partial), and whole runs of the program under a Courant condition (C100_run_partial). False with every other limiter, in doubles and below the time step of the code (C100_slopes_violated); the clamp then creates mass of the species (C100_mass_violated, Minmod and HLL). Rounding is left out of the positive part."
  },
  {
   "property": "C101",
   "status": "proved",
   "theorems": [
    "Heracles.C101_ledger"
   ],
   "note": "C101_ledger, for kRun with the kernels of exact arithmetic. Rounding is not treated; momentum in spherical geometry has source terms (C62) and is left out."
  },
  {
   "property": "C102",
   "status": "partial",
   "theorems": [
    "Heracles.C102_contact_partial",
    "Heracles.C102_fraction_partial",
    "Heracles.C102_diagonal_violated",
    "Heracles.C102_lee_violated",
    "Heracles.C102_minmod_partial",
    "Heracles.C102_minmod_fraction_partial",
    "Heracles.C102_minmod_run_partial",
    "Heracles.C102_minmod_fraction_run_partial",
    "Heracles.C102_contact_run_partial",
    "Heracles.C102_fraction_run_partial"
   ],
   "note": "Proved in one dimension on cells of equal size, range and sum of jumps: contact wave with HLLC (C102_contact_partial; for VanLeer and VanAlbada under hi < 2 lo, without it C102_lee_violated), mass fraction in a uniform stream with every solver and limiter (C102_fraction_partial). In one to three dimensions, periodic or open boundaries, the range is kept without slopes and with MinMod (C102_minmod_partial, C102_minmod_fraction_partial); with VanLeer and VanAlbada it is not (C102_diagonal_violated). Rounding is left out; the time step is a hypothesis weaker than the condition of the code. Whole runs of the program with its own time step and Courant number up to 1: C102_contact_run_partial, C102_fraction_run_partial, C102_minmod_run_partial, C102_minmod_fraction_run_partial."
  },
  {
   "property": "C103",
   "status": "partial",
   "theorems": [
    "Heracles.C103_options",
    "Heracles.C103_unknown_ignored",
    "Heracles.C103_usage_partial",
    "Heracles.C103_flags_violated",
    "Heracles.C103_option_first_violated"
   ],
   "note": "Which files are read is proved for every command line (C103_options, C103_unknown_ignored). A missing configuration file is answered by the usage message when MPI and Kokkos take nothing out (C103_usage_partial); otherwise a null pointer is read (C103_flags_violated). An option before the configuration file is taken for it (C103_option_first_violated)."
  },
  {
   "property": "C104",
   "status": "partial",
   "theorems": [
    "Heracles.C104_resources_partial",
    "Heracles.C104_returned",
    "Heracles.C104_exception_violated",
    "Heracles.C104_horizontal_violated",
    "Heracles.C104_grid_violated"
   ],
   "note": "For every choice of throwing statements: nothing given back twice, MPI, Kokkos and memory always given back, all inside the life of MPI, and everything but the horizontal communicator on a run that ends normally (C104_resources_partial, C104_returned). False for PDI and its tree after an exception, for the horizontal communicator always, for the Cartesian communicator when the constructor of the grid throws (three _violated theorems)."
  },
  {
   "property": "C105",
   "status": "partial",
   "theorems": [
    "Heracles.C105_density_partial",
    "Heracles.C105_fraction_partial"
   ],
   "note": "First order error bound against the exact solution for the whole program, uniform in the number of steps: density (HLLC) and mass fractions (any solver) carried by a uniform wind without slopes (C105_density_partial, C105_fraction_partial). Missing: limited slopes (second order), flows that are not a wind."
  },
  {
   "property": "C106",
   "status": "partial",
   "theorems": [
    "Heracles.C106_contact_partial",
    "Heracles.C106_fraction_partial",
    "Heracles.C106_profile_partial"
   ],
   "note": "Proved for whole runs of the program in one dimension and any limiter: density with HLLC (C106_contact_partial, C106_profile_partial; VanLeer and VanAlbada under hi < 2 lo, which the shipped advection_sinus.ini meets), mass fractions with any solver (C106_fraction_partial). Missing: the second order the test expects of smooth profiles, more dimensions, flows that are not a wind, rounding."
  },
  {
   "property": "C107",
   "status": "partial",
   "theorems": [
    "Heracles.C107_decomposition",
    "Heracles.C107_advection_sinus_partial",
    "Heracles.C107_advection_gap_partial"
   ],
   "note": "The decomposition part is proved in full (C107_decomposition). The two shipped files are followed from their text to every result file (C107_advection_sinus_partial, C107_advection_gap_partial) in exact arithmetic: rounding, std::stod on doubles and the sine of the machine are missing, and the order of convergence is that of C106."
  },
  {
   "property": "C108",
   "status": "partial",
   "theorems": [
    "Heracles.C108_kelvin_helmholtz_partial",
    "Heracles.C108_translation",
    "Heracles.C108_period"
   ],
   "note": "The two statements about runs are proved in full in exact arithmetic (C108_translation, C108_period). C108_kelvin_helmholtz_partial follows the text of the input file, with the Priority line corrected (C89_kelvin_helmholtz_violated: the shipped line is refused), to every result file; rounding, std::stod on doubles and the sine, exponential and tanh of the machine are missing, and the sums of the momentum assume that no density in the file is zero."
  },
  {
   "property": "C109",
   "status": "partial",
   "theorems": [
    "Heracles.C109_implosion_partial",
    "Heracles.C109_sedov_partial"
   ],
   "note": "C109_implosion_partial and C109_sedov_partial follow the shipped files from their text to every result file in exact arithmetic: rounding and std::stod on doubles are missing (with rounding the sums over the faces of the two axes are taken in a fixed order, which is not symmetric)."
  },
  {
   "property": "C110",
   "status": "partial",
   "theorems": [
    "Heracles.C110_released",
    "Heracles.C110_heated",
    "Heracles.C110_heat_nickel_partial"
   ],
   "note": "C110_released and C110_heated (any uniform perfect gas, any decomposition) are proved in full in exact arithmetic. C110_heat_nickel_partial follows inputs/heat_nickel.ini from its text to every result file; rounding, std::stod on doubles and the exponential of the machine are missing."
  },
  {
   "property": "C111",
   "status": "partial",
   "theorems": [
    "Heracles.C111_quarter_turn_partial",
    "Heracles.C111_gresho_partial"
   ],
   "note": "C111_quarter_turn_partial: HLL and low-Mach solver, any reconstruction, exact arithmetic. C111_gresho_partial: the shipped file with the names of the faces corrected (the file as shipped is refused, C89_gresho_vortex_violated), from its text to every result file. Missing: rounding, HLLC with states that may be inadmissible, a central force, the pressure fix (with it the claim fails for mirrors, C81_fix_mirror_violated)."
  },
  {
   "property": "C112",
   "status": "partial",
   "theorems": [
    "Heracles.C112_rayleigh_taylor_partial",
    "Heracles.C112_slide",
    "Heracles.C112_period"
   ],
   "note": "C112_slide and C112_period in full, in exact arithmetic, Cartesian geometry. C112_rayleigh_taylor_partial: the shipped file from its text to every result file. Missing: rounding; the total mass of that run is not conserved exactly, since gravity across a reflexive wall lets mass through (C75)."
  }
 ]
}