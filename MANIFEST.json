{
 "claims": [
  {
   "property": "C01",
   "status": "proved",
   "theorems": [
    "Bolt.C01_particle_number_each_momentum",
    "Bolt.C01_total_particle_number"
   ],
   "note": ""
  },
  {
   "property": "C02",
   "status": "proved",
   "theorems": [
    "Bolt.C02_momentum_advection_conserves_density",
    "Bolt.C02_density_slope_independent_of_fields"
   ],
   "note": ""
  },
  {
   "property": "C03",
   "status": "proved",
   "theorems": [
    "Bolt.C03_uniform_state_preserved"
   ],
   "note": ""
  },
  {
   "property": "C04",
   "status": "proved",
   "theorems": [
    "Bolt.C04_upwind_state",
    "Bolt.C04_first_order_upwind_flux",
    "Bolt.C04_slope_is_flux_difference",
    "Bolt.C04_momentum_slope_is_flux_difference"
   ],
   "note": ""
  },
  {
   "property": "C05",
   "status": "proved",
   "theorems": [
    "Bolt.C05_minmod_faces_between",
    "Bolt.C05_minmod_faces_in_range",
    "Bolt.C05_minmod_extremum",
    "Bolt.C05_minmod_is_minmod"
   ],
   "note": ""
  },
  {
   "property": "C06",
   "status": "proved",
   "theorems": [
    "Bolt.C06_minmod_linear_exact",
    "Bolt.C06_ppm_linear_exact"
   ],
   "note": ""
  },
  {
   "property": "C07",
   "status": "proved",
   "theorems": [
    "Bolt.C07_ppm_faces_between",
    "Bolt.C07_ppm_faces_in_range",
    "Bolt.C07_ppm_extremum",
    "Bolt.C07_ppm_parabola_monotone"
   ],
   "note": ""
  },
  {
   "property": "C08",
   "status": "proved",
   "theorems": [
    "Bolt.C08_reflection",
    "Bolt.C08_affine",
    "Bolt.C08_shift",
    "Bolt.C08_weno5_not_symmetric"
   ],
   "note": ""
  },
  {
   "property": "C09",
   "status": "proved",
   "theorems": [
    "Bolt.C09_riemann_option_ignored",
    "Bolt.C09_slope_ok_iff",
    "Bolt.C09_run_succeeds",
    "Bolt.C09_reconstruct_dispatch",
    "Bolt.C09_reconstruct_ok_iff"
   ],
   "note": ""
  },
  {
   "property": "C10",
   "status": "proved",
   "theorems": [
    "Bolt.C10_positivity",
    "Bolt.C10_maximum_principle"
   ],
   "note": ""
  },
  {
   "property": "C11",
   "status": "proved",
   "theorems": [
    "Bolt.Decomp.C11_decomposition_independence",
    "Bolt.Decomp.C11_two_decompositions_agree",
    "Bolt.Decomp.C11_run_exists"
   ],
   "note": ""
  },
  {
   "property": "C12",
   "status": "proved",
   "theorems": [
    "Bolt.C12_insufficient_ghosts_change_result"
   ],
   "note": ""
  },
  {
   "property": "C13",
   "status": "proved",
   "theorems": [
    "Bolt.C13_divB_preserved",
    "Bolt.C13_divB_zero_preserved",
    "Bolt.C13_run_succeeds"
   ],
   "note": ""
  },
  {
   "property": "C14",
   "status": "proved",
   "theorems": [
    "Bolt.C14_gauss_law_preserved",
    "Bolt.C14_gauss_law_for_ever",
    "Bolt.C14_run_exists"
   ],
   "note": ""
  },
  {
   "property": "C15",
   "status": "proved",
   "theorems": [
    "Bolt.C15_divE_step",
    "Bolt.C15_divE_run",
    "Bolt.C15_divE_vacuum"
   ],
   "note": ""
  },
  {
   "property": "C16",
   "status": "proved",
   "theorems": [
    "Bolt.C16_energy_conserved"
   ],
   "note": ""
  },
  {
   "property": "C17",
   "status": "proved",
   "theorems": [
    "Bolt.C17_reversible",
    "Bolt.C17_bijective"
   ],
   "note": ""
  },
  {
   "property": "C18",
   "status": "proved",
   "theorems": [
    "Bolt.C18_to_centre",
    "Bolt.C18_to_yee",
    "Bolt.C18_only_requested",
    "Bolt.C18_const",
    "Bolt.C18_sum_preserved"
   ],
   "note": ""
  },
  {
   "property": "C19",
   "status": "proved",
   "theorems": [
    "Bolt.C19_one_update_per_step",
    "Bolt.C19_flag_and_time",
    "Bolt.C19_electrostatic_flag"
   ],
   "note": ""
  },
  {
   "property": "C20",
   "status": "proved",
   "theorems": [
    "Bolt.C20_fluxes_use_alternating_levels",
    "Bolt.C20_init_aliases",
    "Bolt.C20_time_levels_coincide",
    "Bolt.C20_aliased_update",
    "Bolt.C20_documented_level_false"
   ],
   "note": ""
  },
  {
   "property": "C21",
   "status": "proved",
   "theorems": [
    "Bolt.C21_gauss_in_every_resolved_mode",
    "Bolt.C21_curl_free_in_every_resolved_mode",
    "Bolt.C21_mean_zero",
    "Bolt.C21_background_irrelevant",
    "Bolt.C21_when_it_runs",
    "Bolt.C21_gauss_law",
    "Bolt.C21_curl_free",
    "Bolt.C21_interpolates",
    "Bolt.C21_odd_grids_resolve_everything",
    "Bolt.C21_nyquist_component_dropped"
   ],
   "note": ""
  },
  {
   "property": "C22",
   "status": "proved",
   "theorems": [
    "Bolt.C22_inverse_of_forward",
    "Bolt.C22_forward_of_inverse",
    "Bolt.C22_linear_normalisation",
    "Bolt.C22_inverse_raises"
   ],
   "note": ""
  },
  {
   "property": "C23",
   "status": "proved",
   "theorems": [
    "Bolt.C23_A3_B3_divergence_free",
    "Bolt.C23_divergence_free_for_ever",
    "Bolt.C23_vector_potential_not_divergence_free",
    "Bolt.C23_vector_potential_other_divergence",
    "Bolt.C23_electric_from_potentials",
    "Bolt.C23_values",
    "Bolt.C23_init_errors"
   ],
   "note": ""
  },
  {
   "property": "C24",
   "status": "proved",
   "theorems": [
    "Bolt.C24_boundaries_keep_interior",
    "Bolt.C24_field_boundaries_keep_interior",
    "Bolt.Decomp.C24_exchange_keeps_interior"
   ],
   "note": ""
  },
  {
   "property": "C25",
   "status": "proved",
   "theorems": [
    "Bolt.Decomp.C25_periodic_images",
    "Bolt.Decomp.C25_image_exists",
    "Bolt.Decomp.C25_exchange_idempotent",
    "Bolt.Decomp.C25_blocks_refine_exchange",
    "Bolt.Decomp.C25_communicates",
    "Bolt.Decomp.C25_none_needs_one_cell"
   ],
   "note": ""
  },
  {
   "property": "C26",
   "status": "proved",
   "theorems": [
    "Bolt.C26_mirror_cartesian",
    "Bolt.C26_reverses_momentum",
    "Bolt.C26_polar_reflects_angle",
    "Bolt.C26_ghosts_show_images"
   ],
   "note": ""
  },
  {
   "property": "C27",
   "status": "proved",
   "theorems": [
    "Bolt.C27_mirror_walls_impermeable",
    "Bolt.C27_nonrelativistic"
   ],
   "note": ""
  },
  {
   "property": "C28",
   "status": "proved",
   "theorems": [
    "Bolt.C28_dirichlet_prescribes_inflow",
    "Bolt.C28_mirror_dirichlet"
   ],
   "note": ""
  },
  {
   "property": "C29",
   "status": "proved",
   "theorems": [
    "Bolt.C29_shear_wraps",
    "Bolt.C29_hangs_without_extent"
   ],
   "note": ""
  },
  {
   "property": "C30",
   "status": "proved",
   "theorems": [
    "Bolt.C30_dispatch",
    "Bolt.C30_unknown_raises",
    "Bolt.C30_inner_process",
    "Bolt.C30_touches_iff_owns",
    "Bolt.C30_fields"
   ],
   "note": ""
  },
  {
   "property": "C31",
   "status": "proved",
   "theorems": [
    "Bolt.C31_validation",
    "Bolt.C31_ghost_widths",
    "Bolt.C31_communication_types",
    "Bolt.C31_accepts_mismatch"
   ],
   "note": ""
  },
  {
   "property": "C32",
   "status": "proved",
   "theorems": [
    "Bolt.C32_order_of_accuracy",
    "Bolt.C32_linear_amplification",
    "Bolt.C32_constant_slope",
    "Bolt.C32_linear_invariants"
   ],
   "note": ""
  },
  {
   "property": "C33",
   "status": "proved",
   "theorems": [
    "Bolt.C33_composition",
    "Bolt.C33_composition_fields",
    "Bolt.C33_exact_for_commuting_flows"
   ],
   "note": ""
  },
  {
   "property": "C34",
   "status": "proved",
   "theorems": [
    "Bolt.C34_order_of_splitting"
   ],
   "note": ""
  },
  {
   "property": "C35",
   "status": "proved",
   "theorems": [
    "Bolt.C35_time_bookkeeping",
    "Bolt.C35_elapsed_time",
    "Bolt.C35_divergence_raises"
   ],
   "note": ""
  },
  {
   "property": "C36",
   "status": "proved",
   "theorems": [
    "Bolt.C36_fvm_single_update",
    "Bolt.C36_unknown_method",
    "Bolt.C36_calls_without_fields",
    "Bolt.C36_calls_with_fields",
    "Bolt.C36_calls_mixed"
   ],
   "note": ""
  },
  {
   "property": "C37",
   "status": "proved",
   "theorems": [
    "Bolt.C37_to_p_expanded",
    "Bolt.C37_to_q_expanded",
    "Bolt.C37_round_trip",
    "Bolt.C37_indices_cover",
    "Bolt.C37_rejects"
   ],
   "note": ""
  },
  {
   "property": "C38",
   "status": "proved",
   "theorems": [
    "Bolt.Decomp.C38_dump_succeeds",
    "Bolt.Decomp.C38_file_contents",
    "Bolt.Decomp.C38_load_succeeds",
    "Bolt.Decomp.C38_load_contents",
    "Bolt.Decomp.C38_round_trip",
    "Bolt.Decomp.C38_load_own_dump",
    "Bolt.Decomp.C38_cell_centred_fields"
   ],
   "note": ""
  },
  {
   "property": "C39",
   "status": "proved",
   "theorems": [
    "Bolt.C39_attributes_alphabetical",
    "Bolt.Decomp.C39_file_layout"
   ],
   "note": ""
  },
  {
   "property": "C40",
   "status": "proved",
   "theorems": [
    "Bolt.C40_cell_centres",
    "Bolt.C40_corner_and_bottom_face",
    "Bolt.C40_left_face_wrong",
    "Bolt.C40_spacing",
    "Bolt.C40_centres_inside",
    "Bolt.C40_periodic_images",
    "Bolt.C40_momentum_coordinates"
   ],
   "note": ""
  },
  {
   "property": "C41",
   "status": "proved",
   "theorems": [
    "Bolt.C41_electronic_no_work",
    "Bolt.C41_magnetic_force_does_no_work",
    "Bolt.C41_lorentz_force",
    "Bolt.C41_component_independent",
    "Bolt.C41_uniform_in_momentum_unchanged"
   ],
   "note": ""
  },
  {
   "property": "C42",
   "status": "proved",
   "theorems": [
    "Bolt.C42_linear",
    "Bolt.C42_integrals",
    "Bolt.C42_energy_parts",
    "Bolt.C42_nonneg",
    "Bolt.C42_density_zero_iff",
    "Bolt.C42_momentum_bound",
    "Bolt.C42_compute_moments"
   ],
   "note": ""
  },
  {
   "property": "C43",
   "status": "proved",
   "theorems": [
    "Bolt.C43_zero_iff_maxwellian",
    "Bolt.C43_flag_returns_maxwellian",
    "Bolt.C43_temperature_positive",
    "Bolt.C43_maxwellian_shape",
    "Bolt.C43_maxwellian_density",
    "Bolt.C43_maxwellian_bulk",
    "Bolt.C43_local_maxwellian_positive",
    "Bolt.C43_local_equilibrium",
    "Bolt.C43_temperature_is_variance",
    "Bolt.C43_relaxes",
    "Bolt.C43_collisionless_limit",
    "Bolt.C43_temperature_of_gas_at_rest",
    "Bolt.C43_wrong_equilibrium_unless_k_is_one"
   ],
   "note": ""
  },
  {
   "property": "C44",
   "status": "proved",
   "theorems": [
    "Bolt.C44_inverse_4x4",
    "Bolt.C44_inverse_3x3",
    "Bolt.C44_divisor_is_determinant"
   ],
   "note": ""
  },
  {
   "property": "C45",
   "status": "proved",
   "theorems": [
    "Bolt.C45_between_zero_and_one",
    "Bolt.C45_drifting_between_zero_and_one",
    "Bolt.C45_monotone",
    "Bolt.C45_particle_hole",
    "Bolt.C45_newton_mu",
    "Bolt.C45_mu_unique",
    "Bolt.C45_newton_mu_fixed_iff",
    "Bolt.C45_newton_mu_T",
    "Bolt.C45_newton_drifting",
    "Bolt.C45_drifting_fixed_iff",
    "Bolt.C45_newton_drifting_constant_T",
    "Bolt.C45_singular_when_one_dimensional",
    "Bolt.C45_drifting_equilibrium",
    "Bolt.C45_rta_relaxes",
    "Bolt.C45_rta_zero_at_equilibrium",
    "Bolt.C45_rta_zero_iff",
    "Bolt.C45_rta_conserves_particles",
    "Bolt.C45_rta_special_cases"
   ],
   "note": ""
  },
  {
   "property": "C46",
   "status": "proved",
   "theorems": [
    "Bolt.C46_initial_state",
    "Bolt.C46_modes_independent",
    "Bolt.C46_amplitude",
    "Bolt.C46_mean_mode_constant",
    "Bolt.C46_clock",
    "Bolt.C46_clock_run",
    "Bolt.C46_order",
    "Bolt.C46_converges_to_free_streaming",
    "Bolt.C46_never_raises",
    "Bolt.C46_multispecies_fields_raise",
    "Bolt.C46_particles_with_fields"
   ],
   "note": ""
  },
  {
   "property": "C47",
   "status": "proved",
   "theorems": [
    "Bolt.C47_divB_unchanged",
    "Bolt.C47_vector_potential_solenoidal",
    "Bolt.C47_gauss_residual_unchanged",
    "Bolt.C47_electrostatic",
    "Bolt.C47_gauss_after_any_run",
    "Bolt.C47_hybrid_has_no_hall_term",
    "Bolt.C47_hybrid_pressure_lost",
    "Bolt.C47_fields_frozen_during_step",
    "Bolt.C47_ohm",
    "Bolt.C47_initial_fields",
    "Bolt.C47_initial_attributes"
   ],
   "note": ""
  },
  {
   "property": "C48",
   "status": "proved",
   "theorems": [
    "Bolt.C48_exact_on_quartics",
    "Bolt.C48_sums_to_zero",
    "Bolt.C48_along_axes",
    "Bolt.C48_background_is_mean",
    "Bolt.C48_wraps_at_the_ends"
   ],
   "note": ""
  },
  {
   "property": "C49",
   "status": "proved",
   "theorems": [
    "Bolt.C49_accepted_iff",
    "Bolt.C49_spacings",
    "Bolt.C49_one_species_ordered",
    "Bolt.C49_zero_resolution",
    "Bolt.C49_second_species_unchecked",
    "Bolt.C49_fields"
   ],
   "note": ""
  },
  {
   "property": "C50",
   "status": "proved",
   "theorems": [
    "Bolt.C50_min",
    "Bolt.C50_min_defined",
    "Bolt.C50_min_empty",
    "Bolt.C50_max_raises",
    "Bolt.C50_mean_defined",
    "Bolt.C50_mean",
    "Bolt.C50_mean_iff",
    "Bolt.C50_mean_between"
   ],
   "note": ""
  },
  {
   "property": "C51",
   "status": "proved",
   "theorems": [
    "Bolt.C51_interpolates_at_foot",
    "Bolt.C51_whole_cells",
    "Bolt.C51_no_time",
    "Bolt.C51_uniform",
    "Bolt.C51_foot_outside_gives_zero",
    "Bolt.C51_decomposition_independence",
    "Bolt.C51_exact_on_quadratics",
    "Bolt.C51_conserves",
    "Bolt.C51_overshoots",
    "Bolt.C51_momentum_whole_cells",
    "Bolt.C51_momentum_no_time",
    "Bolt.C51_momentum_interpolates",
    "Bolt.C51_first_momentum_axis_never_advected"
   ],
   "note": ""
  },
  {
   "property": "C52",
   "status": "proved",
   "theorems": [
    "Bolt.C52_cases",
    "Bolt.C52_conserves",
    "Bolt.C52_relaxation",
    "Bolt.C52_equilibrium"
   ],
   "note": ""
  },
  {
   "property": "C53",
   "status": "proved",
   "theorems": [
    "Bolt.C53_indent_lines",
    "Bolt.C53_indent_line_count",
    "Bolt.C53_indent_twice",
    "Bolt.C53_indent_zero",
    "Bolt.C53_indent_newlines",
    "Bolt.C53_debye",
    "Bolt.C53_skin_depth",
    "Bolt.C53_gyroradius",
    "Bolt.C53_crossing",
    "Bolt.C53_sound_speed_ignores_mass",
    "Bolt.C53_density_scaling"
   ],
   "note": ""
  },
  {
   "property": "C54",
   "status": "proved",
   "theorems": [
    "Bolt.C54_fdtd_stable"
   ],
   "note": ""
  },
  {
   "property": "C55",
   "status": "proved",
   "theorems": [
    "Bolt.Decomp.C55_box_conserves_particles"
   ],
   "note": ""
  },
  {
   "property": "C56",
   "status": "proved",
   "theorems": [
    "Bolt.Decomp.C56_box_decomposition_independence",
    "Bolt.Decomp.C56_run_exists"
   ],
   "note": ""
  },
  {
   "property": "C57",
   "status": "proved",
   "theorems": [
    "Bolt.Decomp.C57_aux_layout",
    "Bolt.Decomp.C57_aux_count_fixed",
    "Bolt.Decomp.C57_aux_needs_ghosts"
   ],
   "note": ""
  },
  {
   "property": "C58",
   "status": "proved",
   "theorems": [
    "Bolt.C58_source_balances_divergence",
    "Bolt.C58_free_motion",
    "Bolt.C58_straight_lines"
   ],
   "note": ""
  },
  {
   "property": "C59",
   "status": "proved",
   "theorems": [
    "Bolt.C59_rk4_stable_iff",
    "Bolt.C59_rk2_always_grows",
    "Bolt.C59_rk5_stable",
    "Bolt.C59_rk4_bounded",
    "Bolt.C59_rk2_unbounded"
   ],
   "note": ""
  },
  {
   "property": "C60",
   "status": "proved",
   "theorems": [
    "Bolt.C60_electrostatic_fields_never_updated",
    "Bolt.C60_electrodynamic"
   ],
   "note": ""
  },
  {
   "property": "C61",
   "status": "proved",
   "theorems": [
    "Bolt.C61_dump_contents",
    "Bolt.C61_same_file_as_nonlinear",
    "Bolt.C61_load_contents",
    "Bolt.C61_round_trip_iff",
    "Bolt.C61_load_transposes",
    "Bolt.C61_moments_layout"
   ],
   "note": ""
  },
  {
   "property": "C62",
   "status": "proved",
   "theorems": [
    "Bolt.C62_source_adds_to_the_rate",
    "Bolt.C62_source_step",
    "Bolt.C62_instantaneous_collisions"
   ],
   "note": ""
  },
  {
   "property": "C63",
   "status": "proved",
   "theorems": [
    "Bolt.C63_electrodynamic",
    "Bolt.C63_electrostatic",
    "Bolt.C63_fixed_fields",
    "Bolt.C63_mean_magnetic_force_counted_twice"
   ],
   "note": ""
  },
  {
   "property": "C64",
   "status": "proved",
   "theorems": [
    "Bolt.C64_maxwell",
    "Bolt.C64_poynting",
    "Bolt.C64_light_wave"
   ],
   "note": ""
  },
  {
   "property": "C65",
   "status": "proved",
   "theorems": [
    "Bolt.C65_single",
    "Bolt.C65_coupled",
    "Bolt.C65_order",
    "Bolt.C65_order_time_dependent",
    "Bolt.C65_electrodynamic_step",
    "Bolt.C65_electrostatic_step"
   ],
   "note": ""
  },
  {
   "property": "C66",
   "status": "proved",
   "theorems": [
    "Bolt.C66_moments_of_the_distribution",
    "Bolt.C66_bundled_moments",
    "Bolt.C66_moments_arguments",
    "Bolt.C66_refuses_iff",
    "Bolt.C66_accepts_mirrors"
   ],
   "note": ""
  },
  {
   "property": "C67",
   "status": "proved",
   "theorems": [
    "Bolt.C67_current_check",
    "Bolt.C67_whole_grid_run_exists",
    "Bolt.Decomp.C67_coupled_decomposition_independence",
    "Bolt.Decomp.C67_two_decompositions_agree",
    "Bolt.Decomp.C67_decomposed_run_exists",
    "Bolt.Decomp.C67_initial_fields_agree"
   ],
   "note": ""
  },
  {
   "property": "C68",
   "status": "proved",
   "theorems": [
    "Bolt.C68_one_wall",
    "Bolt.C68_ghost_values",
    "Bolt.C68_mirror_symmetric",
    "Bolt.C68_corner",
    "Bolt.C68_mirror_wall_B",
    "Bolt.C68_mirror_floor_B",
    "Bolt.Decomp.C68_touches_iff_owns",
    "Bolt.Decomp.C68_on_every_process",
    "Bolt.Decomp.C68_wall_B_frozen",
    "Bolt.Decomp.C68_walls_identified",
    "Bolt.Decomp.C68_run_exists",
    "Bolt.C68_documented_B3_false"
   ],
   "note": ""
  },
  {
   "property": "C69",
   "status": "proved",
   "theorems": [
    "Bolt.C69_run_on_covering_grid",
    "Bolt.C69_nonrelativistic_callbacks",
    "Bolt.C69_translation",
    "Bolt.C69_symmetry_kept",
    "Bolt.C69_invariance_kept",
    "Bolt.C69_magnetic_field",
    "Bolt.C69_copies_of_the_period",
    "Bolt.C69_electrostatic_field_translates",
    "Bolt.C69_electrostatic_run"
   ],
   "note": ""
  },
  {
   "property": "C70",
   "status": "proved",
   "theorems": [
    "Bolt.C70_fields_assigned",
    "Bolt.C70_step",
    "Bolt.C70_uniform",
    "Bolt.C70_pressure_exerts_no_net_force",
    "Bolt.C70_density_of_the_pressure_term"
   ],
   "note": ""
  },
  {
   "property": "C71",
   "status": "proved",
   "theorems": [
    "Bolt.C71_step",
    "Bolt.C71_mean_electric_field",
    "Bolt.C71_mean_magnetic_field",
    "Bolt.C71_uniform"
   ],
   "note": ""
  },
  {
   "property": "C72",
   "status": "proved",
   "theorems": [
    "Bolt.C72_error_bound",
    "Bolt.C72_convergence",
    "Bolt.C72_many_processes"
   ],
   "note": ""
  },
  {
   "property": "C73",
   "status": "proved",
   "theorems": [
    "Bolt.C73_minmod_unlimited",
    "Bolt.C73_ppm_unlimited",
    "Bolt.C73_first_order",
    "Bolt.C73_minmod_second_order",
    "Bolt.C73_ppm_fourth_order",
    "Bolt.C73_slope"
   ],
   "note": ""
  },
  {
   "property": "C74",
   "status": "proved",
   "theorems": [
    "Bolt.C74_any_other_name",
    "Bolt.C74_no_momentum_advection",
    "Bolt.C74_terms_add_up",
    "Bolt.C74_each_term",
    "Bolt.C74_terms_conserve",
    "Bolt.C74_two_calls_advance_the_fields",
    "Bolt.C74_needs_a_step_size"
   ],
   "note": ""
  },
  {
   "property": "C75",
   "status": "proved",
   "theorems": [
    "Bolt.C75_momentum",
    "Bolt.C75_energy",
    "Bolt.C75_energy_axis",
    "Bolt.C75_magnetic_heating",
    "Bolt.C75_midpoint"
   ],
   "note": ""
  },
  {
   "property": "C76",
   "status": "proved",
   "theorems": [
    "Bolt.Decomp.C76_script_succeeds",
    "Bolt.Decomp.C76_file_contents",
    "Bolt.Decomp.C76_same_file"
   ],
   "note": ""
  },
  {
   "property": "C77",
   "status": "proved",
   "theorems": [
    "Bolt.Decomp.C77_resume",
    "Bolt.Decomp.C77_resume_succeeds",
    "Bolt.Decomp.C77_resume_autonomous",
    "Bolt.C77_clock_not_saved"
   ],
   "note": ""
  },
  {
   "property": "C78",
   "status": "proved",
   "theorems": [
    "Bolt.C78_restored",
    "Bolt.C78_exact_iff",
    "Bolt.C78_restart_changes_the_run",
    "Bolt.C78_electrostatic_exact",
    "Bolt.Decomp.C78_files",
    "Bolt.Decomp.C78_partition_independent",
    "Bolt.Decomp.C78_scripts_succeed"
   ],
   "note": "The English claim is what the code does; exact restart of an electrodynamic run is refuted by C78_restart_changes_the_run and characterised by C78_exact_iff."
  },
  {
   "property": "C79",
   "status": "proved",
   "theorems": [
    "Bolt.C79_electric_history",
    "Bolt.C79_lag",
    "Bolt.C79_bounded"
   ],
   "note": ""
  },
  {
   "property": "C80",
   "status": "proved",
   "theorems": [
    "Bolt.C80_modes",
    "Bolt.C80_fft",
    "Bolt.C80_fft_with_magnetic",
    "Bolt.C80_gain_lt_one",
    "Bolt.C80_staggered_divergence",
    "Bolt.C80_gauss_iff_uniform",
    "Bolt.C80_gauss_violated_for_ever"
   ],
   "note": ""
  },
  {
   "property": "C81",
   "status": "proved",
   "theorems": [
    "Bolt.C81_plane_wave_iff",
    "Bolt.C81_dispersion",
    "Bolt.C81_every_wave_oscillates",
    "Bolt.C81_not_faster_than_light",
    "Bolt.C81_second_order"
   ],
   "note": ""
  },
  {
   "property": "C82",
   "status": "proved",
   "theorems": [
    "Bolt.C82_no_self_force",
    "Bolt.C82_fields_seen",
    "Bolt.C82_gauss",
    "Bolt.C82_momentum_rate",
    "Bolt.C82_momentum_conserved"
   ],
   "note": ""
  },
  {
   "property": "C83",
   "status": "proved",
   "theorems": [
    "Bolt.Decomp.C83_divB_report",
    "Bolt.Decomp.C83_A3_reports_zero",
    "Bolt.Decomp.C83_divE_report",
    "Bolt.Decomp.C83_divE_fair",
    "Bolt.Decomp.C83_permittivity_ignored",
    "Bolt.Decomp.C83_report_exists",
    "Bolt.C83_depends_on_processes",
    "Bolt.C83_misses_violation",
    "Bolt.C83_blind_to_the_seam"
   ],
   "note": ""
  },
  {
   "property": "C84",
   "status": "proved",
   "theorems": [
    "Bolt.C84_continuity",
    "Bolt.C84_step",
    "Bolt.C84_prefactor",
    "Bolt.C84_current_iff",
    "Bolt.C84_polar_current",
    "Bolt.C84_polar_reports_current",
    "Bolt.C84_polar_moments"
   ],
   "note": ""
  },
  {
   "property": "C85",
   "status": "proved",
   "theorems": [
    "Bolt.C85_one_axis",
    "Bolt.C85_ppm_positive",
    "Bolt.C85_undershoot",
    "Bolt.C85_minmod_negative"
   ],
   "note": ""
  },
  {
   "property": "C86",
   "status": "proved",
   "theorems": [
    "Bolt.C86_contraction",
    "Bolt.C86_convex_functionals",
    "Bolt.C86_squares",
    "Bolt.C86_entropy"
   ],
   "note": ""
  },
  {
   "property": "C87",
   "status": "proved",
   "theorems": [
    "Bolt.C87_without_fields",
    "Bolt.C87_species",
    "Bolt.C87_order",
    "Bolt.C87_neutral",
    "Bolt.C87_nonrelativistic_callbacks",
    "Bolt.C87_bgk",
    "Bolt.C87_poisson"
   ],
   "note": ""
  },
  {
   "property": "C88",
   "status": "proved",
   "theorems": [
    "Bolt.C88_given_forces",
    "Bolt.C88_coupled",
    "Bolt.C88_nonrelativistic_callbacks",
    "Bolt.C88_size_of_domain",
    "Bolt.C88_attained"
   ],
   "note": ""
  },
  {
   "property": "C89",
   "status": "proved",
   "theorems": [
    "Bolt.C89_exchanged_run",
    "Bolt.C89_electrodynamic_run",
    "Bolt.C89_symmetry_kept",
    "Bolt.C89_nonrelativistic_callbacks",
    "Bolt.C89_electrostatic_field",
    "Bolt.C89_electrostatic_run"
   ],
   "note": ""
  },
  {
   "property": "C90",
   "status": "proved",
   "theorems": [
    "Bolt.C90_mirrored_run",
    "Bolt.C90_electrodynamic_run",
    "Bolt.C90_symmetry_kept",
    "Bolt.C90_nonrelativistic_callbacks",
    "Bolt.C90_electrostatic_field",
    "Bolt.C90_electrostatic_run",
    "Bolt.C90_hybrid_not_symmetric"
   ],
   "note": ""
  },
  {
   "property": "C91",
   "status": "proved",
   "theorems": [
    "Bolt.C91_run_in_other_units",
    "Bolt.C91_electrodynamic_run",
    "Bolt.C91_nonrelativistic_callbacks",
    "Bolt.C91_electrostatic_field",
    "Bolt.C91_electrostatic_run",
    "Bolt.C91_collisions_not_scale_free"
   ],
   "note": ""
  },
  {
   "property": "C92",
   "status": "proved",
   "theorems": [
    "Bolt.C92_never_amplifies",
    "Bolt.C92_kept_iff",
    "Bolt.C92_runs_never_drift_apart",
    "Bolt.C92_error_bound",
    "Bolt.C92_convergence"
   ],
   "note": ""
  },
  {
   "property": "C93",
   "status": "proved",
   "theorems": [
    "Bolt.C93_step",
    "Bolt.C93_divB_kept",
    "Bolt.C93_field_clock",
    "Bolt.C93_runs",
    "Bolt.C93_kinetic_electrons_raise",
    "Bolt.C93_start",
    "Bolt.C93_force_lie",
    "Bolt.C93_force_swss_first",
    "Bolt.C93_force_swss_later",
    "Bolt.C93_uniform",
    "Bolt.C93_swss_not_restored"
   ],
   "note": ""
  },
  {
   "property": "C94",
   "status": "proved",
   "theorems": [
    "Bolt.C94_error_bound",
    "Bolt.C94_convergence",
    "Bolt.C94_same_time",
    "Bolt.C94_convergence_same_time"
   ],
   "note": ""
  },
  {
   "property": "C95",
   "status": "proved",
   "theorems": [
    "Bolt.Decomp.C95_decomposition_independence",
    "Bolt.Decomp.C95_positivity",
    "Bolt.Decomp.C95_bounds",
    "Bolt.Decomp.C95_absorbing",
    "Bolt.Decomp.C95_balance"
   ],
   "note": ""
  },
  {
   "property": "C96",
   "status": "proved",
   "theorems": [
    "Bolt.C96_every_schedule",
    "Bolt.C96_two_schedules_agree",
    "Bolt.C96_no_infinite_schedule",
    "Bolt.C96_no_deadlock",
    "Bolt.C96_exception_holds_up_others",
    "Bolt.Decomp.C96_run_result",
    "Bolt.Decomp.C96_every_schedule_and_decomposition",
    "Bolt.Decomp.C96_run_completes",
    "Bolt.C96_divergence_stops_only_one_process"
   ],
   "note": ""
  },
  {
   "property": "C97",
   "status": "proved",
   "theorems": [
    "Bolt.C97_average_error",
    "Bolt.C97_largest_error",
    "Bolt.C97_convergence",
    "Bolt.C97_many_processes"
   ],
   "note": ""
  },
  {
   "property": "C98",
   "status": "proved",
   "theorems": [
    "Bolt.C98_weighted_parabolas",
    "Bolt.C98_between",
    "Bolt.C98_exact_on_parabolas",
    "Bolt.C98_exact_on_quartics"
   ],
   "note": ""
  },
  {
   "property": "C99",
   "status": "proved",
   "theorems": [
    "Bolt.C99_script_ends",
    "Bolt.C99_steps_and_labels",
    "Bolt.C99_multiples",
    "Bolt.C99_every_interval",
    "Bolt.C99_no_interval",
    "Bolt.C99_distribution_files",
    "Bolt.C99_distribution_missed",
    "Bolt.C99_restart_after_crash",
    "Bolt.C99_no_restart",
    "Bolt.C99_file_names",
    "Bolt.C99_file_names_collide",
    "Bolt.C99_near_loop",
    "Bolt.C99_near_loop_runs_on",
    "Bolt.C99_numbered_files",
    "Bolt.C99_recorded"
   ],
   "note": ""
  },
  {
   "property": "C100",
   "status": "proved",
   "theorems": [
    "Bolt.C100_script_bounds",
    "Bolt.C100_sharp",
    "Bolt.C100_recipe_too_large",
    "Bolt.C100_one_dimensional",
    "Bolt.C100_fields_stable",
    "Bolt.C100_fields_unstable"
   ],
   "note": ""
  },
  {
   "property": "C101",
   "status": "proved",
   "theorems": [
    "Bolt.C101_free_particles",
    "Bolt.C101_source_needed",
    "Bolt.C101_without_source",
    "Bolt.C101_uniform_gas",
    "Bolt.C101_uniform_gas_without_source",
    "Bolt.C101_third_velocity",
    "Bolt.C101_energy_moment",
    "Bolt.C101_density_moment",
    "Bolt.C101_beam_speed",
    "Bolt.C101_beam_index",
    "Bolt.C101_beam_rejected"
   ],
   "note": ""
  },
  {
   "property": "C102",
   "status": "proved",
   "theorems": [
    "Bolt.C102_device_run",
    "Bolt.C102_refuses",
    "Bolt.C102_floor",
    "Bolt.C102_restart_continues",
    "Bolt.C102_restart_forgets_time",
    "Bolt.C102_contacts",
    "Bolt.C102_contact_names",
    "Bolt.C102_exclusion",
    "Bolt.C102_drive_frozen",
    "Bolt.C102_left_ghosts",
    "Bolt.C102_right_ghosts",
    "Bolt.C102_band",
    "Bolt.C102_velocity_is_gradient"
   ],
   "note": ""
  },
  {
   "property": "C103",
   "status": "proved",
   "theorems": [
    "Bolt.C103_every_schedule",
    "Bolt.C103_two_schedules_agree",
    "Bolt.C103_no_infinite_schedule",
    "Bolt.C103_no_deadlock",
    "Bolt.C103_exception_holds_up_others",
    "Bolt.C103_no_end_after_exception",
    "Bolt.Decomp.C103_exchanges",
    "Bolt.Decomp.C103_run_result",
    "Bolt.Decomp.C103_every_schedule_and_decomposition",
    "Bolt.Decomp.C103_run_completes"
   ],
   "note": ""
  },
  {
   "property": "C104",
   "status": "proved",
   "theorems": [
    "Bolt.C104_equilibrium_moments",
    "Bolt.C104_rates",
    "Bolt.C104_source_step",
    "Bolt.C104_defect_vanishes",
    "Bolt.C104_not_exact"
   ],
   "note": ""
  },
  {
   "property": "C105",
   "status": "proved",
   "theorems": [
    "Bolt.C105_whole_run",
    "Bolt.C105_decomposition_independence",
    "Bolt.C105_conserves",
    "Bolt.C105_never_amplifies"
   ],
   "note": ""
  },
  {
   "property": "C106",
   "status": "proved",
   "theorems": [
    "Bolt.C106_whole_cells",
    "Bolt.C106_time_zero",
    "Bolt.C106_column_sums",
    "Bolt.Decomp.C106_ghost_cells",
    "Bolt.Decomp.C106_ghost_cells_q2",
    "Bolt.Decomp.C106_runs",
    "Bolt.Decomp.C106_runs_q2",
    "Bolt.Decomp.C106_divided_walls",
    "Bolt.C106_limited_not_conserved",
    "Bolt.Decomp.C106_first_order_conserves",
    "Bolt.Decomp.C106_whole_cells_conserve",
    "Bolt.Decomp.C106_third_order",
    "Bolt.Decomp.C106_divided_walls_lose",
    "Bolt.Decomp.C106_data_exist",
    "Bolt.Decomp.C106_first_order_conserves_q2",
    "Bolt.Decomp.C106_whole_cells_conserve_q2",
    "Bolt.Decomp.C106_third_order_q2",
    "Bolt.Decomp.C106_divided_walls_right",
    "Bolt.Decomp.C106_divided_walls_bottom",
    "Bolt.Decomp.C106_divided_walls_top"
   ],
   "note": ""
  },
  {
   "property": "C107",
   "status": "proved",
   "theorems": [
    "Bolt.C107_same_program",
    "Bolt.C107_bitwise_decomposition_independence",
    "Bolt.C107_bitwise_two_decompositions",
    "Bolt.C107_damage_spreads_slowly",
    "Bolt.C107_uniform_state_kept",
    "Bolt.C107_conservation_up_to_rounding",
    "Bolt.C107_first_order_drift",
    "Bolt.C107_first_order_drift_run",
    "Bolt.C107_double_accurate",
    "Bolt.C107_double_exact",
    "Bolt.C107_conservation_not_exact"
   ],
   "note": "Machine operations are an arbitrary structure for bit equality and locality; velocities, forces and sources are given as the same machine numbers on every process. The order of operations follows the Python source; ArrayFire's just-in-time compiler is assumed not to contract or reorder them. Reductions over processes are not part of the step."
  },
  {
   "property": "C108",
   "status": "proved",
   "theorems": [
    "Bolt.C108_edge_not_felt",
    "Bolt.C108_wider_grid",
    "Bolt.C108_tails",
    "Bolt.C108_three_axes",
    "Bolt.C108_two_axes",
    "Bolt.C108_one_axis",
    "Bolt.C108_wraps_around"
   ],
   "note": "Collisionless runs (sources off); velocities and forces are given functions of the cell, the same on both grids. The unlimited grid is not a grid of the program but the reference the property compares with."
  },
  {
   "property": "C109",
   "status": "proved",
   "theorems": [
    "Bolt.C109_particles",
    "Bolt.C109_fields",
    "Bolt.C109_vacuum",
    "Bolt.C109_balance",
    "Bolt.C109_uniform",
    "Bolt.C109_first_step"
   ],
   "note": "The bundled nonrelativistic physics, whose momentum variable is the velocity; periodic boundaries, sources off, first order in momentum space. The field energy is the one the leapfrog scheme conserves, with the product of the magnetic fields before and after; for a uniform state it is the usual one."
  },
  {
   "property": "C110",
   "status": "proved",
   "theorems": [
    "Bolt.C110_recurrence",
    "Bolt.C110_growth",
    "Bolt.C110_growth_from_start",
    "Bolt.C110_exact_oscillation"
   ],
   "note": "Same runs as C109, uniform in space, initial magnetic field zero, fixed step size. The constant in front of the growth depends on the step size alone."
  },
  {
   "property": "C111",
   "status": "proved",
   "theorems": [
    "Bolt.C111_uniform_fields_kept",
    "Bolt.C111_divB_drift",
    "Bolt.C111_gauss_drift",
    "Bolt.C111_divB_not_exact",
    "Bolt.C111_same_program",
    "Bolt.C111_bitwise_decomposition_independence",
    "Bolt.C111_decompositions_agree",
    "Bolt.C111_run_exists",
    "Bolt.C111_damage_spreads_slowly"
   ],
   "note": "Modelled with uninterpreted machine operations; kinetic electrons (not the hybrid model). The rounding theorems assume a relative error bound for every operation: overflow and underflow are covered by the first part only. u <= 1/8 serves to simplify (1+u)^5-1 to 7u."
  },
  {
   "property": "C112",
   "status": "proved",
   "theorems": [
    "Bolt.C112_damage_spreads_slowly",
    "Bolt.C112_same_program",
    "Bolt.C112_bitwise_decomposition_independence",
    "Bolt.C112_whole_grid_run_exists",
    "Bolt.C112_two_decompositions_agree",
    "Bolt.C112_decomposed_run_exists"
   ],
   "note": "Kinetic electrons with the explicit field solver; the electrostatic FFT branch and the hybrid model are not in the machine-arithmetic model. af.sum is any function of the column it is given: that its result does not depend on the place of the column in the array is an assumption."
  },
  {
   "property": "C113",
   "status": "proved",
   "theorems": [
    "Bolt.C113_slope",
    "Bolt.C113_slope_exact",
    "Bolt.C113_moments",
    "Bolt.C113_currents",
    "Bolt.C113_force",
    "Bolt.C113_momentum_velocity_needs_full_shape",
    "Bolt.C113_step",
    "Bolt.C113_run",
    "Bolt.C113_step_succeeds",
    "Bolt.C113_dumped_run",
    "Bolt.C113_inputs_exist",
    "Bolt.C113_inputs_exist_run",
    "Bolt.C113_blocks_exist"
   ],
   "note": "Reconstructions modelled on arrays: piecewise-constant, minmod, PPM; the sum `af.sum` is any function of the column. The code refuses WENO5 (SystemExit), and so does the model. The semantics of ArrayFire used: an operator on two arrays raises unless the shapes agree or, inside af.broadcast, each dimension agrees or is 1. The field solver's array program is C115."
  },
  {
   "property": "C114",
   "status": "proved",
   "theorems": [
    "Bolt.C114_multiply",
    "Bolt.C114_add",
    "Bolt.C114_order",
    "Bolt.C114_species",
    "Bolt.C114_species_row",
    "Bolt.C114_mixed_input_destroyed",
    "Bolt.C114_charge_list_kept",
    "Bolt.C114_spacings",
    "Bolt.C114_linear_derivative"
   ],
   "note": "ArrayFire semantics assumed: assigning a row of more than one element to one element raises; len of an array is its number of elements; indexing a (1, n) array with one index gives a row."
  },
  {
   "property": "C115",
   "status": "proved",
   "theorems": [
    "Bolt.C115_field_update",
    "Bolt.C115_time_levels",
    "Bolt.C115_unsummed_currents_rejected",
    "Bolt.C115_fdtd_step",
    "Bolt.C115_fdtd_run",
    "Bolt.C115_dumped_fields",
    "Bolt.C115_field_phase",
    "Bolt.C115_slope",
    "Bolt.C115_coupled_step",
    "Bolt.C115_coupled_run",
    "Bolt.C115_dumped_coupled_run",
    "Bolt.C115_coupled_step_succeeds",
    "Bolt.C115_lorentz_force",
    "Bolt.C115_lorentz_inputs"
   ],
   "note": "Periodic axes (or one cell without ghost zones); the hybrid branch and the electrostatic solver are not part of the array program; ArrayFire's order of summation is a parameter."
  },
  {
   "property": "C116",
   "status": "proved",
   "theorems": [
    "Bolt.C116_local_maxwellian",
    "Bolt.C116_collision_term",
    "Bolt.C116_tau_shapes",
    "Bolt.C116_tau_of_coordinates",
    "Bolt.C116_zero_dimensions",
    "Bolt.C116_collisions_are_local",
    "Bolt.C116_exact",
    "Bolt.C116_bundled_inputs",
    "Bolt.C116_bundled_agree",
    "Bolt.C116_dumped_bundled_run"
   ],
   "note": "Cartesian momentum grid; elementary functions and order of summation are parameters; periodic axes (or one cell without ghost zones) in the run theorem."
  },
  {
   "property": "C117",
   "status": "proved",
   "theorems": [
    "Bolt.C117_boundaries",
    "Bolt.C117_mirror",
    "Bolt.C117_line_of_cells",
    "Bolt.C117_wall_values_need_full_shape",
    "Bolt.C117_step",
    "Bolt.C117_run",
    "Bolt.C117_step_succeeds",
    "Bolt.C117_exact",
    "Bolt.C117_inputs_exist"
   ],
   "note": "The interpolation of the shearing box is any function here (its own model is in ShearBox). Comparisons must be exact, as those of floating-point numbers are."
  },
  {
   "property": "C118",
   "status": "proved",
   "theorems": [
    "Bolt.C118_closed_box",
    "Bolt.C118_open_box",
    "Bolt.C118_exact",
    "Bolt.C118_closed_file",
    "Bolt.C118_open_file",
    "Bolt.C118_box_succeeds",
    "Bolt.C118_closed_same_file",
    "Bolt.C118_open_same_file"
   ],
   "note": "Multiplying a stale ghost value by zero gives zero only for finite values: infinities and not-a-number values are outside the arithmetic considered."
  },
  {
   "property": "C119",
   "status": "proved",
   "theorems": [
    "Bolt.C119_walls",
    "Bolt.C119_numbers_rejected",
    "Bolt.C119_step",
    "Bolt.C119_run",
    "Bolt.C119_step_succeeds",
    "Bolt.C119_exact"
   ],
   "note": "Slices with a negative bound are modelled for a positive number of ghost cells; the shearing box of the fields raises, as in Model/Boundaries."
  },
  {
   "property": "C120",
   "status": "proved",
   "theorems": [
    "Bolt.C120_field_phase",
    "Bolt.C120_slope",
    "Bolt.C120_step",
    "Bolt.C120_run",
    "Bolt.C120_step_succeeds",
    "Bolt.C120_exact"
   ],
   "note": "Kinetic electrons only: the hybrid branch is not part of the array program."
  },
  {
   "property": "C121",
   "status": "proved",
   "theorems": [
    "Bolt.C121_wall",
    "Bolt.C121_one_ghost_cell",
    "Bolt.Decomp.C121_ghost_cells",
    "Bolt.Decomp.C121_ghost_cells_q2",
    "Bolt.Decomp.C121_runs",
    "Bolt.Decomp.C121_runs_q2",
    "Bolt.Decomp.C121_centres_exist",
    "Bolt.Decomp.C121_walls_exist",
    "Bolt.Decomp.C121_run_exists"
   ],
   "note": "Exact arithmetic: the cubic interpolation is not modelled with rounding."
  },
  {
   "property": "C122",
   "status": "proved",
   "theorems": [
    "Bolt.C122_interp_q",
    "Bolt.C122_interp_q_one_cell",
    "Bolt.C122_interp_p_one_species",
    "Bolt.C122_interp_p_mixed",
    "Bolt.C122_interp_p_shared_grid",
    "Bolt.C122_interp_p_raises",
    "Bolt.C122_exact_q",
    "Bolt.C122_exact_p",
    "Bolt.Decomp.C122_op_advect_q",
    "Bolt.Decomp.C122_foot",
    "Bolt.C122_inputs_exist",
    "Bolt.C122_coord_exists",
    "Bolt.C122_mixed_moves_without_force"
   ],
   "note": "Positive parts in any arithmetic and with any kernel that reads the array only; feet of characteristics in exact arithmetic with the cubic kernel. For several species the momentum routine is proved to raise or to mix the species."
  },
  {
   "property": "C123",
   "status": "proved",
   "theorems": [
    "Bolt.Decomp.C123_whole_run",
    "Bolt.C123_decomposition_independence",
    "Bolt.C123_bgk_run"
   ],
   "note": "Exact arithmetic and the cubic kernel; periodic domain, no fields. The source function is a parameter; `C123_bgk_run` takes the bundled collision operator."
  },
  {
   "property": "C124",
   "status": "proved",
   "theorems": [
    "Bolt.C124_electrostatic_order",
    "Bolt.C124_electrostatic_converges",
    "Bolt.C124_electrodynamic_first_order",
    "Bolt.C124_electrodynamic_converges",
    "Bolt.C124_exact_oscillation_energy",
    "Bolt.C124_oscillation_grows",
    "Bolt.C124_electrodynamic_not_second_order"
   ],
   "note": "Nonrelativistic equations, one species, no source and no instantaneous collisions; the hybrid model is left out. The mean magnetic field acts on the mean mode as the code has it (C63)."
  }
 ]
}