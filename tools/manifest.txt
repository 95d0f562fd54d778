C01 proved Foxes.Props.Chunks.C01_chunk_sizes_partition Foxes.Props.Chunks.C01_chunk_sizes_balanced Foxes.Props.Chunks.C01_zero_states_raises
  For every n_states >= 1, worker count and chunk size settings.
C02 partial Foxes.Props.Chunks.C02_chunk_size_exceeded Foxes.Props.Chunks.C02_chunk_size_bound_partial
  The property is false of the code (chunks of c+1 occur): refuted by a witness; what holds is the bound c+1.
C03 proved Foxes.Props.Run.C03_points_chunking_invariant Foxes.Props.Run.C03_farm_chunking_invariant Foxes.Props.Run.C03_engines_agree
  For models that act state by state (and point by point), the modelled chunk/concatenate path.
C04 proved Foxes.Props.Run.C04_schedule_independent Foxes.Props.Run.C04_rows_must_match
  Any completion order of the jobs.
C05 proved Foxes.Props.Run.C05_pool_map_eq_map
C06 proved Foxes.Props.Run.C06_points_weights Foxes.Props.Run.C06_farm_weights Foxes.Props.Run.C06_weights_combined
C07 proved Foxes.Props.Engine.C07_at_most_one_engine Foxes.Props.Engine.C07_second_engine_raises Foxes.Props.Engine.C07_with_block_releases Foxes.Props.Engine.C07_failed_enter_leaves_trace Foxes.Props.Engine.C07_failed_enter_sticks
  Also records that a failing __enter__ leaves the entered flag set.
C08 proved Foxes.Props.ChunkStore.C08_prev_chunk Foxes.Props.ChunkStore.C08_get_add Foxes.Props.ChunkStore.C08_prev_target_of_farm_chunk Foxes.Props.ChunkStore.C08_empty_store
C09 partial Foxes.Props.ChunkStore.C09_processes_never_fail Foxes.Props.ChunkStore.C09_threads_noniterative_never_fail Foxes.Props.ChunkStore.C09_threads_iterative_race
  Holds for processes and for non-iterative threads; refuted for iterative runs on threads by an explicit schedule.
C10 proved Foxes.Props.Downwind.C10_to_downwind Foxes.Props.Downwind.C10_back_to_farm_order Foxes.Props.Downwind.C10_round_trip
  For any number of states and turbines, any per-state order, including the shortcut for constant arrays and NaN.
C11 partial Foxes.Props.Downwind.C11_reported_order_inv_iff_identity Foxes.Props.Downwind.C11_counterexample Foxes.Props.Downwind.C11_internal_inverse_partial
  False of the code: holds exactly for the identity order; the inverse is right before the final reordering.
C12 partial Foxes.Props.Downwind.C12_downwind Foxes.Props.Downwind.C12_upwind Foxes.Props.Downwind.C12_several_models_partial Foxes.Props.Downwind.C12_two_models_not_final Foxes.Props.Downwind.C12_mixed_raises
  Full for one wake model (downwind or upwind). For several models the code does not update contributions of earlier models: exact characterisation and counterexample.
C13 proved Foxes.Props.Order.C13_order_perm_sorted Foxes.Props.Order.C13_no_turbine_before_its_upstream Foxes.Props.Order.C13_sorted_order Foxes.Props.Order.C13_inhomogeneous_counterexample
  RotorWD order; for inhomogeneous wind direction a counterexample shows the limits.
C14 proved Foxes.Props.Numbering.C14_numbering_invariant
  One downwind wake model with strictly downstream, commuting contributions.
C15 proved Foxes.Props.Iterative.C15_loop_stops
C16 partial Foxes.Props.Numbering.C16_sweeps_reach_downwind Foxes.Props.Numbering.C16_fixed_point_is_downwind Foxes.Props.Iterative.C16_iterative_returns_downwind Foxes.Props.Numbering.C16_two_models_differ
  Proved for one wake model; refuted for two wake models (the Downwind algorithm is then not a fixed point).
C17 partial Foxes.Props.Iterative.C17_reordered_iff_partial Foxes.Props.Iterative.C17_ambient_never_reordered Foxes.Props.Iterative.C17_returns_previous_sweep Foxes.Props.Iterative.C17_last_sweep_lost
  False of the code for ambient runs and runs ending in iteration 0; also the last sweep is dropped.
C18 proved Foxes.Props.Iterative.C18_conv_var_delta Foxes.Props.Iterative.C18_nan_never_converges Foxes.Props.Iterative.C18_list_is_conjunction
C20 partial Foxes.Props.Controller.C20_every_turbines_order Foxes.Props.Controller.C20_applied_to_listing_turbines Foxes.Props.Controller.C20_succeeds_iff_compatible Foxes.Props.Controller.C20_own_order_iff_partial Foxes.Props.Controller.C20_pre_rotor_after_post_rotor_counterexample
  Full for models of one kind (merge exists iff found, every turbine's order kept). A pre-rotor model listed after a post-rotor model is silently moved forward: refuted by a witness, exact condition proved.
C21 partial Foxes.Props.Controller.C21_post_rotor_selection_shifted Foxes.Props.Controller.C21_selection_right_partial Foxes.Props.Controller.C21_counterexample
  False of the code for post-rotor models after pre-rotor models: exact index shift proved; right for the leading kind.
C19 proved Foxes.Props.Sequential.C19_all_states_in_order Foxes.Props.Sequential.C19_memoryless Foxes.Props.Sequential.C19_resumes_after_break Foxes.Props.Sequential.C19_repeated_labels_raise Foxes.Props.Sequential.C19_failure_stays Foxes.Props.Sequential.C19_next_without_iter Foxes.Props.Sequential.C19_break_counterexample Foxes.Props.Sequential.C19_one_state_fails Foxes.Props.Sequential.C19_kinds
  For distinct state labels, a fresh iteration and a number of states not known to be one at construction (all needed: with repeated labels the first step raises, an interrupted loop is resumed, one state known in advance raises KeyError; C19_kinds gives the outcome for every class of states). Calculations may depend on all earlier states. Points and plugins: C90.
C22 proved Foxes.Props.Lifecycle.C22_initialize Foxes.Props.Lifecycle.C22_finalize Foxes.Props.Lifecycle.C22_loaded_once Foxes.Props.Lifecycle.C22_illegal_raise Foxes.Props.Lifecycle.C22_running_and_back Foxes.Props.Lifecycle.C22_same_key
  For any acyclic sub-model graph with distinct names, any history of calls.
C23 partial Foxes.Props.Lifecycle.C23_unusable_after_failure Foxes.Props.Lifecycle.C23_reusable_after_success Foxes.Props.Lifecycle.C23_points_reusable Foxes.Props.Lifecycle.C23_points_unusable
  False of the code after a failing calculation (proved for every continuation); reusable after success.
C24 partial Foxes.Props.Superposition.C24_order_independent Foxes.Props.Superposition.C24_closed_forms Foxes.Props.Superposition.C24_max_form Foxes.Props.Superposition.C24_max_le_quadratic_le_linear Foxes.Props.Superposition.C24_product_partial Foxes.Props.Superposition.C24_product_order_partial Foxes.Props.Superposition.C24_product_order_counterexample Foxes.Props.Superposition.C24_product_depends_on_neighbours
  Full for all 12 superpositions but WSProduct; WSProduct is order (and chunk) dependent if all targets of a chunk are fully blocked: refuted by witnesses, proved under a condition on the total product.
C25 partial Foxes.Props.Superposition.C25_limits Foxes.Props.Superposition.C25_limits_not_binding Foxes.Props.Superposition.C25_no_wakes Foxes.Props.Superposition.C25_zero_wake_neutral Foxes.Props.Superposition.C25_sign Foxes.Props.Superposition.C25_product_no_wakes_finding Foxes.Props.Superposition.C25_product_unwaked_target_partial Foxes.Props.Superposition.C25_ti_unlimited
  Full for all but WSProduct, whose wind speed is zero if no wake is added at all (proved).
C26 proved Foxes.Props.WakeModels.C26_betz_range Foxes.Props.WakeModels.C26_betz_solves Foxes.Props.WakeModels.C26_betz_inverse Foxes.Props.WakeModels.C26_monotone Foxes.Props.WakeModels.C26_madsen_range Foxes.Props.WakeModels.C26_madsen_large_ct
  Betz and Madsen induction; Madsen exceeds 1/2 for ct >= 1.2 (proved), where the wake models would return NaN.
C27 proved Foxes.Props.WakeModels.C27_top_hat_point Foxes.Props.WakeModels.C27_jensen_bounds Foxes.Props.WakeModels.C27_jensen_decay Foxes.Props.WakeModels.C27_jensen_conserves Foxes.Props.WakeModels.C27_gauss_bounds Foxes.Props.WakeModels.C27_gauss_radial Foxes.Props.WakeModels.C27_bastankhah_width Foxes.Props.WakeModels.C27_bastankhah_centre_decay Foxes.Props.WakeModels.C27_turbopark_width
C47 proved Foxes.Props.WakeModels.C47_near_far_continuous Foxes.Props.WakeModels.C47_crespo_hernandez_radius Foxes.Props.WakeModels.C47_crespo_hernandez_shape Foxes.Props.WakeModels.C47_iec
C28 proved Foxes.Props.Circles.C28_calc_area_is_overlap_area
  Equality with the Lebesgue measure of the intersection of the two discs, for any centres and radii; symmetry, bounds and monotonicity follow from it.
C29 partial Foxes.Props.PartialWakes.C29_top_hat_partial Foxes.Props.PartialWakes.C29_top_hat_wrong_diameter Foxes.Props.PartialWakes.C29_axiwake_weights_partial Foxes.Props.PartialWakes.C29_axiwake_rings Foxes.Props.PartialWakes.C29_axiwake_radii Foxes.Props.PartialWakes.C29_axiwake_mean_partial Foxes.Props.PartialWakes.C29_axiwake_delta_partial Foxes.Props.PartialWakes.C29_axiwake_rim_lost Foxes.Props.PartialWakes.C29_segregated
  Proved for equal rotor diameters and wake axes not exactly at the rotor rim. False of the code otherwise (both proved): the diameter of the wake causing turbine is used, and at the rim the wake is lost.
C30 partial Foxes.Props.Rotor.C30_grid_weights Foxes.Props.Rotor.C30_grid_linear_field Foxes.Props.Rotor.C30_level_weights_partial Foxes.Props.Rotor.C30_level_empty Foxes.Props.Rotor.C30_rotor_points Foxes.Props.Rotor.C30_uniform_wind Foxes.Props.Rotor.C30_bounds Foxes.Props.Rotor.C30_rews_order Foxes.Props.Rotor.C30_centre_rotor Foxes.Props.Rotor.C30_rotor_point_offset Foxes.Props.Rotor.C30_single_point Foxes.Props.Rotor.C30_grid_cells
  Full for grid rotors and the general evaluation; level rotors need nint >= 3 (none left for nint = 2, proved), the centre rotor does not cut negative REWS (proved).
C31 proved Foxes.Props.WindDir.C31_convention Foxes.Props.WindDir.C31_range Foxes.Props.WindDir.C31_direction_round_trip Foxes.Props.WindDir.C31_vector_round_trip Foxes.Props.WindDir.C31_delta_wd Foxes.Props.WindDir.C31_delta_wd_limit Foxes.Props.WindDir.C31_yaw_round_trip
C32 partial Foxes.Props.Frames.C32_isometry Foxes.Props.Frames.C32_coordinates Foxes.Props.Frames.C32_west_wind Foxes.Props.Frames.C32_centreline Foxes.Props.Frames.C32_yawed_single_point Foxes.Props.Frames.C32_yawed_lateral_lost Foxes.Props.Frames.C32_yawed_centreline_mirrored Foxes.Props.Frames.C32_yawed_centreline_partial
  Full for RotorWD and for single-point targets of YawedWakes. YawedWakes loses the lateral coordinate of multi-point targets and its centreline points are mirrored (both proved).
C33 partial Foxes.Props.TurbineModels.C33_power Foxes.Props.TurbineModels.C33_induction Foxes.Props.TurbineModels.C33_derating Foxes.Props.TurbineModels.C33_thrust_of_ratio Foxes.Props.TurbineModels.C33_beyond_betz_not_finite Foxes.Props.TurbineModels.C33_rated_power_of_wrong_turbine
  Power and thrust at one array position, for all values; refuted where the rated power list (farm order) is indexed by downwind position, and for limits beyond Betz.
C34 partial Foxes.Props.TurbineModels.C34_post_rotor_permuted_twice Foxes.Props.TurbineModels.C34_post_rotor_right_iff Foxes.Props.TurbineModels.C34_pre_rotor_not_reordered Foxes.Props.TurbineModels.C34_right_partial Foxes.Props.TurbineModels.C34_constant_data Foxes.Props.TurbineModels.C34_diameter_needs_one_chunk
  False of the code: exact result proved for any order; right exactly if the downwind order is the farm order (or constant data).
C44 partial Foxes.Props.TurbineModels.C44_sector_partial Foxes.Props.TurbineModels.C44_full_circle_never Foxes.Props.TurbineModels.C44_last_matching_row Foxes.Props.TurbineModels.C44_wrong_turbine Foxes.Props.Sectors.C44_range Foxes.Props.Sectors.C44_load Foxes.Props.Sectors.C44_call Foxes.Props.Sectors.C44_once Foxes.Props.Sectors.C44_stale_rule Foxes.Props.Sectors.C44_selection_ignored
  Any number of range and target variables, any limits (C44_range, C44_call), loading, repeated calls (C44_once). Refuted for the full circle, for farms whose downwind order differs from the farm order, and for range variables changed by wakes (C44_stale_rule).
C45 partial Foxes.Props.Cubic.C45_roots_partial Foxes.Props.Cubic.C45_sound Foxes.Props.Cubic.C45_single_root_missing
  All real roots are found for non-positive discriminant and Q /= 0; nothing is found otherwise (proved), contrary to the property.
C48 proved Foxes.Props.TurbineModels.C48_thrust2ct Foxes.Props.TurbineModels.C48_kTI
  For one state and turbine, exact arithmetic.
C35 partial Foxes.Props.PowerCurve.C35_at_samples Foxes.Props.PowerCurve.C35_between_samples Foxes.Props.PowerCurve.C35_outside Foxes.Props.PowerCurve.C35_bounds Foxes.Props.PowerCurve.C35_row_order Foxes.Props.PowerCurve.C35_p_nominal Foxes.Props.PowerCurve.C35_yaw_correction Foxes.Props.PowerCurve.C35_density_inverted Foxes.Props.PowerCurve.C35_lookup_partial Foxes.Props.PowerCurve.C35_shared_variable Foxes.Props.PowerCurve.C35_overwrites_wind_speed Foxes.Props.PowerCurve.C35_ramp Foxes.Props.PowerCurve.C35_modify_cutin Foxes.Props.PowerCurve.C35_no_cutin_raises Foxes.Props.PowerCurve.C35_integer_wind_speeds_no_ramp Foxes.Props.PowerCurve.C35_power_changed_by_ct_cutin Foxes.Props.PowerCurve.C35_cpct_file_fails Foxes.Props.PowerCurve.C35_wsrho_thrust_wind_speed Foxes.Props.PowerCurve.C35_wsrho_yaw_raises
  Look-up, row order, yaw correction and cut-in ramp in full; density correction, nominal power in other units and shared-type views are refuted by theorems.
C36 partial Foxes.Props.Abl.C36_reference Foxes.Props.Abl.C36_rereference Foxes.Props.Abl.C36_ustar Foxes.Props.Abl.C36_neutral_stable_monotone Foxes.Props.Abl.C36_ustar_sign Foxes.Props.Abl.C36_unstable_monotone Foxes.Props.Abl.C36_unstable_negative Foxes.Props.Abl.C36_stratification_order Foxes.Props.Abl.C36_neutral_limit Foxes.Props.Abl.C36_sheared Foxes.Props.Abl.C36_data_profile Foxes.Props.Abl.C36_log_law
  Reference height, monotonicity, neutral limit in full; non-negativity above the roughness length is refuted for unstable stratification.
C49 partial Foxes.Props.Abl.C49_ustar_ti Foxes.Props.Abl.C49_max_ti Foxes.Props.Abl.C49_tke_ti Foxes.Props.Abl.C49_wake_deltas_normalize Foxes.Props.Abl.C49_wake_deltas
  TI models and wake deltas; max_ti is a lower limit and normalised deltas always raise (both proved). SetUniformData is not modelled.
C37 partial Foxes.Props.Geom2d.C37_half_plane Foxes.Props.Geom2d.C37_inverse_partial Foxes.Props.Geom2d.C37_edge_in_both Foxes.Props.Geom2d.C37_union Foxes.Props.Geom2d.C37_double_inverse Foxes.Props.Geom2d.C37_intersection_partial Foxes.Props.Geom2d.C37_intersection_without_edges Foxes.Props.Geom2d.C37_difference Foxes.Props.Geom2d.C37_de_morgan Foxes.Props.Geom2d.C37_circle_distance Foxes.Props.Geom2d.C37_half_plane_distance Foxes.Props.Geom2d.C37_polygon_distance Foxes.Props.Geom2d.C37_clearance Foxes.Props.Geom2d.C37_union_distance_outside Foxes.Props.Geom2d.C37_union_distance_inside Foxes.Props.Geom2d.C37_union_distance_too_small Foxes.Props.Geom2d.C37_circle_nearest Foxes.Props.Geom2d.C37_bounding_box_partial Foxes.Props.Geom2d.C37_bounding_box_wrong Foxes.Props.Geom2d.C37_circle Foxes.Props.Geom2d.C37_bounding_box_max_partial Foxes.Props.Geom2d.C37_bounding_box_max_wrong Foxes.Props.Geom2d.C37_bounding_box_tight Foxes.Props.Geom2d.C37_half_plane_box
  Set algebra in full except at edges of half planes (refuted there); exact distances and nearest points of circles, half planes and polygons; clearance for all compositions; exact outside distance of unions. Inside distance of unions is only a lower bound (witness); lower bounding box corner valid under stated conditions, wrong otherwise (proved). both corners modelled, tight for unions of discs (C37_bounding_box_tight); matplotlib's contains_points is a parameter.
C38 partial Foxes.Props.InputStates.C38_scan_row_major Foxes.Props.InputStates.C38_scan_complete Foxes.Props.InputStates.C38_default_weights Foxes.Props.InputStates.C38_table Foxes.Props.InputStates.C38_profile_needs_column Foxes.Props.InputStates.C38_table_weights Foxes.Props.InputStates.C38_profile_dict_once Foxes.Props.InputStates.C38_tab_weights Foxes.Props.InputStates.C38_tab_bins Foxes.Props.InputStates.C38_table_weights_exist
  Proved: scans, tables without profiles, weights, tab files. Two clauses are false of the code (profile needs a column, dictionary profiles only once), stated as theorems. Values of profile variables: see C36.
C39 partial Foxes.Props.FarmEval.C39_weights_normalized Foxes.Props.FarmEval.C39_outputs_need_weight Foxes.Props.FarmEval.C39_states_mean Foxes.Props.FarmEval.C39_states_ops Foxes.Props.FarmEval.C39_turbine_ops Foxes.Props.FarmEval.C39_nan_refused Foxes.Props.FarmEval.C39_nan_states_left_out Foxes.Props.FarmEval.C39_all_nan_gives_zero Foxes.Props.FarmEval.C39_mean_farm_power Foxes.Props.FarmEval.C39_farm_sum Foxes.Props.FarmEval.C39_farm_mean_is_sum Foxes.Props.FarmEval.C39_farm_mean_value Foxes.Props.FarmEval.C39_mean_no_weights_is_sum Foxes.Props.FarmEval.C39_annual_yield Foxes.Props.FarmEval.C39_yield Foxes.Props.FarmEval.C39_series_yield Foxes.Props.FarmEval.C39_irregular_series Foxes.Props.FarmEval.C39_single_time Foxes.Props.FarmEval.C39_farm_yield Foxes.Props.FarmEval.C39_ambient_farm_yield Foxes.Props.FarmEval.C39_efficiency Foxes.Props.FarmEval.C39_farm_efficiency Foxes.Props.FarmEval.C39_capacity Foxes.Props.FarmEval.C39_default_outputs Foxes.Props.FarmEval.C39_explicit_step Foxes.Props.FarmEval.C39_default_weights
  All clauses about weights, means, yields and efficiencies are proved. Five clauses are false of the code and proved false: calc_farm_mean and reduce_all(mean_no_weights) are sums, weights are not normalised by default (C39_default_weights), normalised outputs without weight and the ambient farm yield end with KeyError. Irregular time series: yield is mean times duration (counterexample theorem).
C40 partial Foxes.Props.Layout.C40_row Foxes.Props.Layout.C40_grid Foxes.Props.Layout.C40_short_indices Foxes.Props.Layout.C40_ring_appends Foxes.Props.Layout.C40_ring_float Foxes.Props.Layout.C40_ring_distance_smaller Foxes.Props.Layout.C40_ring_int_divides_partial Foxes.Props.Layout.C40_ring_int_not_equal Foxes.Props.Layout.C40_ring_int_one_point Foxes.Props.Layout.C40_default_numbering Foxes.Props.Layout.C40_mixed_numbering Foxes.Props.Layout.C40_csv Foxes.Props.Layout.C40_csv_twice_same_names Foxes.Props.Layout.C40_json Foxes.Props.Layout.C40_bounds Foxes.Props.Layout.C40_short_lists Foxes.Props.Layout.C40_bounds_rotors Foxes.Props.Layout.C40_ring_int_divides Foxes.Props.Layout.C40_ring_int_iff Foxes.Props.Layout.C40_csv_ids Foxes.Props.Layout.C40_csv_ids_positions Foxes.Props.Layout.C40_csv_ids_labels
  All clauses proved except equal spacing and distance of rings: proved for float offsets and for integer offsets with n dividing 360; proved false otherwise. For integer offsets (also negative) equal spacing of distinct turbines holds exactly if n divides 360 (C40_ring_int_iff). turbine_ids are indexed by row label (C40_csv_ids_labels).
C50 partial Foxes.Props.TurbineObj.C50_models_partial Foxes.Props.TurbineObj.C50_controller_partial Foxes.Props.TurbineObj.C50_layout_models Foxes.Props.TurbineObj.C50_layout_shares Foxes.Props.TurbineObj.C50_default_leaks Foxes.Props.TurbineObj.C50_controller_error
  Proved for all sequences that add models only to turbines with a list of their own; proved false for turbines of a layout call and for turbines made without models.
C46 partial Foxes.Props.RandomXY.C46_min_dist Foxes.Props.RandomXY.C46_extent Foxes.Props.RandomXY.C46_fuel Foxes.Props.RandomXY.C46_seed_partial Foxes.Props.RandomXY.C46_seed_zero Foxes.Props.RandomXY.C46_can_end Foxes.Props.RandomXY.C46_zero_size_never_ends Foxes.Props.RandomXY.C46_add_random Foxes.Props.RandomXY.C46_fresh_draws
  All clauses proved for every generator; seed 0 is ignored by the code (proved), so reproducibility holds for other seeds only. Termination with probability one is not expressible here; proved is that a terminating draw exists once the growth per pass is large enough.
C41 proved Foxes.Props.Factory.C41_template Foxes.Props.Factory.C41_unclosed_bracket_accepted Foxes.Props.Factory.C41_match Foxes.Props.Factory.C41_round_trip Foxes.Props.Factory.C41_separator Foxes.Props.Factory.C41_not_only_template_names Foxes.Props.Factory.C41_arguments Foxes.Props.Factory.C41_stored_first Foxes.Props.Factory.C41_first_factory Foxes.Props.Factory.C41_lookup_error Foxes.Props.Factory.C41_failed_lookup_no_effect Foxes.Props.Factory.C41_lookup_stable Foxes.Props.Factory.C41_no_sharing Foxes.Props.Factory.C41_contains_of_lookup Foxes.Props.Factory.C41_contains_not_lookup Foxes.Props.Factory.C41_more_variables_first Foxes.Props.Factory.C41_add_factory_perm Foxes.Props.Factory.C41_k_value_fraction Foxes.Props.Factory.C41_k_value_integer Foxes.Props.Factory.C41_k_value_refused Foxes.Props.Factory.C41_units Foxes.Props.FactoryK.C41_name_ka_kb Foxes.Props.FactoryK.C41_name_ambka_kb Foxes.Props.FactoryK.C41_name_ka Foxes.Props.FactoryK.C41_name_ambka Foxes.Props.FactoryK.C41_name_k Foxes.Props.FactoryK.C41_name_plain Foxes.Props.FactoryK.C41_yawed_misspelt_accepted Foxes.Props.FactoryK.C41_yawed_empty_value Foxes.Props.Factory.C41_argument_names Foxes.Props.Factory.C41_option_values Foxes.Props.Factory.C41_unknown_option
  Template language, matching (iff characterisation incl. the accepted continuations), round trip, arguments, dictionary lookup order and stability over all histories, order of factories, value syntax, names of the wake growth families. Findings as theorems: continuations and unclosed brackets accepted, contains without lookup, misspelt growth parameters of yawed_ silently dropped.
C42 partial Foxes.Props.Mirror.C42_farm_restores Foxes.Props.Mirror.C42_points_restores Foxes.Props.Mirror.C42_replaced_heights_leak Foxes.Props.Mirror.C42_farm_images Foxes.Props.Mirror.C42_points_images Foxes.Props.Mirror.C42_no_heights_points Foxes.Props.Mirror.C42_no_heights_farm_partial Foxes.Props.Mirror.C42_no_heights_farm_not Foxes.Props.Mirror.C42_linear_images Foxes.Props.Mirror.C42_symmetric Foxes.Props.Mirror.C42_heights_order Foxes.Props.Mirror.C42_timelines_mirror_without_effect Foxes.Props.Mirror.C42_centre_targets
  Restored heights, image contributions, symmetry under reflection, order of mirror heights proved for all wake models with z-symmetric superposition. The no-mirror-heights clause is proved when the partial wakes model does not override contribute and disproved otherwise; the replaced-heights leak and the Timelines frame (mirrors without effect) are counterexamples to the naive claim.
C43 partial Foxes.Props.DataBox.C43_sizes_agree Foxes.Props.DataBox.C43_sizes_table Foxes.Props.DataBox.C43_refused_entry_stays Foxes.Props.DataBox.C43_stale_coordinate Foxes.Props.DataBox.C43_squeeze_one Foxes.Props.DataBox.C43_squeeze_two_not Foxes.Props.DataBox.C43_slice_values Foxes.Props.DataBox.C43_slice_whole Foxes.Props.DataBox.C43_slice_of_slice Foxes.Props.DataBox.C43_slice_states_i0 Foxes.Props.DataBox.C43_range_slices Foxes.Props.DataBox.C43_other_slices_lose_states_i0 Foxes.Props.DataBox.C43_broadcast_slices_refused Foxes.Props.DataBox.C43_own_axes_kept Foxes.Props.DataBox.C43_range_positions Foxes.Props.DataBox.C43_index_coordinates
  Consistency of sizes for all sequences of successful additions, slice values, slices of slices and states_i0 proved. Missing because false of the code: a refused addition stays stored, coordinates go stale when a size-1 dimension grows, entries with size-1 axes cannot be sliced; each proved as a counterexample. TXYH, FData and TData checks: C82.
C51 partial Foxes.Props.GetData.C51_unknown_target Foxes.Props.GetData.C51_turbine_target_with_index Foxes.Props.GetData.C51_own_number Foxes.Props.GetData.C51_own_states Foxes.Props.GetData.C51_own_too_many_axes Foxes.Props.GetData.C51_farm_column Foxes.Props.GetData.C51_farm_all Foxes.Props.GetData.C51_skip Foxes.Props.GetData.C51_not_found Foxes.Props.GetData.C51_default_lookup_misses_targets Foxes.Props.GetData.C51_unsliced Foxes.Props.GetData.C51_upcast Foxes.Props.GetData.C51_iteration_points Foxes.Props.GetData.C51_iteration_targets Foxes.Props.GetData.C51_iteration_target_mean Foxes.Props.GetData.C51_source_data Foxes.Props.GetData.C51_iteration_first Foxes.Props.GetData.C51_own_overwritten Foxes.Props.GetData.C51_own_kept_partial Foxes.Props.GetData.C51_iteration_errors Foxes.Props.GetData.C51_nan_check Foxes.Props.GetData.C51_selection_targets Foxes.Props.GetData.C51_selection_points Foxes.Props.GetData.C51_wakek_arguments Foxes.Props.GetData.C51_wakek_number Foxes.Props.GetData.C51_wakek_ti Foxes.Props.GetData.C51_wakek_ti_given Foxes.Props.GetData.C51_wakek_farm Foxes.Props.GetData.C51_wakek_dynamic_overwritten Foxes.Props.GetData.C51_wakek_serial_partial Foxes.Props.GetData.C51_wakek_race
  false of the code for time dependent wakes with farm data of the same name (C51_own_overwritten, C51_wakek_dynamic_overwritten), for model data with a turbine axis (C51_unsliced) and for overlapping calls in threads (C51_wakek_race); the other cases are proved in full; selections are modelled as boolean masks of states and targets only
C52 partial Foxes.Props.DynWakes.C52_points_true Foxes.Props.DynWakes.C52_points_complete Foxes.Props.DynWakes.C52_converges_shared Foxes.Props.DynWakes.C52_converges_remote Foxes.Props.DynWakes.C52_wake_state_true Foxes.Props.DynWakes.C52_wake_state_converged Foxes.Props.DynWakes.C52_one_step_per_round Foxes.Props.DynWakes.C52_default_limit_finding Foxes.Props.DynWakes.C52_max_length_finding
  Safety for all schedules, termination with a bound on the rounds and completeness at convergence (one process and several) proved; independence of chunks and engine proved if no wake reaches the maximal length. Missing because false of the code: independence beyond the maximal length (C52_max_length_finding), completeness within the default iteration limit (C52_default_limit_finding). NaN winds not modelled.
C53 partial Foxes.Props.PointCalc.C53_point_wakes Foxes.Props.PointCalc.C53_models_add_up Foxes.Props.PointCalc.C53_outside_wakes Foxes.Props.PointCalc.C53_only_one_turbine Foxes.Props.PointCalc.C53_ambient_results Foxes.Props.PointCalc.C53_point_models_last Foxes.Props.PointCalc.C53_point_model_erases_wakes Foxes.Props.PointCalc.C53_ambient_needs_farm_results Foxes.Props.PointCalc.C53_points_independent Foxes.Props.PointCalc.C53_turbine_agrees Foxes.Props.PointCalc.C53_two_models_finding Foxes.Props.PointCalc.C53_order_of_models_finding
  Wakes at points, ambient copies, independence of points, additivity of ambient-free models and agreement with turbine results (one downwind wake model) proved. Missing because false of the code: agreement and order independence for several wake models that scale with the ambient value (C53_two_models_finding, C53_order_of_models_finding), point models that write variables of the states (C53_point_model_erases_wakes), ambient runs without farm results.
C54 partial Foxes.Props.MultiHeight.C54_column_names Foxes.Props.MultiHeight.C54_linear Foxes.Props.MultiHeight.C54_wind_vector Foxes.Props.MultiHeight.C54_wind_speed_bound Foxes.Props.MultiHeight.C54_at_heights Foxes.Props.MultiHeight.C54_outside Foxes.Props.MultiHeight.C54_constant_partial Foxes.Props.MultiHeight.C54_succeeds_iff Foxes.Props.MultiHeight.C54_weights Foxes.Props.MultiHeight.C54_fixed_wind_speed_changed Foxes.Props.MultiHeight.C54_bounds_without_height_data Foxes.Props.MultiHeight.C54_nc_attribute_raises Foxes.Props.MultiHeight.C54_nc_source_partial
  Loading, array layout, interpolation, wind vectors, bounds and success condition for one state and target; at least two heights, sorted. Findings: fixed wind speeds change when directions are given at heights, dataset attributes raise, bounds are checked without need. Not modelled: file reading, state selection, other interp1d options, the netCDF array itself.
C55 partial Foxes.Props.FieldData.C55_trilinear Foxes.Props.FieldData.C55_wind Foxes.Props.FieldData.C55_at_nodes Foxes.Props.FieldData.C55_bounds Foxes.Props.FieldData.C55_outside Foxes.Props.FieldData.C55_no_height Foxes.Props.FieldData.C55_fixed_partial Foxes.Props.FieldData.C55_fixed_wind_raises Foxes.Props.FieldData.C55_succeeds Foxes.Props.FieldData.C55_fly Foxes.Props.FieldData.C55_selection_partial Foxes.Props.FieldData.C55_x_selection_wrong Foxes.Props.FieldData.C55_dataset_size_missing
  Loading order, array layout, interpolation, wind vectors, bounds, success condition, reading on the fly, region selection. Findings: the upper end of the x selection is taken from y, fixed wind speeds or directions always raise, a Dataset as source leaves the number of states unset. Not modelled: missing values (NaN handling), other interpn options, repeated output variables, file reading.
C56 partial Foxes.Props.OnePoint.C56_bounds Foxes.Props.OnePoint.C56_uniform Foxes.Props.OnePoint.C56_lateral Foxes.Props.OnePoint.C56_relative Foxes.Props.OnePoint.C56_chunks Foxes.Props.OnePoint.C56_downstream Foxes.Props.OnePoint.C56_at_reference Foxes.Props.OnePoint.C56_upstream_partial Foxes.Props.OnePoint.C56_upstream_steps_wrong Foxes.Props.OnePoint.C56_after_data Foxes.Props.OnePoint.C56_before_data_wrong Foxes.Props.OnePoint.C56_first_step_wrong Foxes.Props.OnePoint.C56_calm_wrong Foxes.Props.OnePoint.C56_steady Foxes.Props.OnePoint.C56_displacements Foxes.Props.OnePoint.C56_irregular_wrong Foxes.Props.OnePoint.C56_whole_seconds Foxes.Props.OnePoint.C56_heights Foxes.Props.OnePoint.C56_outside Foxes.Props.OnePoint.C56_results_partial Foxes.Props.OnePoint.C56_wind Foxes.Props.OnePoint.C56_lost_variables Foxes.Props.OnePoint.C56_weights_partial Foxes.Props.OnePoint.C56_table_weights_raise Foxes.Props.OnePoint.C56_unequal_weights_raise Foxes.Props.OnePoint.C56_choose
  Bounds, independence across the wind and of chunks for every history; travel times for histories with one wind direction, varying speeds; heights, wind vectors, weights. Findings (all proved): points whose air passed before the first state get the last state, the step before blends with the last state, whole-step distances upstream are one state off, calm states and sub-second steps give the last state everywhere, irregular stamps use the wrong step, variables before the wind variables are lost, weights raise. Not modelled: state selection (sel, isel), extrapolation between heights beyond the linear formula.
C57 partial Foxes.Props.Timelines.C57_spec Foxes.Props.Timelines.C57_no_wake Foxes.Props.Timelines.C57_own_height Foxes.Props.Timelines.C57_height_missing Foxes.Props.Timelines.C57_causal_source Foxes.Props.Timelines.C57_causal_history Foxes.Props.Timelines.C57_chunks Foxes.Props.Timelines.C57_steady Foxes.Props.Timelines.C57_steady_no_wake Foxes.Props.Timelines.C57_centreline_mirrored Foxes.Props.Timelines.C57_centreline_partial Foxes.Props.Timelines.C57_centreline_first_state Foxes.Props.Timelines.C57_centreline_chunks Foxes.Props.Timelines.C57_centreline_hub_partial Foxes.Props.Timelines.C57_centreline_last_state_raises
  Wake coordinates are specified for every history (search is an argmin over reached states). Findings (proved): centreline points are mirrored at the closest whole time step (steady wind), ignore the start of the chunk, and raise an IndexError at x <= 0 for the last state if all states are in one chunk. Not modelled: the data lookup of the wake source state in other chunks (Iterative algorithm), set_running selections.
C58 partial Foxes.Props.CentrelineInt.C58_spec Foxes.Props.CentrelineInt.C58_other_points Foxes.Props.CentrelineInt.C58_constant Foxes.Props.CentrelineInt.C58_linear Foxes.Props.CentrelineInt.C58_bounds Foxes.Props.CentrelineInt.C58_monotone Foxes.Props.CentrelineInt.C58_accuracy Foxes.Props.CentrelineInt.C58_upstream Foxes.Props.CentrelineInt.C58_all_upstream_raises Foxes.Props.CentrelineInt.C58_beyond Foxes.Props.CentrelineInt.C58_turbo_decay Foxes.Props.CentrelineInt.C58_turbo_uniform Foxes.Props.CentrelineInt.C58_turbo_beyond Foxes.Props.CentrelineInt.C58_turbo_unselected Foxes.Props.CentrelineInt.C58_turbo_selected
  Full specification of the integral between rotor and maximal length, error bound against any antiderivative. Findings (proved): zero beyond the maximal length (plus one step), hence near wake width of TurbOParkIX there; ValueError if all points are upstream by at least one step. Not modelled: non-linear interpolation parameters (ipars), NaN distances, the evaluation of states and wakes at the centreline points (a function of the distance here).
C59 partial Foxes.Props.Induction.C59_no_thrust Foxes.Props.Induction.C59_behind Foxes.Props.Induction.C59_mirror Foxes.Props.Induction.C59_vortex_upstream Foxes.Props.Induction.C59_vortex_jump Foxes.Props.Induction.C59_rathmann_upstream Foxes.Props.Induction.C59_rathmann_axis Foxes.Props.Induction.C59_rathmann_hub Foxes.Props.Induction.C59_rathmann_shape_partial Foxes.Props.Induction.C59_rathmann_tip_nan Foxes.Props.Induction.C59_rathmann_plane Foxes.Props.Induction.C59_selfsim_upstream Foxes.Props.Induction.C59_selfsimilar_axis Foxes.Props.Induction.C59_gamma2020 Foxes.Props.Induction.C59_rankine_bounded Foxes.Props.Induction.C59_rankine_signs Foxes.Props.Induction.C59_rankine_inside Foxes.Props.Induction.C59_rankine_axis Foxes.Props.Induction.C59_rankine_wind Foxes.Props.Induction.C59_rankine_neutral Foxes.Props.Induction.C59_selfsimilar_radial
  Findings (proved): Rathmann blockage takes the wrong branch of the subtended angle for points with x^2+r^2 < R^2 (0 at the hub instead of the induction, NaN at the rotor edge); vortex sheet jumps from slow-down to speed-up across the rotor plane outside the rotor. Not modelled: Rankine with zero REWS (0/0 at the stagnation point); the superposition step is C24.
C60 partial Foxes.Props.Bast16.C60_selection Foxes.Props.Bast16.C60_bounds Foxes.Props.Bast16.C60_unyawed Foxes.Props.Bast16.C60_opposite_yaw Foxes.Props.Bast16.C60_continuous_partial Foxes.Props.Bast16.C60_yaw_jump Foxes.Props.Bast16.C60_near_axis Foxes.Props.Bast16.C60_recovery Foxes.Props.Bast16.C60_vanishes Foxes.Props.Bast16.C60_deflection Foxes.Props.Bast16.C60_deflection_continuous Foxes.Props.Bast16.C60_momentum Foxes.Props.Bast16.C60_core_nan Foxes.Props.Bast16.C60_store_partial Foxes.Props.Bast16.C60_two_models
  Findings (proved): jump of the deficit at the onset of the far wake for yawed turbines off hub height; NaN potential core radius (hence no lateral decay of the near wake) if 2a >= 1, reachable with the default Madsen induction for ct > 1.16; the stored model data are keyed by state range, downwind index and hash of x only, so a second Bastankhah2016 wake model with other parameters uses the data of the first. Not modelled: hash collisions, data lookups, yaw misalignment of 90 degrees and more.
C61 partial Foxes.Props.Streamlines.C61_follows_wind Foxes.Props.Streamlines.C61_coordinates Foxes.Props.Streamlines.C61_uniform Foxes.Props.Streamlines.C61_centreline_partial Foxes.Props.Streamlines.C61_centreline_points Foxes.Props.Streamlines.C61_centreline_upstream Foxes.Props.Streamlines.C61_order_perm Foxes.Props.Streamlines.C61_order_reversed Foxes.Props.Streamlines.C61_order_downstream Foxes.Props.Streamlines.C61_farm_order
  Findings (proved): AMB_WD is still NaN when InitFarmData calls calc_order, so all streamlines of farm calculations are NaN, the order is the farm order and no wake reaches any turbine; with valid directions np.lexsort would give the last turbine first; centreline points are the coordinate origin for x < 0. C61_centreline_partial covers x >= 0 only. Not modelled: chunks of several states, floating point, interpolation of NaN streamlines.
C62 partial Foxes.Props.SeqWakes.C62_repeat Foxes.Props.SeqWakes.C62_particles Foxes.Props.SeqWakes.C62_coordinates Foxes.Props.SeqWakes.C62_steady_traces Foxes.Props.SeqWakes.C62_steady Foxes.Props.SeqWakes.C62_gap Foxes.Props.SeqWakes.C62_second_run Foxes.Props.SeqWakes.C62_lost_traces Foxes.Props.SeqWakes.C62_source_data
  Findings (proved): C62_gap (irregular time steps), C62_second_run (traces are initialised once), C62_lost_traces (process engines, also chosen by the default engine for long series; last turbine of the farm if points are not evaluated at every state). The calculation order is the farm order (FarmOrder), so later listed turbines never affect earlier ones (C12). Not modelled: NaN winds, centreline points (raise NotImplementedError in the code).
C63 partial Foxes.Props.Wrg.C63_states Foxes.Props.Wrg.C63_node Foxes.Props.Wrg.C63_region Foxes.Props.Wrg.C63_between Foxes.Props.Wrg.C63_weight_nonneg Foxes.Props.Wrg.C63_total Foxes.Props.Wrg.C63_percent Foxes.Props.Wrg.C63_coordinates_ignored Foxes.Props.Wrg.C63_covers_partial Foxes.Props.Wrg.C63_upper_cut Foxes.Props.Wrg.C63_lower_wrap
  Findings (proved): C63_percent (weights in percent), C63_coordinates_ignored, C63_upper_cut and C63_lower_wrap (selection of the part around the farm). C63_covers_partial: coverage if there is room for the cut. Heights of the file (z, h columns) are ignored by the code. Not modelled: text parsing of the file, the rotor step that transfers weights to the farm data.
C64 partial Foxes.Props.Lookup.C64_accepted_partial Foxes.Props.Lookup.C64_single_input_fails Foxes.Props.Lookup.C64_rows Foxes.Props.Lookup.C64_row_value Foxes.Props.Lookup.C64_between Foxes.Props.Lookup.C64_bounds Foxes.Props.Lookup.C64_outside Foxes.Props.Lookup.C64_row_order Foxes.Props.Lookup.C64_calculate Foxes.Props.Lookup.C64_succeeds Foxes.Props.Lookup.C64_range_error Foxes.Props.Lookup.C64_type Foxes.Props.Lookup.C64_type_thrust_partial Foxes.Props.Lookup.C64_density_inverted Foxes.Props.Lookup.C64_type_outside Foxes.Props.Lookup.C64_type_defaults_fail Foxes.Props.Lookup.C64_p_nominal_partial Foxes.Props.Lookup.C64_p_nominal_fails Foxes.Props.Lookup.C64_factors_partial Foxes.Props.Lookup.C64_factors_fail Foxes.Props.Lookup.C64_type_thrust_wrong
  Findings (proved): C64_single_input_fails, C64_type and C64_type_thrust_wrong (array aliasing: the second look-up overwrites the thrust of the first), C64_type_defaults_fail, C64_p_nominal_fails, C64_factors_fail, C64_density_inverted. Not modelled: NaN data, extrapolation, interpolation methods other than linear.
C65 partial Foxes.Props.Slice.C65_grid_xy Foxes.Props.Slice.C65_grid_xz Foxes.Props.Slice.C65_grid_yz Foxes.Props.Slice.C65_isometry Foxes.Props.Slice.C65_direction_west Foxes.Props.Slice.C65_direction_north Foxes.Props.Slice.C65_rectangle_xy Foxes.Props.Slice.C65_turbine_in_slice Foxes.Props.Slice.C65_rectangle_xz Foxes.Props.Slice.C65_rectangle_yz Foxes.Props.Slice.C65_near Foxes.Props.Slice.C65_increasing Foxes.Props.Slice.C65_short_side Foxes.Props.Slice.C65_values Foxes.Props.Slice.C65_mean_xarray Foxes.Props.Slice.C65_mean_numpy Foxes.Props.Slice.C65_mean_pandas Foxes.Props.Slice.C65_mean_constant_partial Foxes.Props.Slice.C65_mean_bounds Foxes.Props.Slice.C65_default_variables_fail Foxes.Props.Slice.C65_states_xarray Foxes.Props.Slice.C65_states_numpy Foxes.Props.Slice.C65_states_pandas_fail Foxes.Props.Slice.C65_pandas_no_coordinates Foxes.Props.Slice.C65_returned_grid Foxes.Props.Slice.C65_same_grid_xy Foxes.Props.Slice.C65_same_grid_xz Foxes.Props.Slice.C65_same_grid_yz Foxes.Props.Slice.C65_mean_slices Foxes.Props.Slice.C65_slices_label_fail Foxes.Props.Slice.C65_transpose Foxes.Props.Slice.C65_concat Foxes.Props.Slice.C65_states_slices Foxes.Props.Slice.C65_family_xy Foxes.Props.Slice.C65_family_xz Foxes.Props.Slice.C65_family_yz Foxes.Props.Slice.C65_selected
  Findings (proved): C65_mean_constant_partial (weights of selected states are not normalized), C65_default_variables_fail, C65_states_pandas_fail, C65_pandas_no_coordinates, C65_returned_grid, C65_short_side, C65_slices_label_fail, C65_mean_slices (plane coordinate not normalized), C65_direction_north (0 means the x axis points south). Not modelled: file output, NaN, the figures of FlowPlots2D.
C66 partial Foxes.Props.Rose.C66_bin Foxes.Props.Rose.C66_in_range Foxes.Props.Rose.C66_sector_bounds Foxes.Props.Rose.C66_sector_centres Foxes.Props.Rose.C66_sector Foxes.Props.Rose.C66_one_sector Foxes.Props.Rose.C66_lost_directions Foxes.Props.Rose.C66_values Foxes.Props.Rose.C66_weights Foxes.Props.Rose.C66_needs_weights Foxes.Props.Rose.C66_choose Foxes.Props.Rose.C66_frequency Foxes.Props.Rose.C66_nonneg Foxes.Props.Rose.C66_total Foxes.Props.Rose.C66_hundred Foxes.Props.Rose.C66_last_bound Foxes.Props.Rose.C66_half_open Foxes.Props.Rose.C66_bin_value Foxes.Props.Rose.C66_mean_bounds Foxes.Props.Rose.C66_bin_errors Foxes.Props.Rose.C66_mids Foxes.Props.Rose.C66_bin_centres Foxes.Props.Rose.C66_rose_coords Foxes.Props.Rose.C66_bin_coords Foxes.Props.Rose.C66_angle Foxes.Props.Rose.C66_angle_range Foxes.Props.Rose.C66_bars Foxes.Props.Rose.C66_states_construct Foxes.Props.Rose.C66_states_variables Foxes.Props.Rose.C66_states_frequency Foxes.Props.Rose.C66_states_one_turbine
  Findings (proved): C66_last_bound (against the legend), C66_lost_directions. Not proved in the model since it is a rounding effect: np.arange(0, 360, 360/n) has n+1 entries for n=161, 175, 227, ..., and get_data fails. StatesRosePlotOutput: from the ambient results of its farm with one turbine on (C66_states_frequency, C66_states_variables, C66_states_one_turbine). Not modelled: colours, ticks, legends.
C67 partial Foxes.Props.WindIO.C67_series Foxes.Props.WindIO.C67_series_values Foxes.Props.WindIO.C67_ti_number_ignored Foxes.Props.WindIO.C67_series_weights Foxes.Props.WindIO.C67_only_series Foxes.Props.WindIO.C67_heights_partial Foxes.Props.WindIO.C67_farm Foxes.Props.WindIO.C67_types_keys Foxes.Props.WindIO.C67_integer_keys Foxes.Props.WindIO.C67_one_type Foxes.Props.WindIO.C67_power_curve Foxes.Props.WindIO.C67_cp_curve Foxes.Props.WindIO.C67_units Foxes.Props.WindIO.C67_grid_ends Foxes.Props.WindIO.C67_exponents Foxes.Props.WindIO.C67_refused
  Findings (proved): C67_ti_number_ignored, C67_only_series, last clause of C67_heights_partial, C67_integer_keys, C67_types_keys, C67_units, C67_cp_curve (exponents). The states at several heights are followed up to the constructor parameters (their interpolation is in C54). Not modelled: printing, time formats, file includes.
C68 partial Foxes.Props.ChunkData.C68_model_chunk Foxes.Props.ChunkData.C68_model_states Foxes.Props.ChunkData.C68_farm_chunk Foxes.Props.ChunkData.C68_points_chunk Foxes.Props.ChunkData.C68_input_farm Foxes.Props.ChunkData.C68_input_points Foxes.Props.ChunkData.C68_user_points Foxes.Props.ChunkData.C68_user_points_refused Foxes.Props.ChunkData.C68_states_i0 Foxes.Props.ChunkData.C68_constructed_form Foxes.Props.ChunkData.C68_added_form Foxes.Props.ChunkData.C68_tpoints Foxes.Props.ChunkData.C68_points Foxes.Props.ChunkData.C68_points_refused Foxes.Props.ChunkData.C68_points_caller_changed Foxes.Props.ChunkData.C68_tweights_refused_partial Foxes.Props.ChunkData.C68_mean Foxes.Props.ChunkData.C68_mean_const Foxes.Props.ChunkData.C68_mean_one Foxes.Props.ChunkData.C68_mean_linear Foxes.Props.ChunkData.C68_mean_between Foxes.Props.ChunkData.C68_mean_refused Foxes.Props.ChunkData.C68_order_matters Foxes.Props.ChunkData.C68_tweights_accepted_not Foxes.Props.ChunkData.C68_state_variable_refused Foxes.Props.ChunkData.C68_point_weight_refused Foxes.Props.ChunkData.C68_other_coordinate_not_cut Foxes.Props.ChunkData.C68_model_without_states Foxes.Props.ChunkData.C68_targets_i0_label Foxes.Props.ChunkData.C68_positions Foxes.Props.ChunkData.C68_positions_refused Foxes.Props.ChunkData.C68_states_not_first Foxes.Props.ChunkData.C68_targets_not_second
  Main theorems: C68_input_farm, C68_input_points, C68_user_points, C68_constructed_form, C68_added_form, C68_mean_*. Findings (proved): C68_tweights_accepted_not (hence C68_tweights_refused_partial), C68_order_matters, C68_state_variable_refused, C68_point_weight_refused, C68_other_coordinate_not_cut, C68_model_without_states, C68_targets_i0_label, C68_points_caller_changed. Values are modelled without storage: copies and views are the same.
C69 partial Foxes.Props.WioAttrs.C69_example Foxes.Props.WioAttrs.C69_wake_models Foxes.Props.WioAttrs.C69_names_distinct Foxes.Props.WioAttrs.C69_iterative Foxes.Props.WioAttrs.C69_accepted_iff Foxes.Props.WioAttrs.C69_turbopark_refused Foxes.Props.WioAttrs.C69_deflection_refused Foxes.Props.WioAttrs.C69_deflection_misspelt Foxes.Props.WioAttrs.C69_ceps_refused Foxes.Props.WioAttrs.C69_no_background_refused Foxes.Props.WioAttrs.C69_rotor Foxes.Props.WioAttrs.C69_partial_name Foxes.Props.WioAttrs.C69_partial_list Foxes.Props.WioAttrs.C69_partial_dict Foxes.Props.WioAttrs.C69_partial_fit_partial Foxes.Props.WioAttrs.C69_partial_fit_not Foxes.Props.WioAttrs.C69_partial_wakes Foxes.Props.WioAttrs.C69_accepted Foxes.Props.WioAttrs.C69_frame Foxes.Props.WioAttrs.C69_cases Foxes.Props.WioAttrs.C69_cases_default_refused Foxes.Props.WioAttrs.C69_turbine_table Foxes.Props.WioAttrs.C69_empty_subset Foxes.Props.WioAttrs.C69_grid_points Foxes.Props.WioAttrs.C69_heights Foxes.Props.WioAttrs.C69_flow_field Foxes.Props.WioAttrs.C69_reports Foxes.Props.WioAttrs.C69_fits Foxes.Props.WioAttrs.C69_outputs
  Main theorems: C69_wake_models, C69_accepted_iff, C69_accepted, C69_rotor, C69_partial_wakes, C69_turbine_table, C69_grid_points, C69_heights, C69_flow_field. Findings (proved): C69_turbopark_refused, C69_deflection_refused with C69_deflection_misspelt, C69_ceps_refused, C69_no_background_refused, C69_partial_fit_not (hence C69_partial_fit_partial), C69_cases_default_refused, C69_empty_subset. Numbers are rational; writing of files is not modelled.
C70 partial Foxes.Props.YamlRun.C70_algorithm Foxes.Props.YamlRun.C70_both_refused Foxes.Props.YamlRun.C70_given_algorithm Foxes.Props.YamlRun.C70_given_algorithm_ignores Foxes.Props.YamlRun.C70_engine Foxes.Props.YamlRun.C70_engine_verbosity_not_forced Foxes.Props.YamlRun.C70_label Foxes.Props.YamlRun.C70_label_indexed Foxes.Props.YamlRun.C70_label_stored Foxes.Props.YamlRun.C70_outputs Foxes.Props.YamlRun.C70_results Foxes.Props.YamlRun.C70_no_outputs Foxes.Props.YamlRun.C70_labels_always_returned Foxes.Props.YamlRun.C70_empty_argument_refused Foxes.Props.YamlRun.C70_run Foxes.Props.YamlRun.C70_events Foxes.Props.YamlRun.C70_error_engine_left Foxes.Props.YamlRun.C70_second_run_refused Foxes.Props.YamlRun.C70_second_points_refused Foxes.Props.YamlRun.C70_second_run_farm Foxes.Props.YamlRun.C70_settings_stay Foxes.Props.YamlRun.C70_repeatable_partial Foxes.Props.YamlRun.C70_accepted Foxes.Props.YamlRun.C70_yaml Foxes.Props.YamlRun.C70_yaml_engine_file Foxes.Props.YamlRun.C70_yaml_engine_lost Foxes.Props.YamlRun.C70_windio_output_dir_refused Foxes.Props.YamlRun.C70_windio_options_ignored Foxes.Props.YamlRun.C70_windio Foxes.Props.YamlRun.C70_example Foxes.Props.YamlRun.C70_example_labels
  Main theorems: C70_algorithm, C70_engine, C70_outputs (refinement in both directions), C70_results, C70_label_indexed, C70_run, C70_events, C70_accepted, C70_yaml, C70_windio. Findings (proved): C70_given_algorithm_ignores, C70_engine_verbosity_not_forced, C70_labels_always_returned, C70_empty_argument_refused, C70_error_engine_left, C70_second_run_refused, C70_second_points_refused, C70_second_run_farm, C70_settings_stay (hence C70_repeatable_partial), C70_yaml_engine_lost, C70_windio_output_dir_refused, C70_windio_options_ignored. Constructors and output functions are arbitrary functions without side effects; directories and printing are not modelled.
C71 partial Foxes.Props.Dask.C71_one_engine Foxes.Props.Dask.C71_with_block Foxes.Props.Dask.C71_settings_inside Foxes.Props.Dask.C71_own_settings Foxes.Props.Dask.C71_default_settings_partial Foxes.Props.Dask.C71_default_settings_shared Foxes.Props.Dask.C71_failed_enter_sets Foxes.Props.Dask.C71_foreign_finalize_resets Foxes.Props.Dask.C71_script_settings_lost Foxes.Props.Dask.C71_rebuild Foxes.Props.Dask.C71_cluster_input Foxes.Props.Dask.C71_map Foxes.Props.Dask.C71_chunk_store Foxes.Props.Dask.C71_chunk_store_lost Foxes.Props.Dask.C71_xarray_blocks Foxes.Props.Dask.C71_xarray_failed_keeps Foxes.Props.Dask.C71_xarray_chunked Foxes.Props.Dask.C71_xarray_target_coordinate Foxes.Props.Dask.C71_xarray_targets_whole Foxes.Props.Dask.C71_loop_dims_partial Foxes.Props.Dask.C71_loop_dims_points_only Foxes.Props.Dask.C71_xarray_input Foxes.Props.Dask.C71_xarray_names_mixed Foxes.Props.Dask.C71_xarray_missing Foxes.Props.Dask.C71_select Foxes.Props.Dask.C71_select_without_coordinate Foxes.Props.Dask.C71_iselect Foxes.Props.Dask.C71_own_settings_cluster
  Main theorems: C71_one_engine, C71_with_block, C71_settings_inside, C71_own_settings, C71_map, C71_rebuild, C71_cluster_input, C71_chunk_store, C71_xarray_blocks, C71_xarray_chunked, C71_xarray_input, C71_xarray_missing, C71_select, C71_iselect. Findings (proved): C71_default_settings_shared (hence C71_default_settings_partial), C71_failed_enter_sets, C71_foreign_finalize_resets, C71_script_settings_lost, C71_chunk_store_lost, C71_xarray_failed_keeps, C71_xarray_names_mixed, C71_xarray_target_coordinate, C71_xarray_targets_whole, C71_loop_dims_points_only (hence C71_loop_dims_partial), C71_select_without_coordinate. Not modelled: dask, distributed and xarray themselves. The cluster transfer assumes unique names, one axis per dimension, no dimension named like a reserved variable, and 1 or 3 position components.
C72 partial Foxes.Props.TurbineFiles.C72_dashes Foxes.Props.TurbineFiles.C72_underscores Foxes.Props.TurbineFiles.C72_stopped Foxes.Props.TurbineFiles.C72_no_separator Foxes.Props.TurbineFiles.C72_cases Foxes.Props.TurbineFiles.C72_documented Foxes.Props.TurbineFiles.C72_compressed_refused Foxes.Props.TurbineFiles.C72_names_findings Foxes.Props.TurbineFiles.C72_two_files Foxes.Props.TurbineFiles.C72_two_files_symm Foxes.Props.TurbineFiles.C72_two_files_findings Foxes.Props.TurbineFiles.C72_user_wins Foxes.Props.TurbineFiles.C72_tables Foxes.Props.TurbineFiles.C72_two_sources Foxes.Props.TurbineFiles.C72_user_lost Foxes.Props.TurbineFiles.C72_needs_diameter Foxes.Props.TurbineFiles.C72_tbl Foxes.Props.TurbineFiles.C72_tbl_ending Foxes.Props.TurbineFiles.C72_path_text Foxes.Props.TurbineFiles.C72_get_path Foxes.Props.TurbineFiles.C72_get_path_twice Foxes.Props.TurbineFiles.C72_directories Foxes.Props.TurbineFiles.C72_directories_kept Foxes.Props.TurbineFiles.C72_input_path Foxes.Props.TurbineFiles.C72_endings Foxes.Props.TurbineFiles.C72_empty_ending Foxes.Props.TurbineFiles.C72_book Foxes.Props.TurbineFiles.C72_contexts Foxes.Props.TurbineFiles.C72_add_files Foxes.Props.TurbineFiles.C72_get_file Foxes.Props.TurbineFiles.C72_copy_fails Foxes.Props.TurbineFiles.C72_toc Foxes.Props.TurbineFiles.C72_static Foxes.Props.TurbineFiles.C72_find_curve Foxes.Props.TurbineFiles.C72_find_states Foxes.Props.TurbineFiles.C72_added_found Foxes.Props.TurbineFiles.C72_curve_directory Foxes.Props.TurbineFiles.C72_layout_partial Foxes.Props.TurbineFiles.C72_layout_findings
  Main theorems: C72_dashes, C72_underscores, C72_stopped, C72_cases, C72_documented, C72_two_files, C72_two_files_symm, C72_user_wins, C72_tables, C72_two_sources, C72_needs_diameter, C72_tbl, C72_path_text, C72_get_path, C72_get_path_twice, C72_directories, C72_directories_kept, C72_input_path, C72_book, C72_contexts, C72_add_files, C72_get_file, C72_toc, C72_static, C72_find_curve, C72_find_states, C72_added_found. Findings (proved): C72_no_separator, C72_compressed_refused, C72_names_findings, C72_two_files_findings, C72_user_lost, C72_copy_fails, C72_empty_ending, C72_curve_directory, C72_layout_findings (hence C72_layout_partial). float is any function, decimal numbers in C72_documented; posix paths of pathlib; reading of file contents not modelled.
C73 partial Foxes.Props.TwoTables.C73_range Foxes.Props.TwoTables.C73_cells Foxes.Props.TwoTables.C73_between_rows Foxes.Props.TwoTables.C73_between_columns Foxes.Props.TwoTables.C73_bounds Foxes.Props.TwoTables.C73_order Foxes.Props.TwoTables.C73_repeated Foxes.Props.TwoTables.C73_user_table_sorted Foxes.Props.TwoTables.C73_load_again Foxes.Props.TwoTables.C73_succeeds Foxes.Props.TwoTables.C73_power Foxes.Props.TwoTables.C73_thrust Foxes.Props.TwoTables.C73_rest Foxes.Props.TwoTables.C73_thrust_partial Foxes.Props.TwoTables.C73_thrust_wind_speed_ignored Foxes.Props.TwoTables.C73_thrust_range Foxes.Props.TwoTables.C73_corrected_out Foxes.Props.TwoTables.C73_density_fails Foxes.Props.TwoTables.C73_independent Foxes.Props.TwoTables.C73_alone_partial Foxes.Props.TwoTables.C73_corrections Foxes.Props.TwoTables.C73_reversed_fails Foxes.Props.TwoTables.C73_example Foxes.Props.TwoTables.C73_density_chunks
  Main theorems: C73_range, C73_cells, C73_between_rows, C73_between_columns, C73_bounds, C73_order, C73_repeated, C73_load_again, C73_succeeds, C73_power, C73_thrust, C73_rest, C73_independent, C73_corrections. Findings (proved): C73_thrust_wind_speed_ignored, C73_thrust_range (hence C73_thrust_partial), C73_density_fails, C73_density_chunks (hence C73_alone_partial), C73_corrected_out, C73_reversed_fails, C73_user_table_sorted. Default interpolation parameters, real numbers for doubles.
C74 partial Foxes.Props.ModelLists.C74_name_of_history Foxes.Props.ModelLists.C74_names_distinct Foxes.Props.ModelLists.C74_first_name Foxes.Props.ModelLists.C74_names_can_collide Foxes.Props.ModelLists.C74_params_spec Foxes.Props.ModelLists.C74_order Foxes.Props.ModelLists.C74_dicts_after Foxes.Props.ModelLists.C74_default_unchanged Foxes.Props.ModelLists.C74_calls_params Foxes.Props.ModelLists.C74_calls_documented_partial Foxes.Props.ModelLists.C74_pre_rotor_never Foxes.Props.ModelLists.C74_calls_ok_iff Foxes.Props.ModelLists.C74_shared_fails Foxes.Props.ModelLists.C74_later_ignored Foxes.Props.ModelLists.C74_counted Foxes.Props.ModelLists.C74_relaxed_list Foxes.Props.ModelLists.C74_relaxed_ambient_fails Foxes.Props.ModelLists.C74_relaxed_unusable Foxes.Props.ModelLists.C74_point_sum Foxes.Props.ModelLists.C74_leaves_add Foxes.Props.ModelLists.C74_point_add Foxes.Props.ModelLists.C74_point_add_assoc Foxes.Props.ModelLists.C74_farm_sum_fails Foxes.Props.ModelLists.C74_farm_add_not_assoc Foxes.Props.ModelLists.C74_default_shared Foxes.Props.ModelLists.C74_own_unaffected Foxes.Props.ModelLists.C74_own_append Foxes.Props.ModelLists.C74_seq_accepts_iff Foxes.Props.ModelLists.C74_seq_documented_fails Foxes.Props.ModelLists.C74_seq_ambient_ignored
  Main theorems: C74_order, C74_calls_params, C74_calls_ok_iff, C74_name_of_history, C74_names_distinct, C74_point_sum, C74_point_add, C74_relaxed_list, C74_seq_accepts_iff. Findings (proved): C74_pre_rotor_never (hence C74_calls_documented_partial), C74_dicts_after, C74_later_ignored, C74_shared_fails, C74_farm_sum_fails, C74_farm_add_not_assoc, C74_default_shared, C74_relaxed_ambient_fails, C74_relaxed_unusable, C74_seq_documented_fails, C74_seq_ambient_ignored.
C75 partial Foxes.Props.ResultFiles.C75_read_iff Foxes.Props.ResultFiles.C75_documented_formats Foxes.Props.ResultFiles.C75_other_dot Foxes.Props.ResultFiles.C75_write_formats Foxes.Props.ResultFiles.C75_class_dict Foxes.Props.ResultFiles.C75_write_params Foxes.Props.ResultFiles.C75_write_params_partial Foxes.Props.ResultFiles.C75_params_leak Foxes.Props.ResultFiles.C75_h5_needs_key Foxes.Props.ResultFiles.C75_csv_blocked Foxes.Props.ResultFiles.C75_format Foxes.Props.ResultFiles.C75_parse Foxes.Props.ResultFiles.C75_parse_near Foxes.Props.ResultFiles.C75_write_again Foxes.Props.ResultFiles.C75_csv_all Foxes.Props.ResultFiles.C75_chosen_kept Foxes.Props.ResultFiles.C75_history_partial Foxes.Props.ResultFiles.C75_names_change Foxes.Props.ResultFiles.C75_after_names Foxes.Props.ResultFiles.C75_names_of_chosen Foxes.Props.ResultFiles.C75_after_table Foxes.Props.ResultFiles.C75_rename_states Foxes.Props.ResultFiles.C75_nc Foxes.Props.ResultFiles.C75_nc_names Foxes.Props.ResultFiles.C75_nc_repeated Foxes.Props.ResultFiles.C75_table Foxes.Props.ResultFiles.C75_table_names Foxes.Props.ResultFiles.C75_csv_chosen Foxes.Props.ResultFiles.C75_csv_renamed
  Main theorems: C75_read_iff, C75_documented_formats, C75_write_formats, C75_format, C75_parse, C75_parse_near, C75_write_again, C75_csv_all, C75_csv_chosen, C75_csv_renamed, C75_table, C75_nc. Findings (proved): C75_other_dot, C75_params_leak (hence C75_write_params_partial), C75_h5_needs_key, C75_csv_blocked, C75_names_change, C75_after_names (hence C75_history_partial), C75_names_of_chosen, C75_after_table, C75_rename_states, C75_nc_names, C75_nc_repeated. pandas' own readers and writers, compression and encodings are not modelled.
C76 partial Foxes.Props.LayoutOut.C76_rnd_nearest Foxes.Props.LayoutOut.C76_csv_file Foxes.Props.LayoutOut.C76_csv_types Foxes.Props.LayoutOut.C76_csv_roundtrip Foxes.Props.LayoutOut.C76_csv_exact Foxes.Props.LayoutOut.C76_csv_again Foxes.Props.LayoutOut.C76_csv_types_read Foxes.Props.LayoutOut.C76_csv_none_lost Foxes.Props.LayoutOut.C76_csv_defaults Foxes.Props.LayoutOut.C76_csv_digit_names Foxes.Props.LayoutOut.C76_csv_na_names Foxes.Props.LayoutOut.C76_csv_results Foxes.Props.LayoutOut.C76_json_roundtrip Foxes.Props.LayoutOut.C76_json_repeated Foxes.Props.LayoutOut.C76_json_loses Foxes.Props.LayoutOut.C76_json_numpy Foxes.Props.LayoutOut.C76_common_D Foxes.Props.LayoutOut.C76_common_D_order Foxes.Props.LayoutOut.C76_color_mean Foxes.Props.LayoutOut.C76_color_sum Foxes.Props.LayoutOut.C76_color_min Foxes.Props.LayoutOut.C76_color_max Foxes.Props.LayoutOut.C76_map Foxes.Props.LayoutOut.C76_map_uniform Foxes.Props.LayoutOut.C76_map_single Foxes.Props.LayoutOut.C76_nc_file Foxes.Props.LayoutOut.C76_nc_exact Foxes.Props.LayoutOut.C76_nc_digits Foxes.Props.LayoutOut.C76_nc_default Foxes.Props.LayoutOut.C76_table_changed Foxes.Props.LayoutOut.C76_table_plain Foxes.Props.LayoutOut.C76_points_fixed Foxes.Props.LayoutOut.C76_points_values Foxes.Props.LayoutOut.C76_points_subset Foxes.Props.LayoutOut.C76_points_file Foxes.Props.LayoutOut.C76_wsum Foxes.Props.LayoutOut.C76_mean_const Foxes.Props.LayoutOut.C76_mean_result Foxes.Props.LayoutOut.C76_mean_file_empty Foxes.Props.LayoutOut.C76_mean_file_chosen Foxes.Props.LayoutOut.C76_mean_points_move
  Main theorems: C76_csv_roundtrip, C76_csv_exact, C76_csv_again, C76_csv_types_read, C76_json_roundtrip, C76_csv_results, C76_color_mean/sum/min/max, C76_nc_file, C76_rnd_nearest, C76_points_fixed, C76_points_file, C76_mean_result, C76_mean_const. Findings (proved): C76_csv_none_lost, C76_csv_digit_names, C76_csv_na_names, C76_json_loses, C76_json_numpy, C76_common_D_order, C76_table_changed, C76_mean_file_empty, C76_points_subset, C76_map_single. Floats are exact rationals; quoting and encoding of texts, pictures and the pandas/xarray libraries themselves (their rules are stated in the model) are not modelled.
C77 proved Foxes.Props.DefEng.C77_choice_iff Foxes.Props.DefEng.C77_choice_mono Foxes.Props.DefEng.C77_ok_restores Foxes.Props.DefEng.C77_fail Foxes.Props.DefEng.C77_no_turbines Foxes.Props.DefEng.C77_with_ok Foxes.Props.DefEng.C77_with_fail Foxes.Props.DefEng.C77_no_block Foxes.Props.DefEng.C77_caught Foxes.Props.DefEng.C77_same_results
  Main theorems: C77_choice_iff, C77_choice_mono, C77_ok_restores, C77_with_ok, C77_no_block, C77_same_results. Findings (proved): C77_with_fail, C77_caught, C77_fail, C77_no_turbines. DefaultEngine.map and the printed messages are not modelled.
C78 partial Foxes.Props.FlowPlots.C78_mean_image Foxes.Props.FlowPlots.C78_mean_data Foxes.Props.FlowPlots.C78_mean_data_iff Foxes.Props.FlowPlots.C78_states_image Foxes.Props.FlowPlots.C78_precalculated Foxes.Props.FlowPlots.C78_arrows Foxes.Props.FlowPlots.C78_state_arrows Foxes.Props.FlowPlots.C78_rotor_line Foxes.Props.FlowPlots.C78_rotor_vertical Foxes.Props.FlowPlots.C78_rotor_labels Foxes.Props.FlowPlots.C78_rotor_default_labels Foxes.Props.FlowPlots.C78_rotor_states Foxes.Props.FlowPlots.C78_rotor_wrong_state Foxes.Props.FlowPlots.C78_colours Foxes.Props.FlowPlots.C78_colours_vertical Foxes.Props.FlowPlots.C78_bars Foxes.Props.FlowPlots.C78_returned Foxes.Props.FlowPlots.C78_plugin Foxes.Props.FlowPlots.C78_plugin_vertical Foxes.Props.FlowPlots.C78_plugin_orientation
  Main theorems: C78_mean_image, C78_states_image, C78_precalculated, C78_arrows, C78_state_arrows, C78_rotor_line, C78_colours, C78_bars, C78_plugin. Findings (proved): C78_mean_data_iff, C78_rotor_wrong_state, C78_rotor_labels, C78_rotor_vertical, C78_returned, C78_colours_vertical, C78_plugin (titles), C78_plugin_vertical, C78_plugin_orientation. Real numbers without NaN; what matplotlib does with mesh, limits, lines and arrows is not modelled.
C79 partial Foxes.Props.UserSteps.C79_calculator Foxes.Props.UserSteps.C79_calculator_entries Foxes.Props.UserSteps.C79_selective Foxes.Props.UserSteps.C79_repeated Foxes.Props.UserSteps.C79_repeated_downwind Foxes.Props.UserSteps.C79_once Foxes.Props.UserSteps.C79_unselected Foxes.Props.UserSteps.C79_rotor_centre Foxes.Props.UserSteps.C79_order Foxes.Props.UserSteps.C79_order_wrong Foxes.Props.UserSteps.C79_farm_models Foxes.Props.UserSteps.C79_calculator_runs
  Main theorems: C79_calculator_runs, C79_calculator, C79_calculator_entries, C79_selective, C79_once, C79_unselected, C79_rotor_centre. Findings (proved): C79_repeated, C79_repeated_downwind, C79_order, C79_order_wrong, C79_farm_models. One chunk; wakes and rotor are a function that changes the data of the turbine in work only. SetUniformData is not modelled: it cannot be initialised at all.
C80 partial Foxes.Props.Shapes.C80_plain Foxes.Props.Shapes.C80_utm Foxes.Props.Shapes.C80_sound Foxes.Props.Shapes.C80_complete_partial Foxes.Props.Shapes.C80_island Foxes.Props.Shapes.C80_names Foxes.Props.Shapes.C80_unknown Foxes.Props.Shapes.C80_some Foxes.Props.Shapes.C80_later_rows
  What geopandas reads, the UTM library (a given zone is used; using the zone it found gives the same points) and matplotlib's inside are parameters. The claim that each point of a polygon is inside is false (C80_island); proved if it is in no hole of another polygon.
C81 partial Foxes.Props.RandStates.C81_columns Foxes.Props.RandStates.C81_mol Foxes.Props.RandStates.C81_mol_kept Foxes.Props.RandStates.C81_weights Foxes.Props.RandStates.C81_weight_column Foxes.Props.RandStates.C81_renamed Foxes.Props.RandStates.C81_written Foxes.Props.RandStates.C81_digits_ignored Foxes.Props.RandStates.C81_series_variables Foxes.Props.RandStates.C81_series_values Foxes.Props.RandStates.C81_seed Foxes.Props.RandStates.C81_seed_zero Foxes.Props.RandStates.C81_further Foxes.Props.RandStates.C81_rescaled Foxes.Props.RandStates.C81_fresh
  numpy's generator is any state machine that gives numbers in [0,1), pandas' rounding any function with the usual error bound. The claims about renamed columns, digits and the seed 0 are false (C81_renamed, C81_digits_ignored, C81_seed_zero). Time stamps and writing of the file are not modelled.
C82 partial Foxes.Props.DataKinds.C82_farm Foxes.Props.DataKinds.C82_target Foxes.Props.DataKinds.C82_sizes Foxes.Props.DataKinds.C82_positions Foxes.Props.DataKinds.C82_positions_add Foxes.Props.DataKinds.C82_positions_stale Foxes.Props.DataKinds.C82_empty_target Foxes.Props.DataKinds.C82_from_points Foxes.Props.DataKinds.C82_from_tpoints Foxes.Props.DataKinds.C82_weights_unmatched Foxes.Props.DataKinds.C82_positions_wrong Foxes.Props.DataKinds.C82_order Foxes.Props.DataKinds.C82_farm_accepts Foxes.Props.DataKinds.C82_target_accepts
  Main theorems: C82_farm, C82_target, C82_sizes, C82_positions, C82_positions_add, C82_farm_accepts, C82_target_accepts, C82_from_points, C82_from_tpoints. False of the code, proved: C82_weights_unmatched, C82_positions_stale, C82_positions_wrong, C82_empty_target, C82_order. from_dataset, tpoint_mean and that X, Y, H become views of the positions are not modelled; from_points without data of the caller.
C83 partial Foxes.Props.Anim.C83_frames Foxes.Props.Anim.C83_all Foxes.Props.Anim.C83_checked Foxes.Props.Anim.C83_none Foxes.Props.Anim.C83_nothing Foxes.Props.Anim.C83_again Foxes.Props.Anim.C83_empty_frame Foxes.Props.Anim.C83_count Foxes.Props.Anim.C83_image Foxes.Props.Anim.C83_update Foxes.Props.Anim.C83_update_ok Foxes.Props.Anim.C83_debug Foxes.Props.Anim.C83_run Foxes.Props.Anim.C83_once
  Main theorems: C83_frames, C83_all, C83_checked, C83_none, C83_count, C83_image, C83_update, C83_update_ok, C83_debug, C83_run. False of the code, proved: C83_empty_frame, C83_nothing, C83_again, C83_once. Generators are finite and independent of each other; what matplotlib does with frames is not modelled.
C84 partial Foxes.Props.Curves.C84_grid Foxes.Props.Curves.C84_grid_max Foxes.Props.Curves.C84_beyond Foxes.Props.Curves.C84_models Foxes.Props.Curves.C84_book Foxes.Props.Curves.C84_left_behind Foxes.Props.Curves.C84_user_lost Foxes.Props.Curves.C84_plot1 Foxes.Props.Curves.C84_plots Foxes.Props.Curves.C84_curves Foxes.Props.Curves.C84_one_axis Foxes.Props.Curves.C84_returned Foxes.Props.Curves.C84_labels Foxes.Props.Curves.C84_apart Foxes.Props.Curves.C84_close Foxes.Props.Curves.C84_points Foxes.Props.Curves.C84_axis_ignored Foxes.Props.Curves.C84_place Foxes.Props.Curves.C84_title Foxes.Props.Curves.C84_defaults Foxes.Props.Curves.C84_simple
  Main theorems: C84_grid, C84_grid_max, C84_models, C84_book, C84_plot1, C84_plots, C84_curves, C84_simple, C84_defaults, C84_labels, C84_apart, C84_points, C84_place, C84_title. False of the code, proved: C84_beyond, C84_one_axis, C84_returned, C84_left_behind, C84_user_lost, C84_axis_ignored, C84_close. The farm calculation is an abstract function of the models and wind speeds; real numbers (in floating point arange can have one value more).
C85 proved Foxes.Props.CfgDict.C85_new Foxes.Props.CfgDict.C85_paths Foxes.Props.CfgDict.C85_merge Foxes.Props.CfgDict.C85_clash Foxes.Props.CfgDict.C85_kw Foxes.Props.CfgDict.C85_names Foxes.Props.CfgDict.C85_get Foxes.Props.CfgDict.C85_get_dict Foxes.Props.CfgDict.C85_pop
  Main theorems: C85_new, C85_paths, C85_merge, C85_clash, C85_kw, C85_get, C85_get_dict, C85_pop. Finding: C85_names. Object identity and printing are not modelled; from_yaml only reads a file and calls the constructor.
C86 partial Foxes.Props.UtilFns.C86_found Foxes.Props.UtilFns.C86_unique Foxes.Props.UtilFns.C86_base Foxes.Props.UtilFns.C86_ambiguous Foxes.Props.UtilFns.C86_plain Foxes.Props.UtilFns.C86_shape Foxes.Props.UtilFns.C86_value Foxes.Props.UtilFns.C86_statement Foxes.Props.UtilFns.C86_many Foxes.Props.UtilFns.C86_args_dropped Foxes.Props.UtilFns.C86_left_to_right Foxes.Props.UtilFns.C86_own Foxes.Props.UtilFns.C86_root Foxes.Props.UtilFns.C86_root_mono Foxes.Props.UtilFns.C86_root_smooth Foxes.Props.UtilFns.C86_in_order
  Main theorems: C86_found, C86_unique, C86_plain, C86_shape, C86_value, C86_statement, C86_many, C86_in_order, C86_left_to_right, C86_own, C86_root, C86_root_mono, C86_root_smooth. False of the code, proved: C86_base, C86_ambiguous, C86_args_dropped. Indicators of one character; executing python is an abstract function on the name space; real numbers.
C87 partial Foxes.Props.StoredData.C87_store Foxes.Props.StoredData.C87_delete Foxes.Props.StoredData.C87_same Foxes.Props.StoredData.C87_accepted_iff Foxes.Props.StoredData.C87_resized Foxes.Props.StoredData.C87_history Foxes.Props.StoredData.C87_accepted_again Foxes.Props.StoredData.C87_there_and_back Foxes.Props.StoredData.C87_coords Foxes.Props.StoredData.C87_all_models Foxes.Props.StoredData.C87_turbine_first Foxes.Props.StoredData.C87_half_done Foxes.Props.StoredData.C87_refused_then_silent Foxes.Props.StoredData.C87_stale_flag Foxes.Props.StoredData.C87_flags_survive Foxes.Props.StoredData.C87_key_collision
  Main theorems: C87_store, C87_delete, C87_same, C87_accepted_iff, C87_resized, C87_history, C87_accepted_again, C87_there_and_back, C87_coords, C87_all_models. False of the code, proved: C87_turbine_first, C87_half_done, C87_refused_then_silent, C87_stale_flag, C87_flags_survive, C87_key_collision. NaN values and class names beginning with two underscores are not modelled.
C88 partial Foxes.Props.FinalWakes.C88_rotor_points Foxes.Props.FinalWakes.C88_centre Foxes.Props.FinalWakes.C88_segregated Foxes.Props.FinalWakes.C88_homogeneous Foxes.Props.FinalWakes.C88_same_points Foxes.Props.FinalWakes.C88_no_wake Foxes.Props.FinalWakes.C88_models_add Foxes.Props.FinalWakes.C88_models_order Foxes.Props.FinalWakes.C88_tpoint_mean Foxes.Props.FinalWakes.C88_points_paired Foxes.Props.FinalWakes.C88_points_order
  Main theorems: C88_rotor_points, C88_centre, C88_segregated, C88_homogeneous, C88_same_points, C88_no_wake, C88_models_add, C88_models_order, C88_points_order, C88_tpoint_mean. False of the code, proved: C88_points_paired. One state and one variable; the superposition's final function is arbitrary.
C89 partial Foxes.Props.SetOnce.C89_schedule Foxes.Props.SetOnce.C89_any_schedule Foxes.Props.SetOnce.C89_once_first Foxes.Props.SetOnce.C89_once_done Foxes.Props.SetOnce.C89_always Foxes.Props.SetOnce.C89_always_last Foxes.Props.SetOnce.C89_session Foxes.Props.SetOnce.C89_sequential Foxes.Props.SetOnce.C89_session_right Foxes.Props.SetOnce.C89_iterations_engines
  One variable, all evaluations in all chunks of all calculations of an algorithm as events; results of a chunk are determined by its own events (C89_schedule); exact description of sessions (C89_session: values or NaN); sequential runs, iterations in threads and processes. False parts of the English statement are proved as such. Reading the data in downwind order is C34.
C90 proved Foxes.Props.SeqPlugins.C90_complete Foxes.Props.SeqPlugins.C90_interruption_invisible Foxes.Props.SeqPlugins.C90_not_finalized Foxes.Props.SeqPlugins.C90_calc_farm Foxes.Props.SeqPlugins.C90_calc_farm_run Foxes.Props.SeqPlugins.C90_calc_farm_early Foxes.Props.SeqPlugins.C90_plugin_raises Foxes.Props.SeqPlugins.C90_points_fail Foxes.Props.SeqPlugins.C90_plugin_called_twice
  Complete loops for different labels and states not known to be one in advance (see C19); interruption (C90_interruption_invisible, C90_not_finalized) for every setup, including failures and repeated labels. Initialise and finalise calls of plugins are taken not to raise.
