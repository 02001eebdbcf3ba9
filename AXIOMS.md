# Axioms per theorem

Generated by `tools/axioms.py` (`#print axioms`).

## none

* C80: `C80_to_TP_zs_fails`
* C81: `C81_to_fails`
* C82: `C82_alias_fails`
* C85: `C85_equilibrium`, `C85_options`, `C85_caloric_partial`, `C85_caloric_fails`, `C85_unknown_basis_fails`, `C85_solid_partial`, `C85_solid_fails`
* C89: `C89_mixing`, `C89_fallback_fails`
* C94: `C94_bound_fails`, `C94_interval`, `C94_interval_fails`
* C106: `C106_to_TP_zs_fails`
* C107: `C107_decision`, `C107_decision_fails`
* C108: `C108_uncached_fails`
* C110: `C110_properties_partial`, `C110_properties_fails`
* C111: `C111_load_fails`
* C122: `C122_stale_fails`, `C122_state_fails`
* C127: `C127_flow_fails`, `C127_state_specs_partial`, `C127_autoflash_fails`
* C128: `C128_default_fails`
* C136: `C136_cas`
* C140: `C140_most_stable_fails`
* C142: `C142_context_fails`, `C142_alias_fails`
* C143: `C143_missing_fails`
* C144: `C144_names`
* C146: `C146_bounds_once_fails`, `C146_maxfev_fails`
* C149: `C149_other_method`, `C149_other_method_fails`
* C150: `C150_fields`, `C150_unchanged`

## propext

* C01: `C01_setter_stores`
* C02: `C02_raise_changes_nothing`
* C08: `C08_pyid_string_corrupted`
* C48: `C48_call_is_fresh`
* C80: `C80_calls_fails`
* C81: `C81_kind`
* C82: `C82_answer`, `C82_default_fails`
* C88: `C88_over_fails`
* C99: `C99_init_partial`, `C99_init_fails`
* C101: `C101_select`
* C107: `C107_start`
* C111: `C111_validity`
* C112: `C112_ranked`, `C112_exported_partial`, `C112_exported_fails`
* C114: `C114_mixture_validity`, `C114_exported_fails`
* C121: `C121_derivative`
* C122: `C122_equivalence`, `C122_other_fails`, `C122_covered`, `C122_unifac_fails`, `C122_caloric_fails`
* C123: `C123_polynomial_fails`, `C123_extrapolates`, `C123_extrapolates_fails`, `C123_integral_fails`
* C124: `C124_explicit_fails`, `C124_empty_fit_fails`, `C124_displaced_fails`, `C124_shared_dictionary_fails`, `C124_repr_fails`, `C124_as_poly_fit_partial`, `C124_as_poly_fit_fails`, `C124_json_fails`, `C124_add_partial`, `C124_add_fails`
* C125: `C125_states`
* C126: `C126_state_specs_fails`
* C127: `C127_flow`, `C127_autoflash_partial`
* C130: `C130_empty_fails`
* C133: `C133_specified`, `C133_error_partial`, `C133_error_fails`
* C135: `C135_third_fails`, `C135_modified_fails`
* C136: `C136_tables_partial`, `C136_getters_fails`
* C142: `C142_triple`, `C142_lock`, `C142_context_partial`, `C142_unreadable_fails`, `C142_columns_fails`
* C143: `C143_make_fails`, `C143_ideal_fails`, `C143_grid_order`
* C144: `C144_ring_atoms_fails`, `C144_version`, `C144_organic_fails`
* C145: `C145_seed_fails`, `C145_coefficients`, `C145_coefficients_fails`
* C146: `C146_few_points`, `C146_count_fails`
* C148: `C148_limits`
* C150: `C150_list_of_arrays_fails`, `C150_idempotent`, `C150_option`
* C151: `C151_frame`, `C151_columns`, `C151_joule_thomson_fails`, `C151_load`, `C151_load_again`, `C151_load_fails`, `C151_economic`, `C151_oecd_fails`, `C151_copied`, `C151_shared_fails`
* C152: `C152_complete`, `C152_not_selectable_fails`
* C153: `C153_bonds`
* C154: `C154_text`, `C154_text_delimiter_fails`
* C157: `C157_names_fails`
* C159: `C159_once`
* C162: `C162_marked`, `C162_unmarked`, `C162_named`, `C162_unmarked_fails`, `C162_solid_mark_fails`, `C162_solid_fails`, `C162_virial_fails`, `C162_ignored_fails`, `C162_refused`
* C164: `C164_absent`, `C164_others`

## propext, Classical.choice, Quot.sound

* C01: `C01_at_most_two_state_specs_partial`, `C01_energy_overspecifies`, `C01_H_reactive_overspecifies`, `C01_setter_refuses_iff`
* C02: `C02_composition_and_flow_exclusive`, `C02_fraction_setter_refuses_iff`
* C03: `C03_H_reactive_dropped`, `C03_energy_reactive_duplicated`, `C03_copy_partial`
* C04: `C04_flash_is_fresh_partial`, `C04_flashes_iff`, `C04_stale_after_H_mass`, `C04_stale_after_flasher`
* C05: `C05_single_unknown_outlet_partial`, `C05_single_unknown_inlet_partial`, `C05_solved_basis`, `C05_unbalanced_when_partly_known`, `C05_componentwise_balances`, `C05_total_stage_balances`
* C06: `C06_componentwise_keeps_known`, `C06_known_flows_kept_partial`, `C06_overwrites_known`
* C07: `C07_single_unknown_partial`, `C07_overdetermined_raises`, `C07_shortcut_partial`, `C07_shortcut_does_not_close`, `C07_two_unknown_masses`, `C07_two_unknown_inlets_partial`, `C07_two_unknowns_wrong_stream`
* C08: `C08_round_trip_partial`
* C09: `C09_symmetric_lookup`, `C09_no_key_collision`, `C09_symmetric_matrix`, `C09_asymmetric_matrix`, `C09_symmetric_matrix_of_ordered_table`
* C10: `C10_extrapolation_change_stale`, `C10_readded_method_stale`, `C10_readded_table_stale`
* C11: `C11_pressure_decision`, `C11_decision`
* C12: `C12_constant_value`, `C12_linear`, `C12_logLinear`, `C12_antoineAB`, `C12_dippr101`, `C12_watson`, `C12_expLnTau2`, `C12_expLnTau3`, `C12_dippr106`, `C12_arrhenius`, `C12_dippr106ABC`
* C13: `C13_linear_derivative`, `C13_antoine_derivatives`, `C13_antoine_transforms`, `C13_dippr101_transforms`, `C13_integral_partial`, `C13_integral_over_T_partial`, `C13_clamp_ignored`
* C14: `C14_is_integral`, `C14_additive`, `C14_no_extrapolation`, `C14_reversed_None_raises`
* C15: `C15_method_change_stale`, `C15_readded_table_stale`
* C16: `C16_returned_value_partial`
* C17: `C17_round_trip`, `C17_last_wins`
* C18: `C18_assignment`, `C18_success_partial`, `C18_search_complete`, `C18_hydrogen_only`, `C18_unmatched_atom_success`
* C19: `C19_covers_once`, `C19_counts_partial`, `C19_counts_before_removal`, `C19_index_error`, `C19_wrong_match_deleted`
* C20: `C20_permutation`, `C20_pure`, `C20_binary`, `C20_swap_stored_order`, `C20_reverse_T_dependence`
* C21: `C21_derivatives`
* C22: `C22_identities`, `C22_composition`, `C22_sum_lngammas`
* C23: `C23_gammas`, `C23_dns`, `C23_gibbs_duhem`, `C23_dgammas_dT`, `C23_dgammas_dns_partial`, `C23_dgammas_dns_fails`
* C24: `C24_dGE_dxs`, `C24_d2GE_dxixjs`, `C24_d3GE_dxixjxks`, `C24_gammas`, `C24_pure`, `C24_buffer`, `C24_partial_molar`, `C24_dgammas_dns`, `C24_temperature`, `C24_binary`, `C24_binary_jac`, `C24_clamp`
* C25: `C25_taus`, `C25_Gs`, `C25_dGE_dxs`, `C25_d2GE_dxixjs`, `C25_gammas`, `C25_pure`, `C25_partial_molar`, `C25_dgammas_dns`, `C25_temperature`, `C25_class`, `C25_binary_clamped`, `C25_binary`, `C25_binary_jac`
* C26: `C26_regular_GE`, `C26_regular_derivatives`, `C26_regular_gammas`, `C26_regular_partial_molar`, `C26_regular_dgammas_dns`, `C26_regular_temperature`, `C26_regular_binary`, `C26_regular_binary_jac`, `C26_regular_binary_jac_cap_fails`, `C26_uniquac_dGE_dxs`, `C26_uniquac_d2GE_dxixjs`, `C26_uniquac_z_fails`, `C26_uniquac_gammas`, `C26_uniquac_partial_molar`, `C26_uniquac_dgammas_dns`, `C26_uniquac_temperature`, `C26_uniquac_binary`
* C27: `C27_iff`, `C27_poles`, `C27_no_attraction`, `C27_three`, `C27_slopes`, `C27_mpmath_fallback_fails`
* C28: `C28_one_root`, `C28_doubledouble_fails`, `C28_doubledouble_inline_sign`, `C28_fast`, `C28_fast_zero_division`, `C28_deflate`, `C28_halley_bracket`, `C28_halley_exit`, `C28_halley_fixed`
* C29: `C29_roots`, `C29_negative_covolume_fails`
* C30: `C30_one_of_two_partial`, `C30_both_fails`, `C30_single_partial`, `C30_single_stale`, `C30_solve_missing`
* C31: `C31_pressure`, `C31_reciprocal`, `C31_vdw`
* C32: `C32_departures`, `C32_lnphi`, `C32_vdw`, `C32_poles_fails`
* C33: `C33_PR`, `C33_PR_third`, `C33_SRK`, `C33_RK`, `C33_APISRK`, `C33_PRSV`, `C33_PRSV2`, `C33_VDW`, `C33_vectorized`, `C33_PRSV_third_partial`, `C33_PRSV_third_fails`, `C33_Soave_1972`, `C33_Harmens_Knapp`, `C33_Mathias_1983`, `C33_Mathias_Copeman_untruncated`, `C33_Gibbons_Laughton`, `C33_Soave_1984`, `C33_Schwartzentruber`, `C33_Soave_1993`, `C33_Soave_1979`, `C33_Heyen`, `C33_Yu_Lu`, `C33_Trebble_Bishnoi`, `C33_Melhem`, `C33_Androulakis`, `C33_Gasem`, `C33_Coquelet`, `C33_Saffari`, `C33_Haghtalab`, `C33_Chen_Yang`, `C33_Twu91`, `C33_Almeida`, `C33_Almeida_critical_fails`, `C33_Mathias_Copeman`, `C33_Mathias_Copeman_critical`, `C33_Mathias_Copeman_critical_fails`, `C33_Mathias_Copeman_poly`, `C33_Mathias_Copeman_poly_jump`, `C33_Poly`, `C33_TWU_value`, `C33_TWU`, `C33_TWU_floor`, `C33_TWU_low`, `C33_TWU_low_fails`, `C33_TWU_critical_fails`, `C33_TWU_documented`
* C34: `C34_SRK`, `C34_SRK_none`, `C34_SRK_least`, `C34_SRK_negative_m_fails`, `C34_SRKTranslatedPPJP_fails`, `C34_PR_newton`, `C34_PR`, `C34_PR_gas`, `C34_VDW`, `C34_IG`, `C34_residuals`, `C34_generic_newton`, `C34_RK`, `C34_RK_negative`, `C34_RK_direct`, `C34_RK_zero_fails`, `C34_RK_solve`
* C35: `C35_SRK`, `C35_PR`, `C35_SRK_negative_m_fails`, `C35_SRKTranslatedPPJP_fails`, `C35_PRSV_fails`
* C36: `C36_constants`, `C36_pressure`, `C36_roots`, `C36_departures`, `C36_lnphi`, `C36_saturation`, `C36_estimate_MN`
* C37: `C37_discriminant`, `C37_sign`, `C37_discriminant_T_fails`, `C37_discriminant_P`, `C37_quartic`, `C37_zeros_complete`, `C37_zeros_sound_partial`, `C37_zeros_fails`, `C37_zero_newton`, `C37_VDW`, `C37_VDW_leading_zero`, `C37_RK`
* C38: `C38_pairs`, `C38_value`, `C38_full_value`, `C38_quadratic`, `C38_full_derivatives`, `C38_mixture_derivatives`, `C38_combined`, `C38_self_interaction_fails`, `C38_asymmetric_fails`, `C38_negative_fails`
* C39: `C39_quadratic_rows`, `C39_combined_rows`, `C39_combined_rows_absent_partial`, `C39_combined_rows_fails`, `C39_derivative_matrices`, `C39_derivative_matrices_fails`, `C39_rows_from_matrix`
* C40: `C40_sum`, `C40_PR_sum`, `C40_SRK_sum`, `C40_VDW_sum_partial`
* C41: `C41_covolume`, `C41_PR_delta`, `C41_PR_epsilon`, `C41_translated_delta`, `C41_PR_translated_epsilon`, `C41_SRK_translated_epsilon`, `C41_attraction`
* C42: `C42_clear_composition_and_flow`, `C42_clear_state_specs_partial`, `C42_clear_state_keeps_H_reactive`
* C43: `C43_constructor_rejects_second_composition`, `C43_constructor_rejects_third_state`, `C43_constructor_rejects_two_totals_partial`, `C43_constructor_accepts_two_total_flows`
* C44: `C44_single_unknown_completed`, `C44_complete_list_checked`, `C44_underdetermined_untouched`, `C44_reconcile_fills_ns`, `C44_mass_and_mole_flows`
* C45: `C45_progress_without_change`, `C45_progress_is_real_partial`
* C49: `C49_pure`, `C49_bounds`, `C49_permutation`, `C49_excess`
* C50: `C50_excess_correlation_partial`, `C50_pairs_dropped`
* C51: `C51_unnamed_is_new_partial`
* C52: `C52_piecewise_integral`
* C53: `C53_greedy`
* C54: `C54_volume_fraction`, `C54_GE`, `C54_derivatives`, `C54_gammas`, `C54_unnormalised_fails`, `C54_temperature`, `C54_hansen`, `C54_hansen_binary`
* C56: `C56_second`, `C56_density`, `C56_compressibility`, `C56_mixed`
* C57: `C57_enthalpy`, `C57_entropy`, `C57_heat_capacity`, `C57_fugacity`, `C57_enthalpy_second`, `C57_entropy_second`
* C58: `C58_dPsat_low`, `C58_dPsat_critical`, `C58_dPsat_bound_fails`, `C58_dPsat_polished`, `C58_dphi_sat`, `C58_Hvap`, `C58_phi_sat_critical`, `C58_phi_sat_translated_fails`
* C55: `C55_volume`, `C55_branch_exists`, `C55_helper`, `C55_helper_G`, `C55_general`, `C55_PR`, `C55_SRK`, `C55_RK`, `C55_PR_translated`, `C55_SRK_translated`, `C55_VDW_partial`, `C55_VDW_fails`, `C55_PR_no_attraction_fails`
* C59: `C59_volume_choice`, `C59_volume_choice_fails`
* C60: `C60_neutral`, `C60_exact`, `C60_nonneg`, `C60_selected`, `C60_proportional`, `C60_dominant`, `C60_increase_dominant`, `C60_decrease_dominant`, `C60_increase_dominant_succeeds`, `C60_concentrations`, `C60_water_fails`, `C60_absent_group_fails`, `C60_zero_amount_fails`, `C60_dominant_fraction_fails`, `C60_decrease_absent_fails`
* C61: `C61_first`, `C61_second`, `C61_compressibility`, `C61_energy`, `C61_generated`
* C62: `C62_fundamental`, `C62_heat_capacity`, `C62_isentropic`, `C62_second`
* C63: `C63_to`, `C63_overrides`, `C63_promises`, `C63_mixed_fails`, `C63_corrected`, `C63_Cv_fails`, `C63_sound_fails`
* C64: `C64_root`, `C64_promises`, `C64_second`, `C64_caloric`
* C65: `C65_TP`, `C65_ns`, `C65_ln`, `C65_gibbs_duhem`, `C65_from_phi`, `C65_checks`, `C65_criteria`
* C66: `C66_chemical_potential`, `C66_fugacity`, `C66_formation`, `C66_formation_fails`
* C67: `C67_mechanical`, `C67_departures`, `C67_ideal_limit`, `C67_caloric_partial`, `C67_Cp_fails`, `C67_corrected`, `C67_to`, `C67_composition`, `C67_lnphis`, `C67_mixing`
* C68: `C68_additive`, `C68_derivatives`, `C68_volume_weighted`, `C68_gibbs`, `C68_stiffness`, `C68_Cv_bounds`, `C68_single`, `C68_equilibrium_derivative`, `C68_speed_of_sound`, `C68_default_derivatives_fails`
* C69: `C69_states`, `C69_fractions`, `C69_weight_states`, `C69_volume_reads_partial`, `C69_liquids`, `C69_quality_partial`, `C69_quality_fails`, `C69_shared_cache_fails`
* C70: `C70_flows`, `C70_liquid_bulk_partial`, `C70_liquid_bulk_scaled`, `C70_liquid_bulk_fails`
* C71: `C71_bounds`, `C71_no_gas`, `C71_correlations`, `C71_gas_liquid_partial`, `C71_liquid_bulk_partial`, `C71_log_le_linear`, `C71_log_dP_dV_fails`, `C71_liquid_bulk_fails`, `C71_solids_fails`, `C71_gas_solid_fails`
* C72: `C72_atom_content`, `C72_atom_fractions`, `C72_atoms_conserved`, `C72_H_C_ratio_partial`, `C72_H_C_ratio_fails`, `C72_no_water`, `C72_no_water_exists`, `C72_no_water_mass`, `C72_humidity_partial`, `C72_no_water_component`, `C72_humidity_fails`, `C72_Vfls`, `C72_lightest_heaviest`, `C72_water_phase`
* C73: `C73_S_ideal_gas`, `C73_S_ideal_gas_sign`, `C73_H_dep`, `C73_S_dep`, `C73_dep_partial`, `C73_G_dep_fails`
* C74: `C74_scores`, `C74_volume_scores`, `C74_wilson_partial`, `C74_wilson_pure_fails`, `C74_traces_listed`, `C74_traces`, `C74_traces_bound_fails`, `C74_partition`, `C74_classes`, `C74_best_gas_partial`, `C74_two_forced_fails`, `C74_forced_gas_fails`, `C74_unknown_force_fails`, `C74_solids`
* C75: `C75_keys`, `C75_sort`, `C75_ties_fails`, `C75_compressibility_fails`, `C75_water`, `C75_aligned`, `C75_sorted`, `C75_balance`, `C75_no_betas_fails`
* C76: `C76_potential`, `C76_promises`, `C76_overrides`
* C77: `C77_lnphi`, `C77_lnphi_derivatives`, `C77_gibbs_helmholtz`, `C77_A_fails`, `C77_S_dep_partial`, `C77_S_dep_fails`, `C77_virial`, `C77_virial_derivatives`, `C77_d3B_fails`
* C78: `C78_energies`, `C78_first`, `C78_pvt`, `C78_second`
* C79: `C79_ice`, `C79_zero`, `C79_pressure`, `C79_literals`
* C80: `C80_volume`, `C80_basis_partial`, `C80_basis_fails`
* C81: `C81_positive`, `C81_simple`, `C81_acentric`, `C81_continuous`, `C81_continuous_fails`
* C83: `C83_poynting`, `C83_dPoyntings_dT`, `C83_d2Poyntings_dT2`, `C83_dPoyntings_dP`, `C83_d2Poyntings_dPdT`, `C83_lnphis`, `C83_dphis_dT`, `C83_dlnphis_dP`
* C84: `C84_H_dep`, `C84_S_dep`, `C84_G_dep`, `C84_Cp`, `C84_dS_dT`, `C84_dH_dP`, `C84_dS_dP`, `C84_dG`, `C84_Hvap_G_partial`, `C84_dG_dP_noPoynting`, `C84_Hvap_Cp_fails`, `C84_Hvap_dS_dP_fails`, `C84_Hvap_G_fails`, `C84_V_fails`
* C85: `C85_to_partial`, `C85_to_fails`, `C85_move`, `C85_calls`, `C85_model`, `C85_keeps`, `C85_stale_volume_fails`, `C85_fill`, `C85_fill_fails`
* C86: `C86_volume_derivatives`, `C86_upper_limit`, `C86_limit_fails`, `C86_phi_sat_partial`, `C86_phi_sat_fails`, `C86_volumes_partial`, `C86_volumes_fails`, `C86_henry`, `C86_henry_zero_fails`, `C86_phis_at_partial`, `C86_phis_at_fails`
* C87: `C87_incompressible_fails`, `C87_incompressible_partial`, `C87_Tait_fails`, `C87_dvol`, `C87_integral`
* C88: `C88_density`, `C88_energy`, `C88_molar`, `C88_conflict_fails`, `C88_check`, `C88_limit`, `C88_limit_fails`
* C89: `C89_boundary`, `C89_grid`, `C89_grid_fails`, `C89_liquids_partial`
* C90: `C90_balance`, `C90_fugacity`, `C90_progress`, `C90_distinct`, `C90_first_fails`, `C90_order`, `C90_several_partial`, `C90_several_fugacity`, `C90_several_fails`
* C91: `C91_two_KK`, `C91_two_KV`, `C91_two_V`, `C91_two_zero`, `C91_transform`, `C91_spec_zero`, `C91_dew_P`, `C91_many_jac`, `C91_many_zero`, `C91_many_fails`, `C91_spec_row_partial`, `C91_spec_fails`, `C91_dew_jac`, `C91_dew_zero`, `C91_dew_absent_fails`, `C91_flows`, `C91_basis`, `C91_transform_fails`
* C92: `C92_stationary`, `C92_tpd`, `C92_sum`, `C92_unstable`, `C92_verdict`, `C92_ideal`, `C92_window_fails`, `C92_missed_fails`, `C92_stable`, `C92_first`, `C92_highest`, `C92_lowest_fails`, `C92_iffy_fails`, `C92_options_fails`, `C92_dedup`, `C92_dedup_adjacent`, `C92_dedup_fails`
* C93: `C93_pure`, `C93_pure_derivative`, `C93_pure_stable_partial`, `C93_pure_stable_fails`, `C93_solid`, `C93_solid_fails`, `C93_mm_derivative`, `C93_mm_result`, `C93_mm_fails`, `C93_mm_positive`, `C93_mm_retry_fails`, `C93_old_derivative`, `C93_old_zero`, `C93_old_step`, `C93_old_retry_fails`, `C93_liquids`, `C93_liquids_fails`, `C93_ig_derivative`, `C93_ig_zero`, `C93_ig_bounds`, `C93_ig_unique`
* C94: `C94_least`, `C94_tie`, `C94_limit_fails`, `C94_TV_fails`, `C94_dome_fails`, `C94_shortcut`, `C94_shortcut_fails`, `C94_cubic`, `C94_criterion_H`, `C94_criterion_S`, `C94_PU_fails`, `C94_TS_fails`, `C94_choice`, `C94_choice_PS`, `C94_lever`, `C94_specfun_fails`, `C94_specfun_partial`, `C94_decide`, `C94_solid_fails`, `C94_bound`, `C94_grid_partial`, `C94_grid_fails`, `C94_saturation_slope`, `C94_bounding`, `C94_bounding_all`, `C94_vfGuess`
* C95: `C95_balance`, `C95_types`, `C95_far_below`, `C95_far_above_fails`, `C95_stable`, `C95_hot`, `C95_bounds_partial`, `C95_bounds_fails`, `C95_VF`, `C95_VF_fails`, `C95_K`, `C95_double_check`, `C95_energy_partial`, `C95_energy_two`, `C95_fractions_partial`, `C95_dead`, `C95_double_check_fails`, `C95_stable_fails`, `C95_retry_fails`, `C95_retry_error_fails`, `C95_loop_fails`, `C95_loop`, `C95_hot_fails`
* C96: `C96_overlap`, `C96_removed_partial`, `C96_removed_fails`, `C96_scaled`, `C96_bracket`, `C96_bracket_none`, `C96_follow_partial`, `C96_follow_fails`, `C96_checks`, `C96_point_checks`, `C96_rich`, `C96_rich_fails`, `C96_nearest`, `C96_scan`, `C96_scan_first`, `C96_scan_ne`, `C96_keep_fails`, `C96_final_partial`, `C96_final_fails`, `C96_wet_bulb`, `C96_nested`, `C96_direct_partial`, `C96_direct_fails`, `C96_cricondentherm`, `C96_cricondenbar_partial`, `C96_cricondenbar_fails`
* C97: `C97_reference`, `C97_psi`, `C97_psi_pos`, `C97_fractions`, `C97_groups_dT`, `C97_pure_groups`, `C97_residual_dT`, `C97_GE_pure`, `C97_GE_dT`, `C97_pure`, `C97_function`, `C97_entry_partial`, `C97_entry_fails`, `C97_missing_partial`, `C97_missing_fails`, `C97_hash_partial`, `C97_hash_fails`
* C98: `C98_volumes`, `C98_fractions`, `C98_groups`, `C98_combinatorial`, `C98_residual`, `C98_GE`, `C98_gibbs_duhem`, `C98_generic`, `C98_gammas`
* C99: `C99_linear`, `C99_missing`, `C99_order`, `C99_table`, `C99_Tc`, `C99_Tc_partial`, `C99_alkane_partial`, `C99_Tc_fails`, `C99_Pc`, `C99_Cpig`, `C99_mul`, `C99_diky`, `C99_diky_units`, `C99_fedors`, `C99_fedors_status`, `C99_wj`, `C99_wj_flag_fails`, `C99_wj_fails`, `C99_wj_Pc_partial`, `C99_wj_first`, `C99_bondi`, `C99_bondi_alkane`, `C99_bondi_branched`, `C99_bondi_fails`
* C100: `C100_data`, `C100_kij`, `C100_defined`, `C100_symmetric`, `C100_kijs`, `C100_self`, `C100_scale`, `C100_reference`, `C100_pure_groups`, `C100_van_laar`, `C100_constants`, `C100_parameters`, `C100_doc_fails`, `C100_missing_fails`
* C101: `C101_allclose`, `C101_allclose_default`, `C101_allclose_empty`, `C101_allclose_limits_fails`, `C101_allclose_order_fails`, `C101_identify`, `C101_identify_mono`, `C101_boiling_partial`, `C101_boiling_fails`, `C101_identify_zero_fails`, `C101_dn2`, `C101_TPD`, `C101_TPD_self`, `C101_TPD_equilibrium`, `C101_truncLog`, `C101_TPD_split`, `C101_TPD_stable`, `C101_TPD_ideal`, `C101_stateva`, `C101_stateva_fails`, `C101_components`, `C101_components_swap`, `C101_components_total`, `C101_components_split`, `C101_reactive`, `C101_components_zero_fails`, `C101_reactive_fails`, `C101_reactive_tolerance_fails`, `C101_kinetic`, `C101_energy`, `C101_elevation_fails`, `C101_areas_fails`
* C102: `C102_compositions`, `C102_wilson`, `C102_wilson_acentric`, `C102_thirds`, `C102_pure`, `C102_count_partial`, `C102_random_fails`, `C102_name_partial`, `C102_pure_name_fails`, `C102_zero_name_fails`, `C102_aqueous_name_fails`, `C102_generator`, `C102_random_size_fails`, `C102_guesses_partial`, `C102_same`, `C102_alpha`, `C102_constrained_partial`, `C102_constraint_fails`
* C103: `C103_split`, `C103_bounds`, `C103_window`, `C103_unique`, `C103_bracket_fails`, `C103_dew_le_bubble`, `C103_TP`, `C103_single`, `C103_TVF`, `C103_monotone`, `C103_round_trip`, `C103_nearly_pure_fails`, `C103_equal_fails`, `C103_PVF`, `C103_wrapper_TP_partial`, `C103_wrapper_VF`, `C103_overspecified_fails`, `C103_pairs`
* C104: `C104_enthalpy_partial`, `C104_enthalpy_fails`, `C104_entropy_fails`, `C104_entropy_partial`, `C104_limits_partial`, `C104_bubble_fails`, `C104_vaporization`, `C104_gibbs`, `C104_potentials_partial`, `C104_potentials_fails`, `C104_gibbs_fails`, `C104_gas_derivatives`, `C104_liquid_cp_fails`, `C104_partial`, `C104_partial_sum`, `C104_liquid_route`, `C104_routes`, `C104_reactive`, `C104_copy_fails`, `C104_reference`
* C105: `C105_make`, `C105_insufficient`, `C105_specs`, `C105_three_specs_fails`, `C105_to`, `C105_to_fresh`, `C105_to_TP_fails`, `C105_more_stable`, `C105_a_alpha_for_V`, `C105_a_alpha_for_Psat`, `C105_sat_departures`
* C106: `C106_make`, `C106_fast`, `C106_touch_same`, `C106_stale_fails`, `C106_fugacities_lowest`, `C106_lnphis_lowest_partial`, `C106_lnphis_lowest_fails`, `C106_only_g_fails`, `C106_dphi_dn_fails`, `C106_subset`, `C106_subset_view_fails`, `C106_subset_view`, `C106_Psat_pure_partial`, `C106_Psat_polish_fails`
* C107: `C107_triple_root`, `C107_critical`, `C107_critical_jacobian`, `C107_guess`, `C107_trial`, `C107_unstable_partial`, `C107_ratios`, `C107_label_fails`, `C107_unconverged_fails`, `C107_bubble`, `C107_dew_iterations`, `C107_dew_tolerance_fails`, `C107_substitution`, `C107_substitution_exact`, `C107_objects_fails`
* C108: `C108_table`, `C108_table_sums`, `C108_kirchhoff`, `C108_gibbs`, `C108_reference_partial`, `C108_reference_fails`, `C108_phosphorus_fails`, `C108_changes`, `C108_cache_partial`, `C108_collision_fails`, `C108_absolute_partial`, `C108_absolute_fails`, `C108_crystal_fails`, `C108_arguments_fails`, `C108_converter`, `C108_adjust`, `C108_adjust_fails`, `C108_mixture`
* C109: `C109_enthalpy`, `C109_entropy_partial`, `C109_vaporization_fails`, `C109_pressure_fails`, `C109_derivative`, `C109_transitions`, `C109_excess_solid`, `C109_excess_partial`, `C109_boiling`, `C109_liquid_reference_fails`, `C109_gas_reference_fails`, `C109_melting_fails`, `C109_thermo_partial`, `C109_stale_fails`, `C109_calculate_partial`, `C109_memo_fails`, `C109_energies`
* C110: `C110_accepted`, `C110_list`, `C110_dict`, `C110_name`, `C110_contradiction_fails`, `C110_of_mole`, `C110_of_mass`, `C110_round_trip`, `C110_of_volume`, `C110_Vfls`, `C110_two_phase`, `C110_flash`, `C110_per_mass`, `C110_one_phase`, `C110_failed_partial`, `C110_failed_fails`, `C110_rho`, `C110_rhom`, `C110_rhom_fails`, `C110_bulk_partial`, `C110_bulk_fails`, `C110_Um`, `C110_SGg_partial`, `C110_SGg_fails`, `C110_Z_STP_partial`, `C110_Z_STP_fails`, `C110_expansion_partial`, `C110_expansion_fails`, `C110_API`, `C110_nugs_fails`, `C110_combustion`, `C110_atoms`, `C110_elements`
* C111: `C111_water_viscosity`, `C111_water_density`, `C111_water_25`, `C111_no_solute`, `C111_viscosity`, `C111_density`, `C111_heat_capacity`, `C111_fit_range`, `C111_thermal_conductivity`, `C111_ionic_strength`, `C111_dilute`, `C111_mcCleskey`, `C111_Kw_1981`, `C111_Kw_gas`, `C111_Kw`, `C111_Kw_coefficients`, `C111_Kw_documented_fails`, `C111_solute`, `C111_solute_heat_capacity`, `C111_Kw_constant`, `C111_offered_viscosity`, `C111_offered_heat_capacity`, `C111_offered_partial`, `C111_offered_fails`, `C111_pop`, `C111_limits_partial`, `C111_limits_fails`
* C112: `C112_unchecked_fails`, `C112_exact`, `C112_sound_classes`, `C112_default_partial`, `C112_zero_fails`, `C112_limits_recorded`, `C112_limits_fails`, `C112_range_partial`, `C112_alibakhshi`, `C112_up_to_Tc`, `C112_lakshmi_prasad`, `C112_sheffy_johnson`, `C112_aleem_partial`, `C112_aleem_fails`, `C112_jasper`, `C112_jasper_kept`
* C113: `C113_reference`, `C113_scaling`, `C113_compose`, `C113_validity_fails`, `C113_valid_partial`, `C113_window_fails`, `C113_clapeyron_partial`, `C113_clapeyron_valid`, `C113_clapeyron_fails`, `C113_sublimation`, `C113_parallel`, `C113_mixed_fails`, `C113_psub`, `C113_boiling_critical`, `C113_reraise_fails`, `C113_ppds9_fails`, `C113_ppds9_partial`, `C113_ppds9_range`, `C113_ppds9_order_fails`
* C114: `C114_low`, `C114_low_smooth`, `C114_low_kink_fails`, `C114_low_linear_fails`, `C114_low_positive_fails`, `C114_inorganic`, `C114_compressed`, `C114_compressed_positive_fails`, `C114_tait`, `C114_virial`, `C114_virial_positive_fails`, `C114_validity_fails`, `C114_supercritical_fails`, `C114_supercritical_partial`, `C114_supercritical_table_fails`, `C114_linear`, `C114_gas_mixture`, `C114_history`, `C114_shared_fails`
* C115: `C115_pressure`, `C115_third_partial`, `C115_PR`, `C115_third_fails`, `C115_volume`, `C115_main`, `C115_more`, `C115_mixing`, `C115_conversion`, `C115_conversion_second`, `C115_volume_ns`
* C116: `C116_gibbs`, `C116_helmholtz`, `C116_helmholtz_fails`, `C116_departures`, `C116_volume`, `C116_coefficients`, `C116_underflow`, `C116_lnphis`, `C116_fugacities`, `C116_symmetric`, `C116_P`, `C116_T`
* C117: `C117_PR_T`, `C117_PR_P`, `C117_PR_zs`, `C117_gibbs_duhem`, `C117_SRK_T`, `C117_SRK_P`, `C117_VDW_T`, `C117_VDW_P`, `C117_general_zs`, `C117_translated_fails`
* C118: `C118_symmetric`, `C118_diagonal`, `C118_pure_limit`, `C118_state`, `C118_state_equation`, `C118_B_derivatives`, `C118_C_derivatives`, `C118_ideal`, `C118_cross_model_fails`, `C118_self_interaction_fails`, `C118_single_component_fails`
* C119: `C119_init`, `C119_lengths_fails`, `C119_wf`, `C119_add`, `C119_add_assoc`, `C119_subset`, `C119_slice`, `C119_subset_comp`, `C119_add_subset`, `C119_subset_all_partial`, `C119_subset_identity_fails`, `C119_add_subset_fails`, `C119_empty_fails`, `C119_subset_named`, `C119_with_new_partial`, `C119_with_new_fails`, `C119_index`, `C119_index_order`, `C119_index_fails`, `C119_json`, `C119_json_fails`, `C119_mass`, `C119_critical`, `C119_standard`, `C119_formation`, `C119_from_IDs`, `C119_exposure_fails`
* C120: `C120_defaults`, `C120_from_IDs`, `C120_mug_fails`, `C120_user_fails`, `C120_add`, `C120_add_skip_fails`, `C120_subset`, `C120_subset_fails`
* C121: `C121_store`, `C121_value`, `C121_second`, `C121_value_fails`, `C121_unbound_fails`, `C121_physical`, `C121_bracket`, `C121_bracket_root`, `C121_upper`, `C121_lower_fails`, `C121_not_bounded`, `C121_guess_fails`, `C121_tolerance`, `C121_zero_fails`, `C121_ideal_gas`, `C121_consistent`, `C121_TV_fails`
* C122: `C122_phase_model`, `C122_gibbs_model`, `C122_phases`, `C122_phases_all`, `C122_same_model`, `C122_package`
* C123: `C123_derivatives`, `C123_value`, `C123_interval`, `C123_correlation_partial`, `C123_mirrored`, `C123_conversion_fails`, `C123_conversion_partial`, `C123_transforms`, `C123_integrals`
* C124: `C124_lookup`, `C124_dictionary_partial`
* C125: `C125_nrtl_sources`, `C125_flags`, `C125_other_sources`, `C125_repr`, `C125_ddbst_partial`, `C125_ddbst_fails`, `C125_ddbst_diagonal`
* C126: `C126_ns`, `C126_ms`, `C126_Qls_partial`, `C126_Qgs_partial`, `C126_totals`, `C126_consistent`, `C126_energy_partial`, `C126_energy_fails`, `C126_mass_enthalpy_fails`, `C126_two_flows_fails`, `C126_VfTP_fails`, `C126_existing_fails`, `C126_sum_fails`, `C126_args_partial`, `C126_args_fails`
* C127: `C127_add`, `C127_add_total`, `C127_sub_partial`, `C127_sub_fails`, `C127_phases_partial`, `C127_stale_fails`, `C127_energy_partial`, `C127_energy_fails`
* C128: `C128_balance`, `C128_translated`, `C128_guess`, `C128_untranslated_fails`, `C128_objective`, `C128_real`, `C128_equal_fugacities`, `C128_result`, `C128_picked_fails`
* C129: `C129_residual`, `C129_excess`, `C129_constant`, `C129_pure`, `C129_first`, `C129_second`, `C129_covolume`, `C129_translation_fails`, `C129_construct`, `C129_evaluate`, `C129_solve_T`, `C129_solved`, `C129_fast_partial`, `C129_fast_fails`, `C129_reused`
* C130: `C130_ready_partial`, `C130_valid_partial`, `C130_Tmin`, `C130_Tmax_fails`, `C130_partial_linear`, `C130_partial_sum`, `C130_derivative_linear`
* C131: `C131_ws`, `C131_mass`, `C131_mass_energies`, `C131_density`, `C131_sound`, `C131_concentrations`, `C131_flows`, `C131_mass_flows`, `C131_reference_flows`, `C131_missing_fails`, `C131_bulk_partial`, `C131_bulk_fails`, `C131_consistency`, `C131_consistency_fails`, `C131_gammas`, `C131_dilution_partial`, `C131_dilution_fails`, `C131_stored_partial`, `C131_stored_fails`, `C131_state_partial`, `C131_state_fails`
* C132: `C132_sides`, `C132_sides_fails`, `C132_derivative_partial`, `C132_derivative_fails`, `C132_failure_fails`, `C132_outside`, `C132_plotted`, `C132_inrange_fails`, `C132_transform`, `C132_transform_fails`, `C132_integral_fails`, `C132_solve`, `C132_start`, `C132_start_fails`, `C132_valid_partial`, `C132_valid_fails`
* C133: `C133_attraction`, `C133_translation`, `C133_pure`, `C133_single`, `C133_pure_fails`, `C133_fast_partial`, `C133_fast_fails`, `C133_limit_fails`, `C133_rebuild_partial`, `C133_rebuild_fails`, `C133_reloaded`, `C133_reloaded_partial`, `C133_reloaded_fails`, `C133_subset_partial`, `C133_subset_fails`, `C133_covolume`, `C133_covolume_fails`, `C133_kappa78`
* C134: `C134_bounds_order`, `C134_PH`, `C134_PH_answered`, `C134_PH_mixture_fails`, `C134_PH_bounds`, `C134_PS_partial`, `C134_PS_fails`, `C134_PS_answered`, `C134_PS_bounds`, `C134_TS_partial`, `C134_TS_bounds`, `C134_TS_answered`, `C134_TS_fails`, `C134_priority`, `C134_overspecified_fails`, `C134_unsupported`, `C134_searches`, `C134_pairs`, `C134_failure`, `C134_composition_fails`, `C134_type_error`
* C135: `C135_values`, `C135_history_partial`, `C135_never_stale`, `C135_copy_partial`, `C135_group_list`, `C135_known`, `C135_built`, `C135_order`, `C135_components`, `C135_psi`, `C135_indexes`, `C135_empty_component`
* C136: `C136_atom_mass`, `C136_mass_conserved`, `C136_flows`, `C136_element`, `C136_component`, `C136_pseudo`, `C136_gas_reference`, `C136_heating`, `C136_wobbe`, `C136_SG`, `C136_SG_fails`, `C136_API`, `C136_Ks`, `C136_value_partial`, `C136_value_fails`, `C136_phase_value`, `C136_phase_flow`
* C137: `C137_derivatives`, `C137_caloric`, `C137_integral`, `C137_integral_over_T`, `C137_Cp`, `C137_bounds`, `C137_generalized`, `C137_entropy_fails`, `C137_convert_partial`, `C137_doubled`, `C137_convert_fails`, `C137_mutation_fails`, `C137_call`, `C137_limits`
* C138: `C138_ideal`, `C138_air`, `C138_water`, `C138_reduced`, `C138_roundtrip`, `C138_virial`, `C138_two_partial`, `C138_surface`, `C138_underspecified_fails`, `C138_overspecified`, `C138_default_fails`, `C138_call`, `C138_fetch`, `C138_lru`, `C138_composition_fails`, `C138_key`, `C138_from_AS_fails`
* C139: `C139_solve_T`, `C139_nearest`, `C139_two_roots`, `C139_second_fails`, `C139_f0_fails`, `C139_first`, `C139_Psat_partial`, `C139_newton_fails`, `C139_Psat_complete`, `C139_bracket`, `C139_step`, `C139_Psat`, `C139_guess`, `C139_Tsat`, `C139_Tsat_complete`, `C139_Tsat_fails`, `C139_Tsat_bounds`
* C140: `C140_activity`, `C140_values`, `C140_buffer_cubic`, `C140_buffer_fails`, `C140_humid_B`, `C140_humid_C_fails`, `C140_humid_C_partial`, `C140_humid`, `C140_guess`
* C141: `C141_point`, `C141_point_fails`, `C141_mix`, `C141_residual`, `C141_gibbs`, `C141_mixing`, `C141_mixing_fails`, `C141_allowed`, `C141_wilson`, `C141_solution_fails`, `C141_spec_fun_fails`, `C141_energy`, `C141_VF`, `C141_fraction_fails`, `C141_stability`, `C141_unstable_fails`, `C141_secant`, `C141_newton_step`, `C141_damping_fails`, `C141_repair`, `C141_converged`, `C141_trivial_fails`, `C141_first_fails`, `C141_simultaneous_partial`, `C141_incipient_side`, `C141_tolerance`
* C142: `C142_mass`, `C142_stable`, `C142_mass_fails`, `C142_combustion_partial`, `C142_combustion_fails`, `C142_gibbs`, `C142_gas`, `C142_solid_fails`, `C142_critical`, `C142_vaporization_partial`, `C142_vaporization_fails`, `C142_densities`, `C142_triple_fails`, `C142_solid_volume_fails`, `C142_databases`, `C142_average`, `C142_speed`
* C143: `C143_phases`, `C143_flags`, `C143_exclusive`, `C143_finish`, `C143_branches`, `C143_guess`, `C143_saturation_partial`, `C143_round_trip_partial`, `C143_round_trip_fails`, `C143_supercritical_fails`, `C143_melting_guess_fails`, `C143_range_partial`, `C143_range_values`, `C143_helium_fails`, `C143_points`, `C143_volumes_fails`, `C143_volumes_partial`, `C143_covolume_fails`, `C143_grid_partial`, `C143_grid_fails`, `C143_solid_grid_fails`, `C143_reference_volumes`, `C143_water`
* C144: `C144_attached`, `C144_attached_bounds`, `C144_spiro_fails`, `C144_ring_atoms_partial`, `C144_conjugated`, `C144_conjugated_count`, `C144_trans_none`, `C144_cis_trans_fails`, `C144_free_fails`, `C144_methylene`, `C144_near_acid`, `C144_bondi`, `C144_organic`, `C144_tsonopoulos`, `C144_tsonopoulos_values`, `C144_spelling_fails`, `C144_halides_fails`
* C145: `C145_folds`, `C145_assemble`, `C145_criteria_partial`, `C145_criteria_values`, `C145_criteria_fails`, `C145_wrapped`, `C145_statistics_partial`, `C145_statistics_fails`, `C145_deviations`, `C145_deviations_fails`, `C145_deviation_values`, `C145_worst`, `C145_select`, `C145_select_criterion`, `C145_auto`, `C145_auto_fails`, `C145_twu_derivatives`, `C145_twu_sound`, `C145_twu_complete_partial`, `C145_twu_fails`, `C145_penalties`, `C145_poly_check`, `C145_best`, `C145_restart_fails`
* C146: `C146_arguments`, `C146_models`, `C146_jacobian`, `C146_fitted`, `C146_required`, `C146_count_partial`, `C146_overfit_fails`, `C146_no_candidates_fails`, `C146_select`, `C146_both`, `C146_three`, `C146_two_fails`, `C146_folds_fails`, `C146_folds`, `C146_choice_fails`, `C146_start`, `C146_ordered`, `C146_tries`, `C146_stop`, `C146_guess_fails`, `C146_bounds_partial`, `C146_bounds_values`, `C146_bounds_fails`
* C147: `C147_polish`, `C147_polish_step`, `C147_stuck_fails`, `C147_pole_fails`, `C147_complete`, `C147_dropped_fails`, `C147_first`, `C147_last_fails`, `C147_covolume_fails`, `C147_horner`, `C147_nr`, `C147_after`, `C147_third_fails`, `C147_low_gas`, `C147_low_liquid_partial`, `C147_low_liquid_fails`, `C147_low_far_fails`, `C147_bracketed`
* C148: `C148_fresh`, `C148_gas`, `C148_liquid`, `C148_nested_fails`, `C148_covered`, `C148_gap_fails`, `C148_printed`, `C148_sixth_fails`, `C148_joback`, `C148_joback_fails`
* C149: `C149_residual`, `C149_mismatch`, `C149_wilson`, `C149_nrtl`, `C149_uniquac`, `C149_regular`, `C149_second_ignored`, `C149_clamped_fails`, `C149_sum_fails`, `C149_exchange`, `C149_guesses`, `C149_symmetric_nrtl`, `C149_symmetric_regular`, `C149_columns`
* C150: `C150_round_trip_partial`, `C150_list_fails`, `C150_mixed_fails`, `C150_missing`, `C150_type_fails`, `C150_tuple`, `C150_tuple_fails`, `C150_uneven_fails`, `C150_references`, `C150_references_fails`, `C150_single`, `C150_other`, `C150_option_fails`
* C151: `C151_temperatures`, `C151_range_partial`, `C151_given`, `C151_range_fails`, `C151_heats`, `C151_formation_fails`, `C151_streams`, `C151_total`, `C151_streams_fails`, `C151_combined`, `C151_total_status`, `C151_tsca`, `C151_methods`, `C151_bands`
* C152: `C152_stored`, `C152_selection`, `C152_temperature`, `C152_method_lost_fails`, `C152_inverse`, `C152_onto`, `C152_critical_fails`, `C152_exact`, `C152_interpolation_fails`, `C152_data_limits`, `C152_max_error`, `C152_saved`, `C152_single`, `C152_unsaved_fails`, `C152_tait`, `C152_tait_critical`
* C153: `C153_atoms`, `C153_triple_fails`, `C153_hydrogen_bromide_fails`, `C153_readable`, `C153_unreadable_fails`
* C154: `C154_recreated`, `C154_all_printed`, `C154_unprinted_lost`, `C154_bare_lost`, `C154_ideal_gas`, `C154_ceos_phase`, `C154_ceos_fails`, `C154_virial`, `C154_virial_fails`, `C154_gibbs_unprinted_fails`, `C154_gibbs_basis_fails`, `C154_gibbs`, `C154_solid_fails`, `C154_iapws_gas`, `C154_iapws_fails`, `C154_air_pressure_fails`, `C154_equilibrium_fails`, `C154_equilibrium`, `C154_flash_pure`, `C154_stream_args_fails`, `C154_bulk`, `C154_small`, `C154_entropies`, `C154_constants`, `C154_text_empty_fails`
* C155: `C155_fractions`, `C155_gas`, `C155_others`, `C155_reading`, `C155_run`, `C155_total`, `C155_from_state`, `C155_stale_fails`, `C155_taken_fails`
* C156: `C156_joint`, `C156_separate`, `C156_exclusive`, `C156_documented_fails`, `C156_documented_six_fails`, `C156_mode`, `C156_matrix`, `C156_derivatives`, `C156_ratio`, `C156_between`, `C156_one_solvent`, `C156_proportions`, `C156_rules`, `C156_missing_fails`, `C156_stored`, `C156_retry_ratio`, `C156_retry_fails`
* C157: `C157_between`, `C157_points`, `C157_beyond`, `C157_affine`, `C157_accepted`, `C157_table_large`, `C157_table_small`, `C157_inverse_fails`, `C157_vapor_pressure_fails`, `C157_repeated_fails`, `C157_grid_partial`, `C157_grid_large_fails`, `C157_border_fails`
* C158: `C158_fugacities`, `C158_rk`, `C158_pr`, `C158_srk`, `C158_mark`, `C158_mixed_fails`, `C158_consistent_partial`, `C158_consistent_fails`, `C158_covolume`, `C158_attraction`, `C158_asymmetric_fails`, `C158_third_partial`, `C158_third_fails`
* C159: `C159_slopes`, `C159_critical`, `C159_sound`, `C159_cut`, `C159_extreme_partial`, `C159_high_fails`, `C159_second_turn_fails`, `C159_extremum_fails`, `C159_unspecified_fails`, `C159_guess`, `C159_zero_fails`, `C159_extremum`, `C159_stale_fails`, `C159_result`, `C159_answered`
* C160: `C160_guess`, `C160_guess_fails`, `C160_equations`, `C160_density`, `C160_ideal`, `C160_order`, `C160_failure`, `C160_phase_partial`, `C160_last_fails`, `C160_ceos`, `C160_tolerance_fails`, `C160_raises`, `C160_second_fails`, `C160_half_fails`, `C160_bulk`, `C160_bulk_fails`
* C161: `C161_first`, `C161_raises`, `C161_refused_fails`, `C161_temperature`, `C161_temperature_partial`, `C161_temperature_fails`, `C161_constant_fails`, `C161_guess_fails`, `C161_bound_fails`, `C161_guesses`, `C161_repeated_fails`, `C161_high`, `C161_low`, `C161_nothing_fails`, `C161_unassigned_fails`, `C161_parameter`, `C161_volume`, `C161_subcritical_fails`, `C161_extrapolated_fails`, `C161_series`
* C162: `C162_ws`, `C162_ws_exists`, `C162_order_partial`, `C162_mark`, `C162_state`, `C162_stale_fails`, `C162_shared_fails`, `C162_prandtl`, `C162_prandtl_exists`, `C162_nu`, `C162_nu_state`, `C162_unknown_fails`, `C162_mixed_fails`
* C163: `C163_value`, `C163_vector_raises`, `C163_automatic`, `C163_automatic_raises`, `C163_automatic_partial`, `C163_automatic_fails`, `C163_undeclared_fails`, `C163_pair_automatic`, `C163_pair_automatic_fails`, `C163_validate`, `C163_valid_found_partial`, `C163_unsorted_fails`, `C163_default_fails`
* C164: `C164_methods`, `C164_marked`, `C164_joined`, `C164_taken`, `C164_single_fails`, `C164_stored`, `C164_again`

## propext, Quot.sound

* C02: `C02_flow_list_wins`
* C03: `C03_constructor_keeps_partial`, `C03_constructor_accepts`, `C03_copy_drops_H_reactive`
* C08: `C08_unwritable_raises`
* C10: `C10_cache_unobservable_partial`, `C10_call_keeps_config`
* C15: `C15_cache_unobservable_partial`
* C16: `C16_default_skips_check`, `C16_None_result_raises`
* C17: `C17_separators_needed`
* C20: `C20_flat_eq_structured`, `C20_T_dependence_defined`
* C46: `C46_second_load_raises`
* C47: `C47_has_iff_stored`
* C50: `C50_raises`
* C51: `C51_named_series_overwritten`, `C51_pressure_series_overwritten`
* C85: `C85_volume_fits`, `C85_psat_fits_fails`, `C85_hvap_fits_fails`, `C85_other_method`
* C88: `C88_two`, `C88_supported`, `C88_iter`, `C88_given`
* C89: `C89_liquids_fails`
* C96: `C96_last`, `C96_last_fails`
* C100: `C100_complete`, `C100_table_symmetric`
* C107: `C107_start_fails`
* C110: `C110_eos_partial`, `C110_eos_fails`
* C111: `C111_load_partial`
* C112: `C112_available`, `C112_conductivity_fails`, `C112_default`, `C112_default_fails`, `C112_nonzero_partial`, `C112_monotone`, `C112_no_data_partial`, `C112_no_data_fails`
* C119: `C119_negative`
* C122: `C122_eos_model`, `C122_missing`, `C122_unhashable_fails`, `C122_memo`, `C122_tdep`, `C122_mixture_cache_fails`, `C122_flash`, `C122_flash_solids_fails`, `C122_correlations_fails`
* C123: `C123_orders_partial`
* C124: `C124_available`, `C124_explicit_partial`, `C124_fit`, `C124_user_partial`, `C124_kept`, `C124_repr_partial`, `C124_json_partial`
* C125: `C125_one_source`, `C125_precedence_fails`, `C125_nrtl_fails`, `C125_size_fails`, `C125_missing`
* C127: `C127_state_specs_fails`
* C128: `C128_picked_partial`
* C130: `C130_ranked`, `C130_volumes_fails`, `C130_volume_columns_fails`, `C130_load_fails`, `C130_water_twice_fails`, `C130_available`, `C130_default`, `C130_keyword`, `C130_keyword_fails`, `C130_none_fails`, `C130_repr_partial`, `C130_repr_fails`, `C130_valid_fails`, `C130_filippov_fails`, `C130_solid_limits_fails`, `C130_pures`, `C130_pures_fails`
* C135: `C135_third_history_fails`
* C136: `C136_reference`
* C138: `C138_alias_fails`, `C138_fallback_fails`, `C138_constants_fails`
* C140: `C140_dispatch`, `C140_PSRK_fails`, `C140_flory_fails`, `C140_state`, `C140_state_errors`
* C142: `C142_marshal_fails`, `C142_eos_pures`
* C143: `C143_make_partial`, `C143_refused_fails`
* C144: `C144_fragments`
* C145: `C145_start_fails`
* C146: `C146_order_fails`, `C146_result_partial`, `C146_default_fails`, `C146_candidates`
* C148: `C148_order_fails`, `C148_export`, `C148_export_fails`, `C148_export_empty`, `C148_limits_fails`
* C150: `C150_writable`
* C151: `C151_names`, `C151_rows`, `C151_same_name_fails`
* C152: `C152_half_added_fails`, `C152_from_method`
* C153: `C153_monotone`, `C153_bromine_fails`, `C153_given`
* C154: `C154_text_phase`, `C154_text_correlations`
* C155: `C155_kinds`, `C155_solid_fails`
* C156: `C156_components`
* C157: `C157_names`
* C163: `C163_vector`, `C163_tables`
* C164: `C164_two_fails`, `C164_database_fails`, `C164_growing_fails`, `C164_caller_fails`
