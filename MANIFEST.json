{
 "claims": [
  {
   "property": "C01",
   "status": "partial",
   "theorems": [
    "Verif.Stream.C01_at_most_two_state_specs_partial",
    "Verif.Stream.C01_energy_overspecifies",
    "Verif.Stream.C01_H_reactive_overspecifies",
    "Verif.Stream.C01_setter_refuses_iff",
    "Verif.Stream.C01_setter_stores"
   ],
   "note": "At most two state specifications proved for every history of setters other than energy, energy_reactive and H_reactive; for those the claim is false and the failure is proved (C01_energy_overspecifies, C01_H_reactive_overspecifies)."
  },
  {
   "property": "C02",
   "status": "proved",
   "theorems": [
    "Verif.Stream.C02_raise_changes_nothing",
    "Verif.Stream.C02_composition_and_flow_exclusive",
    "Verif.Stream.C02_flow_list_wins",
    "Verif.Stream.C02_fraction_setter_refuses_iff"
   ],
   "note": "Invariant over every history of setters; a raising setter changes nothing."
  },
  {
   "property": "C03",
   "status": "partial",
   "theorems": [
    "Verif.Stream.C03_constructor_keeps_partial",
    "Verif.Stream.C03_constructor_accepts",
    "Verif.Stream.C03_H_reactive_dropped",
    "Verif.Stream.C03_energy_reactive_duplicated",
    "Verif.Stream.C03_copy_partial",
    "Verif.Stream.C03_copy_drops_H_reactive"
   ],
   "note": "Proved for every name but H_reactive and energy_reactive; the constructor drops H_reactive (proved)."
  },
  {
   "property": "C04",
   "status": "partial",
   "theorems": [
    "Verif.Stream.C04_flash_is_fresh_partial",
    "Verif.Stream.C04_flashes_iff",
    "Verif.Stream.C04_stale_after_H_mass",
    "Verif.Stream.C04_stale_after_flasher"
   ],
   "note": "Proved for edits of the specifications that are in the memo key; stale results after changing H_mass or the flasher are proved."
  },
  {
   "property": "C05",
   "status": "partial",
   "theorems": [
    "Verif.MoleBalance.C05_single_unknown_outlet_partial",
    "Verif.MoleBalance.C05_single_unknown_inlet_partial",
    "Verif.MoleBalance.C05_solved_basis",
    "Verif.MoleBalance.C05_unbalanced_when_partly_known",
    "Verif.MoleBalance.C05_componentwise_balances",
    "Verif.MoleBalance.C05_total_stage_balances"
   ],
   "note": "Conservation proved for every branch except a partly known single unknown stream next to others, where it is proved false."
  },
  {
   "property": "C06",
   "status": "partial",
   "theorems": [
    "Verif.MoleBalance.C06_componentwise_keeps_known",
    "Verif.MoleBalance.C06_known_flows_kept_partial",
    "Verif.MoleBalance.C06_overwrites_known"
   ],
   "note": "Known flows kept, except by the single-unknown-stream branch when that stream is partly known, where it is proved false."
  },
  {
   "property": "C07",
   "status": "partial",
   "theorems": [
    "Verif.EnergyBalance.C07_single_unknown_partial",
    "Verif.EnergyBalance.C07_overdetermined_raises",
    "Verif.EnergyBalance.C07_shortcut_partial",
    "Verif.EnergyBalance.C07_shortcut_does_not_close",
    "Verif.EnergyBalance.C07_two_unknown_masses",
    "Verif.EnergyBalance.C07_two_unknown_inlets_partial",
    "Verif.EnergyBalance.C07_two_unknowns_wrong_stream"
   ],
   "note": "Closure proved for one unknown energy and for two unknown mass flows; the one-in-one-out shortcut and the choice of the two unknown streams are proved wrong in general."
  },
  {
   "property": "C08",
   "status": "partial",
   "theorems": [
    "Verif.Serialize.C08_unwritable_raises",
    "Verif.Serialize.C08_round_trip_partial",
    "Verif.Serialize.C08_pyid_string_corrupted"
   ],
   "note": "Isomorphism proved for every finite graph whose strings do not look like object ids; a string field of the form pyid_k is proved to be corrupted."
  },
  {
   "property": "C09",
   "status": "proved",
   "theorems": [
    "Verif.InteractionDB.C09_symmetric_lookup",
    "Verif.InteractionDB.C09_no_key_collision",
    "Verif.InteractionDB.C09_symmetric_matrix",
    "Verif.InteractionDB.C09_asymmetric_matrix",
    "Verif.InteractionDB.C09_symmetric_matrix_of_ordered_table"
   ],
   "note": ""
  },
  {
   "property": "C10",
   "status": "partial",
   "theorems": [
    "Verif.TDep.C10_cache_unobservable_partial",
    "Verif.TDep.C10_call_keeps_config",
    "Verif.TDep.C10_extrapolation_change_stale",
    "Verif.TDep.C10_readded_method_stale",
    "Verif.TDep.C10_readded_table_stale"
   ],
   "note": "Holds while the configuration is only read; changing the extrapolation or re-adding a method/table leaves stale values (proved)."
  },
  {
   "property": "C11",
   "status": "proved",
   "theorems": [
    "Verif.TDep.C11_pressure_decision",
    "Verif.TDep.C11_decision"
   ],
   "note": ""
  },
  {
   "property": "C12",
   "status": "proved",
   "theorems": [
    "Verif.Extrapolate.C12_constant_value",
    "Verif.Extrapolate.C12_linear",
    "Verif.Extrapolate.C12_logLinear",
    "Verif.Extrapolate.C12_antoineAB",
    "Verif.Extrapolate.C12_dippr101",
    "Verif.Extrapolate.C12_watson",
    "Verif.Extrapolate.C12_expLnTau2",
    "Verif.Extrapolate.C12_expLnTau3",
    "Verif.Extrapolate.C12_dippr106",
    "Verif.Extrapolate.C12_arrhenius",
    "Verif.Extrapolate.C12_dippr106ABC"
   ],
   "note": "Fitted-coefficient helpers of the external chemicals package are modelled from their documented equations."
  },
  {
   "property": "C13",
   "status": "partial",
   "theorems": [
    "Verif.Extrapolate.C13_linear_derivative",
    "Verif.Extrapolate.C13_antoine_derivatives",
    "Verif.Extrapolate.C13_antoine_transforms",
    "Verif.Extrapolate.C13_dippr101_transforms",
    "Verif.Extrapolate.C13_integral_partial",
    "Verif.Extrapolate.C13_integral_over_T_partial",
    "Verif.Extrapolate.C13_clamp_ignored"
   ],
   "note": "Derivative formulas proved. Integrals hold without clamping; with extrapolation_min/max the derivative and integral ignore the clamp (proved)."
  },
  {
   "property": "C14",
   "status": "proved",
   "theorems": [
    "Verif.Integrals.C14_is_integral",
    "Verif.Integrals.C14_additive",
    "Verif.Integrals.C14_no_extrapolation",
    "Verif.Integrals.C14_reversed_None_raises"
   ],
   "note": "Pieces are assumed to be the integrals they stand for. Reversing the limits raises instead of returning None (proved)."
  },
  {
   "property": "C15",
   "status": "partial",
   "theorems": [
    "Verif.TDep.C15_cache_unobservable_partial",
    "Verif.TDep.C15_method_change_stale",
    "Verif.TDep.C15_readded_table_stale"
   ],
   "note": "Holds while the configuration is only read; method changes and re-added tables leave stale values (proved)."
  },
  {
   "property": "C16",
   "status": "partial",
   "theorems": [
    "Verif.Mixture.C16_returned_value_partial",
    "Verif.Mixture.C16_default_skips_check",
    "Verif.Mixture.C16_None_result_raises"
   ],
   "note": "Holds with the check enabled; the default configuration skips the check and a None result raises (proved)."
  },
  {
   "property": "C17",
   "status": "proved",
   "theorems": [
    "Verif.GroupString.C17_round_trip",
    "Verif.GroupString.C17_last_wins",
    "Verif.GroupString.C17_separators_needed"
   ],
   "note": ""
  },
  {
   "property": "C18",
   "status": "partial",
   "theorems": [
    "Verif.Fragment.C18_assignment",
    "Verif.Fragment.C18_success_partial",
    "Verif.Fragment.C18_search_complete",
    "Verif.Fragment.C18_hydrogen_only",
    "Verif.Fragment.C18_unmatched_atom_success"
   ],
   "note": "Disjointness and counts proved for all inputs; coverage proved when recorded matches lie in the molecule. A hydrogen-only group can make an unmatched molecule succeed (proved)."
  },
  {
   "property": "C19",
   "status": "partial",
   "theorems": [
    "Verif.Fragment.C19_covers_once",
    "Verif.Fragment.C19_counts_partial",
    "Verif.Fragment.C19_counts_before_removal",
    "Verif.Fragment.C19_index_error",
    "Verif.Fragment.C19_wrong_match_deleted"
   ],
   "note": "Coverage proved for all inputs; counts proved without overlaps. With overlaps the counts are stale, removal may raise IndexError or delete the wrong match (proved)."
  },
  {
   "property": "C20",
   "status": "proved",
   "theorems": [
    "Verif.RedlichKister.C20_permutation",
    "Verif.RedlichKister.C20_pure",
    "Verif.RedlichKister.C20_binary",
    "Verif.RedlichKister.C20_swap_stored_order",
    "Verif.RedlichKister.C20_reverse_T_dependence",
    "Verif.RedlichKister.C20_flat_eq_structured",
    "Verif.RedlichKister.C20_T_dependence_defined"
   ],
   "note": ""
  },
  {
   "property": "C21",
   "status": "proved",
   "theorems": [
    "Verif.InteractionExp.C21_derivatives"
   ],
   "note": ""
  },
  {
   "property": "C22",
   "status": "proved",
   "theorems": [
    "Verif.GibbsExcess.C22_identities",
    "Verif.GibbsExcess.C22_composition",
    "Verif.GibbsExcess.C22_sum_lngammas"
   ],
   "note": ""
  },
  {
   "property": "C23",
   "status": "partial",
   "theorems": [
    "Verif.GibbsExcess.C23_gammas",
    "Verif.GibbsExcess.C23_dns",
    "Verif.GibbsExcess.C23_gibbs_duhem",
    "Verif.GibbsExcess.C23_dgammas_dT",
    "Verif.GibbsExcess.C23_dgammas_dns_partial",
    "Verif.GibbsExcess.C23_dgammas_dns_fails"
   ],
   "note": "Activity coefficients, mole-number derivatives, Gibbs-Duhem and dgammas_dT proved for every differentiable GE. dgammas_dns is proved when the Hessian is symmetric with equal weighted row sums (Wilson and NRTL meet this, proved) and proved wrong for a Margules GE."
  },
  {
   "property": "C24",
   "status": "proved",
   "theorems": [
    "Verif.Wilson.C24_dGE_dxs",
    "Verif.Wilson.C24_d2GE_dxixjs",
    "Verif.Wilson.C24_d3GE_dxixjxks",
    "Verif.Wilson.C24_gammas",
    "Verif.Wilson.C24_pure",
    "Verif.Wilson.C24_buffer",
    "Verif.Wilson.C24_partial_molar",
    "Verif.Wilson.C24_dgammas_dns",
    "Verif.Wilson.C24_temperature",
    "Verif.Wilson.C24_binary",
    "Verif.Wilson.C24_binary_jac",
    "Verif.Wilson.C24_clamp"
   ],
   "note": "binary_jac is proved above the lower clamp on the parameters only."
  },
  {
   "property": "C25",
   "status": "proved",
   "theorems": [
    "Verif.NRTL.C25_taus",
    "Verif.NRTL.C25_Gs",
    "Verif.NRTL.C25_dGE_dxs",
    "Verif.NRTL.C25_d2GE_dxixjs",
    "Verif.NRTL.C25_gammas",
    "Verif.NRTL.C25_pure",
    "Verif.NRTL.C25_partial_molar",
    "Verif.NRTL.C25_dgammas_dns",
    "Verif.NRTL.C25_temperature",
    "Verif.NRTL.C25_class",
    "Verif.NRTL.C25_binary_clamped",
    "Verif.NRTL.C25_binary",
    "Verif.NRTL.C25_binary_jac"
   ],
   "note": ""
  },
  {
   "property": "C26",
   "status": "partial",
   "theorems": [
    "Verif.RegularSolution.C26_regular_GE",
    "Verif.RegularSolution.C26_regular_derivatives",
    "Verif.RegularSolution.C26_regular_gammas",
    "Verif.RegularSolution.C26_regular_partial_molar",
    "Verif.RegularSolution.C26_regular_dgammas_dns",
    "Verif.RegularSolution.C26_regular_temperature",
    "Verif.RegularSolution.C26_regular_binary",
    "Verif.RegularSolution.C26_regular_binary_jac",
    "Verif.RegularSolution.C26_regular_binary_jac_cap_fails",
    "Verif.Uniquac.C26_uniquac_dGE_dxs",
    "Verif.Uniquac.C26_uniquac_d2GE_dxixjs",
    "Verif.Uniquac.C26_uniquac_z_fails",
    "Verif.Uniquac.C26_uniquac_gammas",
    "Verif.Uniquac.C26_uniquac_partial_molar",
    "Verif.Uniquac.C26_uniquac_dgammas_dns",
    "Verif.Uniquac.C26_uniquac_temperature",
    "Verif.Uniquac.C26_uniquac_binary"
   ],
   "note": "UNIQUAC's gradient hard-codes the coordination number 10 while GE takes it as an argument (proved failing for other values; the class always uses 10), and the Jacobian of the binary regular-solution function ignores the cap 1e10 on the activity coefficient (proved). Everything else is proved in full."
  },
  {
   "property": "C27",
   "status": "partial",
   "theorems": [
    "Verif.Cubic.C27_iff",
    "Verif.Cubic.C27_poles",
    "Verif.Cubic.C27_no_attraction",
    "Verif.Cubic.C27_three",
    "Verif.Cubic.C27_slopes",
    "Verif.Cubic.C27_mpmath_fallback_fails"
   ],
   "note": "Equivalence, pole cases, root count, slope and curvature proved over any field or the reals. The fallback of volume_solutions_mpmath uses an overwritten b (negation proved)."
  },
  {
   "property": "C28",
   "status": "partial",
   "theorems": [
    "Verif.Cubic.C28_one_root",
    "Verif.Cubic.C28_doubledouble_fails",
    "Verif.Cubic.C28_doubledouble_inline_sign",
    "Verif.Cubic.C28_fast",
    "Verif.Cubic.C28_fast_zero_division",
    "Verif.Cubic.C28_deflate",
    "Verif.Cubic.C28_halley_bracket",
    "Verif.Cubic.C28_halley_exit",
    "Verif.Cubic.C28_halley_fixed"
   ],
   "note": "high_alpha_one_root, the complex closed form, deflation and the bracket invariant of the Halley loop proved. Not modelled: early returns and the final polish of the Halley solver, NR solver loop. The double-double closed form has a wrong sign and the complex form divides by zero at a triple root (both proved)."
  },
  {
   "property": "C29",
   "status": "partial",
   "theorems": [
    "Verif.RootSelect.C29_roots",
    "Verif.RootSelect.C29_negative_covolume_fails"
   ],
   "note": "Proved for every root list and covolume as the code treats roots; with a negative covolume zero placeholders are taken as roots (proved)."
  },
  {
   "property": "C30",
   "status": "partial",
   "theorems": [
    "Verif.RootSelect.C30_one_of_two_partial",
    "Verif.RootSelect.C30_both_fails",
    "Verif.RootSelect.C30_single_partial",
    "Verif.RootSelect.C30_single_stale",
    "Verif.RootSelect.C30_solve_missing"
   ],
   "note": "Holds when one of two phases was solved and for single roots that keep their phase; fails when both phases were solved, and leaves stale attributes when a single root changes phase (both proved)."
  },
  {
   "property": "C31",
   "status": "proved",
   "theorems": [
    "Verif.Departure.C31_pressure",
    "Verif.Departure.C31_reciprocal",
    "Verif.Departure.C31_vdw"
   ],
   "note": "Off the poles, for every differentiable attraction term. Division by zero and overflow guards are not modelled."
  },
  {
   "property": "C32",
   "status": "partial",
   "theorems": [
    "Verif.Departure.C32_departures",
    "Verif.Departure.C32_lnphi",
    "Verif.Departure.C32_vdw",
    "Verif.Departure.C32_poles_fails"
   ],
   "note": "Proved when delta^2 > 4 epsilon; for delta^2 <= 4 epsilon the code keeps the real part of an arctanh of the wrong branch or a 1e100 placeholder and drops the attraction (negation proved)."
  },
  {
   "property": "C33",
   "status": "partial",
   "theorems": [
    "Verif.Alpha.C33_PR",
    "Verif.Alpha.C33_PR_third",
    "Verif.Alpha.C33_SRK",
    "Verif.Alpha.C33_RK",
    "Verif.Alpha.C33_APISRK",
    "Verif.Alpha.C33_PRSV",
    "Verif.Alpha.C33_PRSV2",
    "Verif.Alpha.C33_VDW",
    "Verif.Alpha.C33_vectorized",
    "Verif.Alpha.C33_PRSV_third_partial",
    "Verif.Alpha.C33_PRSV_third_fails",
    "Verif.AlphaFns.C33_Soave_1972",
    "Verif.AlphaFns.C33_Harmens_Knapp",
    "Verif.AlphaFns.C33_Mathias_1983",
    "Verif.AlphaFns.C33_Mathias_Copeman_untruncated",
    "Verif.AlphaFns.C33_Gibbons_Laughton",
    "Verif.AlphaFns.C33_Soave_1984",
    "Verif.AlphaFns.C33_Schwartzentruber",
    "Verif.AlphaFns.C33_Soave_1993",
    "Verif.AlphaFns.C33_Soave_1979",
    "Verif.AlphaFns.C33_Heyen",
    "Verif.AlphaFns.C33_Yu_Lu",
    "Verif.AlphaFns.C33_Trebble_Bishnoi",
    "Verif.AlphaFns.C33_Melhem",
    "Verif.AlphaFns.C33_Androulakis",
    "Verif.AlphaFns.C33_Gasem",
    "Verif.AlphaFns.C33_Coquelet",
    "Verif.AlphaFns.C33_Saffari",
    "Verif.AlphaFns.C33_Haghtalab",
    "Verif.AlphaFns.C33_Chen_Yang",
    "Verif.AlphaFns.C33_Twu91",
    "Verif.AlphaFns.C33_Almeida",
    "Verif.AlphaFns.C33_Almeida_critical_fails",
    "Verif.AlphaFns.C33_Mathias_Copeman",
    "Verif.AlphaFns.C33_Mathias_Copeman_critical",
    "Verif.AlphaFns.C33_Mathias_Copeman_critical_fails",
    "Verif.AlphaFns.C33_Mathias_Copeman_poly",
    "Verif.AlphaFns.C33_Mathias_Copeman_poly_jump",
    "Verif.AlphaFns.C33_Poly",
    "Verif.Twu.C33_TWU_value",
    "Verif.Twu.C33_TWU",
    "Verif.Twu.C33_TWU_floor",
    "Verif.Twu.C33_TWU_low",
    "Verif.Twu.C33_TWU_low_fails",
    "Verif.Twu.C33_TWU_critical_fails",
    "Verif.Twu.C33_TWU_documented"
   ],
   "note": "Exact for every alpha function on its smooth branches. False, with the failure proved, for TWU_a_alpha_common below Tr = 0.005 (derivatives five and twenty-five times too large) and at Tc, Almeida at Tc (raises), the second derivative of Mathias-Copeman at Tc, and the third derivative that PRSV inherits."
  },
  {
   "property": "C34",
   "status": "partial",
   "theorems": [
    "Verif.SolveT.C34_SRK",
    "Verif.SolveT.C34_SRK_none",
    "Verif.SolveT.C34_SRK_least",
    "Verif.SolveT.C34_SRK_negative_m_fails",
    "Verif.SolveT.C34_SRKTranslatedPPJP_fails",
    "Verif.SolveT.C34_PR_newton",
    "Verif.SolveT.C34_PR",
    "Verif.SolveT.C34_PR_gas",
    "Verif.SolveT.C34_VDW",
    "Verif.SolveT.C34_IG",
    "Verif.SolveT.C34_residuals",
    "Verif.SolveT.C34_generic_newton",
    "Verif.SolveT.C34_RK",
    "Verif.SolveT.C34_RK_negative",
    "Verif.SolveT.C34_RK_direct",
    "Verif.SolveT.C34_RK_zero_fails",
    "Verif.SolveT.C34_RK_solve"
   ],
   "note": "SRK, PR, VDW and IG closed forms reproduce the pressure, SRK raises only when no temperature exists and returns the smallest solution; PR correction steps and generic Newton slope are exact derivatives; PRSV, PRSV2 and APISRK residuals exact. Fails for negative m with strong attraction and for SRKTranslatedPPJP, which inherits the untranslated closed form. The Redlich-Kwong closed form over complex numbers is the only solution at positive pressures, is rejected at negative ones and divides by zero at zero pressure. Convergence of the iterative solvers is not modelled."
  },
  {
   "property": "C35",
   "status": "partial",
   "theorems": [
    "Verif.SolveT.C35_SRK",
    "Verif.SolveT.C35_PR",
    "Verif.SolveT.C35_SRK_negative_m_fails",
    "Verif.SolveT.C35_SRKTranslatedPPJP_fails",
    "Verif.SolveT.C35_PRSV_fails"
   ],
   "note": "SRK and PR values are the attained maximum and None means unbounded, for m >= 0. Fails for negative m, for PRSV (kappa depends on temperature) and for SRKTranslatedPPJP (inherits the untranslated formula)."
  },
  {
   "property": "C36",
   "status": "proved",
   "theorems": [
    "Verif.Translation.C36_constants",
    "Verif.Translation.C36_pressure",
    "Verif.Translation.C36_roots",
    "Verif.Translation.C36_departures",
    "Verif.Translation.C36_lnphi",
    "Verif.Translation.C36_saturation",
    "Verif.Translation.C36_estimate_MN"
   ],
   "note": "Constants of both translated families; pressure, roots, departures, fugacity coefficient, saturation pressure and heat of vaporisation; estimation of M and N by two points."
  },
  {
   "property": "C37",
   "status": "partial",
   "theorems": [
    "Verif.Discriminant.C37_discriminant",
    "Verif.Discriminant.C37_sign",
    "Verif.Discriminant.C37_discriminant_T_fails",
    "Verif.Discriminant.C37_discriminant_P",
    "Verif.Discriminant.C37_quartic",
    "Verif.Discriminant.C37_zeros_complete",
    "Verif.Discriminant.C37_zeros_sound_partial",
    "Verif.Discriminant.C37_zeros_fails",
    "Verif.Discriminant.C37_zero_newton",
    "Verif.Discriminant.C37_VDW",
    "Verif.Discriminant.C37_VDW_leading_zero",
    "Verif.Discriminant.C37_RK"
   ],
   "note": "Discriminant = product of squared root differences, its sign counts real roots, quartic / VDW cubics / RK polynomial vanish exactly where the discriminant does, Newton slope exact, RK filter exact. Fails: a given temperature is only used for a_alpha, and the valid filter of the pressure zeros keeps real parts of complex roots (proved for supercritical Peng-Robinson). Root finders are not modelled."
  },
  {
   "property": "C38",
   "status": "partial",
   "theorems": [
    "Verif.MixRule.C38_pairs",
    "Verif.MixRule.C38_value",
    "Verif.MixRule.C38_full_value",
    "Verif.MixRule.C38_quadratic",
    "Verif.MixRule.C38_full_derivatives",
    "Verif.MixRule.C38_mixture_derivatives",
    "Verif.MixRule.C38_combined",
    "Verif.MixRule.C38_self_interaction_fails",
    "Verif.MixRule.C38_asymmetric_fails",
    "Verif.MixRule.C38_negative_fails"
   ],
   "note": "All evaluators equal the double sum and its exact temperature derivatives for symmetric interaction matrices, positive pure attractions and non-negative compositions. Missing, because the claim is false there: a non-zero interaction of a component with itself (C38_self_interaction_fails), an unsymmetric matrix (C38_asymmetric_fails), negative fractions (C38_negative_fails). Derivatives with a zero pure attraction are not treated."
  },
  {
   "property": "C39",
   "status": "partial",
   "theorems": [
    "Verif.MixRule.C39_quadratic_rows",
    "Verif.MixRule.C39_combined_rows",
    "Verif.MixRule.C39_combined_rows_absent_partial",
    "Verif.MixRule.C39_combined_rows_fails",
    "Verif.MixRule.C39_derivative_matrices",
    "Verif.MixRule.C39_derivative_matrices_fails",
    "Verif.MixRule.C39_rows_from_matrix"
   ],
   "note": "Complete rows from a_alpha_quadratic_terms and from the pair matrix for every composition; from the combined evaluator only for present components. For absent ones the rows are incomplete (C39_combined_rows_absent_partial, C39_combined_rows_fails), and the derivative matrices hold zeros (C39_derivative_matrices_fails)."
  },
  {
   "property": "C40",
   "status": "partial",
   "theorems": [
    "Verif.LnPhi.C40_sum",
    "Verif.LnPhi.C40_PR_sum",
    "Verif.LnPhi.C40_SRK_sum",
    "Verif.LnPhi.C40_VDW_sum_partial"
   ],
   "note": "proved for the general routine, PR and SRK (and through the general routine RK and the translated equations); the VDW routine sums to the mixture value exactly when the root of the mixture attraction is the average of the component roots, i.e. not with interaction parameters"
  },
  {
   "property": "C41",
   "status": "proved",
   "theorems": [
    "Verif.MixDerivs.C41_covolume",
    "Verif.MixDerivs.C41_PR_delta",
    "Verif.MixDerivs.C41_PR_epsilon",
    "Verif.MixDerivs.C41_translated_delta",
    "Verif.MixDerivs.C41_PR_translated_epsilon",
    "Verif.MixDerivs.C41_SRK_translated_epsilon",
    "Verif.MixDerivs.C41_attraction"
   ],
   "note": "lists; the numpy variants of the same properties are not modelled"
  },
  {
   "property": "C42",
   "status": "partial",
   "theorems": [
    "Verif.Stream.C42_clear_composition_and_flow",
    "Verif.Stream.C42_clear_state_specs_partial",
    "Verif.Stream.C42_clear_state_keeps_H_reactive"
   ],
   "note": "Composition and flow proved; clear_state_specs keeps H_reactive (proved)."
  },
  {
   "property": "C43",
   "status": "partial",
   "theorems": [
    "Verif.Stream.C43_constructor_rejects_second_composition",
    "Verif.Stream.C43_constructor_rejects_third_state",
    "Verif.Stream.C43_constructor_rejects_two_totals_partial",
    "Verif.Stream.C43_constructor_accepts_two_total_flows"
   ],
   "note": "Composition and state proved; two total flows n and Ql are accepted (proved)."
  },
  {
   "property": "C44",
   "status": "proved",
   "theorems": [
    "Verif.Stream.C44_single_unknown_completed",
    "Verif.Stream.C44_complete_list_checked",
    "Verif.Stream.C44_underdetermined_untouched",
    "Verif.Stream.C44_reconcile_fills_ns",
    "Verif.Stream.C44_mass_and_mole_flows"
   ],
   "note": ""
  },
  {
   "property": "C45",
   "status": "partial",
   "theorems": [
    "Verif.MoleBalance.C45_progress_without_change",
    "Verif.MoleBalance.C45_progress_is_real_partial"
   ],
   "note": "Proved when every stream has a list to write to; otherwise progress is reported without change (proved)."
  },
  {
   "property": "C46",
   "status": "partial",
   "theorems": [
    "Verif.Serialize.C46_second_load_raises"
   ],
   "note": "The claim is false: the second load of the same dictionary is proved to raise for every document."
  },
  {
   "property": "C47",
   "status": "proved",
   "theorems": [
    "Verif.InteractionDB.C47_has_iff_stored"
   ],
   "note": ""
  },
  {
   "property": "C48",
   "status": "proved",
   "theorems": [
    "Verif.Mixture.C48_call_is_fresh"
   ],
   "note": "The stored key is a list compared with a tuple, so the memo is never used."
  },
  {
   "property": "C49",
   "status": "proved",
   "theorems": [
    "Verif.Mixture.C49_pure",
    "Verif.Mixture.C49_bounds",
    "Verif.Mixture.C49_permutation",
    "Verif.Mixture.C49_excess"
   ],
   "note": ""
  },
  {
   "property": "C50",
   "status": "partial",
   "theorems": [
    "Verif.Mixture.C50_excess_correlation_partial",
    "Verif.Mixture.C50_pairs_dropped",
    "Verif.Mixture.C50_raises"
   ],
   "note": "Holds when the number of components equals the number of temperature coefficients; otherwise pairs are dropped or the call raises (proved)."
  },
  {
   "property": "C51",
   "status": "partial",
   "theorems": [
    "Verif.AutoName.C51_unnamed_is_new_partial",
    "Verif.AutoName.C51_named_series_overwritten",
    "Verif.AutoName.C51_pressure_series_overwritten"
   ],
   "note": "Holds when only automatic names are used; a user-given name of the same pattern is overwritten and for pressure tables the second unnamed table always replaces the first (proved)."
  },
  {
   "property": "C52",
   "status": "proved",
   "theorems": [
    "Verif.Integrals.C52_piecewise_integral"
   ],
   "note": "Integrals of the sub-methods are assumed right."
  },
  {
   "property": "C53",
   "status": "proved",
   "theorems": [
    "Verif.Fragment.C53_greedy"
   ],
   "note": ""
  },
  {
   "property": "C54",
   "status": "proved",
   "theorems": [
    "Verif.RegularSolution.C54_volume_fraction",
    "Verif.RegularSolution.C54_GE",
    "Verif.RegularSolution.C54_derivatives",
    "Verif.RegularSolution.C54_gammas",
    "Verif.RegularSolution.C54_unnormalised_fails",
    "Verif.RegularSolution.C54_temperature",
    "Verif.RegularSolution.C54_hansen",
    "Verif.RegularSolution.C54_hansen_binary"
   ],
   "note": "Stated at normalised compositions; off them the code's gradient is not the derivative (proved). Hansen's numerical second derivative is not modelled."
  },
  {
   "property": "C56",
   "status": "proved",
   "theorems": [
    "Verif.Departure.C56_second",
    "Verif.Departure.C56_density",
    "Verif.Departure.C56_compressibility",
    "Verif.Departure.C56_mixed"
   ],
   "note": "Liquid and vapour bodies are the same formula; overflow guards are not modelled."
  },
  {
   "property": "C57",
   "status": "proved",
   "theorems": [
    "Verif.Departure.C57_enthalpy",
    "Verif.Departure.C57_entropy",
    "Verif.Departure.C57_heat_capacity",
    "Verif.Departure.C57_fugacity",
    "Verif.Departure.C57_enthalpy_second",
    "Verif.Departure.C57_entropy_second"
   ],
   "note": "For delta^2 > 4 epsilon. Overflow and division guards are not modelled."
  },
  {
   "property": "C58",
   "status": "partial",
   "theorems": [
    "Verif.Saturation.C58_dPsat_low",
    "Verif.Saturation.C58_dPsat_critical",
    "Verif.Saturation.C58_dPsat_bound_fails",
    "Verif.Saturation.C58_dPsat_polished",
    "Verif.Saturation.C58_dphi_sat",
    "Verif.Saturation.C58_Hvap",
    "Verif.Saturation.C58_phi_sat_critical",
    "Verif.Saturation.C58_phi_sat_translated_fails"
   ],
   "note": "Derivatives and Clausius-Clapeyron proved for every saturation curve. Refuted where the correlation is replaced by its upper bound (dPsat_dT is not zero there) and for the unpolished phi_sat of translated equations. Missing: the solvers that find the saturation pressure."
  },
  {
   "property": "C55",
   "status": "partial",
   "theorems": [
    "Verif.LnPhi.C55_volume",
    "Verif.LnPhi.C55_branch_exists",
    "Verif.LnPhi.C55_helper",
    "Verif.LnPhi.C55_helper_G",
    "Verif.LnPhi.C55_general",
    "Verif.LnPhi.C55_PR",
    "Verif.LnPhi.C55_SRK",
    "Verif.LnPhi.C55_RK",
    "Verif.LnPhi.C55_PR_translated",
    "Verif.LnPhi.C55_SRK_translated",
    "Verif.LnPhi.C55_VDW_partial",
    "Verif.LnPhi.C55_VDW_fails",
    "Verif.LnPhi.C55_PR_no_attraction_fails"
   ],
   "note": "general, PR, SRK, RK and both translated routines proved; VDW only for zero interaction parameters (failure witness), PR fails for zero attraction (witness)"
  },
  {
   "property": "C59",
   "status": "partial",
   "theorems": [
    "Verif.LnPhi.C59_volume_choice",
    "Verif.LnPhi.C59_volume_choice_fails"
   ],
   "note": "needs the first root above the covolume (failure witness without)"
  },
  {
   "property": "C60",
   "status": "partial",
   "theorems": [
    "Verif.IonBalance.C60_neutral",
    "Verif.IonBalance.C60_exact",
    "Verif.IonBalance.C60_nonneg",
    "Verif.IonBalance.C60_selected",
    "Verif.IonBalance.C60_proportional",
    "Verif.IonBalance.C60_dominant",
    "Verif.IonBalance.C60_increase_dominant",
    "Verif.IonBalance.C60_decrease_dominant",
    "Verif.IonBalance.C60_increase_dominant_succeeds",
    "Verif.IonBalance.C60_concentrations",
    "Verif.IonBalance.C60_water_fails",
    "Verif.IonBalance.C60_absent_group_fails",
    "Verif.IonBalance.C60_zero_amount_fails",
    "Verif.IonBalance.C60_dominant_fraction_fails",
    "Verif.IonBalance.C60_decrease_absent_fails"
   ],
   "note": "neutrality, totals, signs, frames, directions proved; failure witnesses: negative water, ZeroDivisionError without a deficient ion, ValueError when its amounts are zero, documented choice of the dominant ion, documented addition in 'Na or Cl decrease'"
  },
  {
   "property": "C61",
   "status": "proved",
   "theorems": [
    "Verif.Phase.C61_first",
    "Verif.Phase.C61_second",
    "Verif.Phase.C61_compressibility",
    "Verif.Phase.C61_energy",
    "Verif.Phase.C61_generated"
   ],
   "note": ""
  },
  {
   "property": "C62",
   "status": "proved",
   "theorems": [
    "Verif.Phase.C62_fundamental",
    "Verif.Phase.C62_heat_capacity",
    "Verif.Phase.C62_isentropic",
    "Verif.Phase.C62_second"
   ],
   "note": "speed of sound per root kilogram per mole; the mass conversion is separate"
  },
  {
   "property": "C63",
   "status": "partial",
   "theorems": [
    "Verif.Phase.C63_to",
    "Verif.Phase.C63_overrides",
    "Verif.Phase.C63_promises",
    "Verif.Phase.C63_mixed_fails",
    "Verif.Phase.C63_corrected",
    "Verif.Phase.C63_Cv_fails",
    "Verif.Phase.C63_sound_fails"
   ],
   "note": "holds except for the four mixed second derivatives (ideal_gas.py 726-736 return 0.0), refuted by C63_mixed_fails, C63_Cv_fails and C63_sound_fails at every state"
  },
  {
   "property": "C64",
   "status": "proved",
   "theorems": [
    "Verif.Phase.C64_root",
    "Verif.Phase.C64_promises",
    "Verif.Phase.C64_second",
    "Verif.Phase.C64_caloric"
   ],
   "note": "composition derivatives are covered by C41"
  },
  {
   "property": "C65",
   "status": "proved",
   "theorems": [
    "Verif.Phase.C65_TP",
    "Verif.Phase.C65_ns",
    "Verif.Phase.C65_ln",
    "Verif.Phase.C65_gibbs_duhem",
    "Verif.Phase.C65_from_phi",
    "Verif.Phase.C65_checks",
    "Verif.Phase.C65_criteria"
   ],
   "note": "dlnfugacities_dzs (1357-1380) is not covered: it calls a method that no class defines"
  },
  {
   "property": "C66",
   "status": "partial",
   "theorems": [
    "Verif.Phase.C66_chemical_potential",
    "Verif.Phase.C66_fugacity",
    "Verif.Phase.C66_formation",
    "Verif.Phase.C66_formation_fails"
   ],
   "note": "U_formation_ideal_gas and A_formation_ideal_gas use the molar volume at the current state instead of the reference state, so they change with temperature (C66_formation_fails); at the reference state they are right (C66_formation)"
  },
  {
   "property": "C67",
   "status": "partial",
   "theorems": [
    "Verif.Phase.C67_mechanical",
    "Verif.Phase.C67_departures",
    "Verif.Phase.C67_ideal_limit",
    "Verif.Phase.C67_caloric_partial",
    "Verif.Phase.C67_Cp_fails",
    "Verif.Phase.C67_corrected",
    "Verif.Phase.C67_to",
    "Verif.Phase.C67_composition",
    "Verif.Phase.C67_lnphis",
    "Verif.Phase.C67_mixing"
   ],
   "note": "Cp, dH_dT and dS_dT are the derivatives of the departure at constant volume, not constant pressure, so Cp, Cv and all properties computed from them are wrong unless the enthalpy is independent of volume (C67_Cp_fails); C67_corrected proves the rest of the chain with these three replaced; the external correlations of the coefficients are arbitrary functions"
  },
  {
   "property": "C68",
   "status": "partial",
   "theorems": [
    "Verif.Equil.C68_additive",
    "Verif.Equil.C68_derivatives",
    "Verif.Equil.C68_volume_weighted",
    "Verif.Equil.C68_gibbs",
    "Verif.Equil.C68_stiffness",
    "Verif.Equil.C68_Cv_bounds",
    "Verif.Equil.C68_single",
    "Verif.Equil.C68_equilibrium_derivative",
    "Verif.Equil.C68_speed_of_sound",
    "Verif.Equil.C68_default_derivatives_fails"
   ],
   "note": "additivity, derivative option, volume weighting and sound speeds are proved; the default mole-weighted dP_dT, dP_dV, kappa, isobaric expansion and inherited dV_dT, dV_dP are refuted by C68_default_derivatives_fails"
  },
  {
   "property": "C69",
   "status": "partial",
   "theorems": [
    "Verif.Equil.C69_states",
    "Verif.Equil.C69_fractions",
    "Verif.Equil.C69_weight_states",
    "Verif.Equil.C69_volume_reads_partial",
    "Verif.Equil.C69_liquids",
    "Verif.Equil.C69_quality_partial",
    "Verif.Equil.C69_quality_fails",
    "Verif.Equil.C69_shared_cache_fails"
   ],
   "note": "C69_volume_reads_partial holds only if a single one of the two volume fraction methods is ever read (C69_shared_cache_fails); quality equals the gas mass fraction only without solids (C69_quality_fails)"
  },
  {
   "property": "C70",
   "status": "partial",
   "theorems": [
    "Verif.Equil.C70_flows",
    "Verif.Equil.C70_liquid_bulk_partial",
    "Verif.Equil.C70_liquid_bulk_scaled",
    "Verif.Equil.C70_liquid_bulk_fails"
   ],
   "note": "phases and the overall bulk are proved; the liquid bulk only if it is the whole stream (C70_liquid_bulk_fails, C70_liquid_bulk_scaled gives the exact error)"
  },
  {
   "property": "C71",
   "status": "partial",
   "theorems": [
    "Verif.Equil.C71_bounds",
    "Verif.Equil.C71_no_gas",
    "Verif.Equil.C71_correlations",
    "Verif.Equil.C71_gas_liquid_partial",
    "Verif.Equil.C71_liquid_bulk_partial",
    "Verif.Equil.C71_log_le_linear",
    "Verif.Equil.C71_log_dP_dV_fails",
    "Verif.Equil.C71_liquid_bulk_fails",
    "Verif.Equil.C71_solids_fails",
    "Verif.Equil.C71_gas_solid_fails"
   ],
   "note": "bounded for states without solids; refuted for the liquid bulk next to a gas, for solids (C71_solids_fails, C71_gas_solid_fails) and for logarithmic dP_dV (C71_log_dP_dV_fails)"
  },
  {
   "property": "C72",
   "status": "partial",
   "theorems": [
    "Verif.Equil.C72_atom_content",
    "Verif.Equil.C72_atom_fractions",
    "Verif.Equil.C72_atoms_conserved",
    "Verif.Equil.C72_H_C_ratio_partial",
    "Verif.Equil.C72_H_C_ratio_fails",
    "Verif.Equil.C72_no_water",
    "Verif.Equil.C72_no_water_exists",
    "Verif.Equil.C72_no_water_mass",
    "Verif.Equil.C72_humidity_partial",
    "Verif.Equil.C72_no_water_component",
    "Verif.Equil.C72_humidity_fails",
    "Verif.Equil.C72_Vfls",
    "Verif.Equil.C72_lightest_heaviest",
    "Verif.Equil.C72_water_phase"
   ],
   "note": "H_C_ratio and humidity_ratio hold for the whole state only; for a phase they are refuted (C72_H_C_ratio_fails, C72_humidity_fails)"
  },
  {
   "property": "C73",
   "status": "partial",
   "theorems": [
    "Verif.Equil.C73_S_ideal_gas",
    "Verif.Equil.C73_S_ideal_gas_sign",
    "Verif.Equil.C73_H_dep",
    "Verif.Equil.C73_S_dep",
    "Verif.Equil.C73_dep_partial",
    "Verif.Equil.C73_G_dep_fails"
   ],
   "note": "enthalpy proved; entropy and Gibbs energy departures are refuted for phases of different composition (C73_G_dep_fails); exact error proved"
  },
  {
   "property": "C74",
   "status": "partial",
   "theorems": [
    "Verif.PhaseId.C74_scores",
    "Verif.PhaseId.C74_volume_scores",
    "Verif.PhaseId.C74_wilson_partial",
    "Verif.PhaseId.C74_wilson_pure_fails",
    "Verif.PhaseId.C74_traces_listed",
    "Verif.PhaseId.C74_traces",
    "Verif.PhaseId.C74_traces_bound_fails",
    "Verif.PhaseId.C74_partition",
    "Verif.PhaseId.C74_classes",
    "Verif.PhaseId.C74_best_gas_partial",
    "Verif.PhaseId.C74_two_forced_fails",
    "Verif.PhaseId.C74_forced_gas_fails",
    "Verif.PhaseId.C74_unknown_force_fails",
    "Verif.PhaseId.C74_solids"
   ],
   "note": "Wilson score proved only for several components, best gas only without forced gases; the other cases are refuted."
  },
  {
   "property": "C75",
   "status": "proved",
   "theorems": [
    "Verif.PhaseId.C75_keys",
    "Verif.PhaseId.C75_sort",
    "Verif.PhaseId.C75_ties_fails",
    "Verif.PhaseId.C75_compressibility_fails",
    "Verif.PhaseId.C75_water",
    "Verif.PhaseId.C75_aligned",
    "Verif.PhaseId.C75_sorted",
    "Verif.PhaseId.C75_balance",
    "Verif.PhaseId.C75_no_betas_fails"
   ],
   "note": "Distinct phases, as many fractions as phases."
  },
  {
   "property": "C76",
   "status": "proved",
   "theorems": [
    "Verif.Helmholtz.C76_potential",
    "Verif.Helmholtz.C76_promises",
    "Verif.Helmholtz.C76_overrides"
   ],
   "note": "for every smooth reduced Helmholtz energy; pressure relation as documented by the chemicals package"
  },
  {
   "property": "C77",
   "status": "partial",
   "theorems": [
    "Verif.Helmholtz.C77_lnphi",
    "Verif.Helmholtz.C77_lnphi_derivatives",
    "Verif.Helmholtz.C77_gibbs_helmholtz",
    "Verif.Helmholtz.C77_A_fails",
    "Verif.Helmholtz.C77_S_dep_partial",
    "Verif.Helmholtz.C77_S_dep_fails",
    "Verif.Helmholtz.C77_virial",
    "Verif.Helmholtz.C77_virial_derivatives",
    "Verif.Helmholtz.C77_d3B_fails"
   ],
   "note": "fugacity and virial parts proved; S_dep, G_dep, A() and d3B_virial_dT3 refuted, S_dep characterised up to R ln Z"
  },
  {
   "property": "C78",
   "status": "proved",
   "theorems": [
    "Verif.Gibbs.C78_energies",
    "Verif.Gibbs.C78_first",
    "Verif.Gibbs.C78_pvt",
    "Verif.Gibbs.C78_second"
   ],
   "note": ""
  },
  {
   "property": "C79",
   "status": "proved",
   "theorems": [
    "Verif.Gibbs.C79_ice",
    "Verif.Gibbs.C79_zero",
    "Verif.Gibbs.C79_pressure",
    "Verif.Gibbs.C79_literals"
   ],
   "note": "the derivative formulas with exact products; the literals separately"
  },
  {
   "property": "C80",
   "status": "partial",
   "theorems": [
    "Verif.Special.C80_volume",
    "Verif.Special.C80_basis_partial",
    "Verif.Special.C80_basis_fails",
    "Verif.Special.C80_calls_fails",
    "Verif.Special.C80_to_TP_zs_fails"
   ],
   "note": "volume part proved; basis and calls refuted, enthalpy characterised up to the molar mass"
  },
  {
   "property": "C81",
   "status": "partial",
   "theorems": [
    "Verif.Special.C81_positive",
    "Verif.Special.C81_simple",
    "Verif.Special.C81_kind",
    "Verif.Special.C81_acentric",
    "Verif.Special.C81_continuous",
    "Verif.Special.C81_continuous_fails",
    "Verif.Special.C81_to_fails"
   ],
   "note": "continuity proved for Chao-Seader and refuted for Grayson-Streed; values of the coefficients not modelled"
  },
  {
   "property": "C82",
   "status": "partial",
   "theorems": [
    "Verif.Special.C82_answer",
    "Verif.Special.C82_default_fails",
    "Verif.Special.C82_alias_fails"
   ],
   "note": "dispatch proved for a given dictionary; defaults refuted"
  },
  {
   "property": "C83",
   "status": "proved",
   "theorems": [
    "Verif.ExcessLiquid.C83_poynting",
    "Verif.ExcessLiquid.C83_dPoyntings_dT",
    "Verif.ExcessLiquid.C83_d2Poyntings_dT2",
    "Verif.ExcessLiquid.C83_dPoyntings_dP",
    "Verif.ExcessLiquid.C83_d2Poyntings_dPdT",
    "Verif.ExcessLiquid.C83_lnphis",
    "Verif.ExcessLiquid.C83_dphis_dT",
    "Verif.ExcessLiquid.C83_dlnphis_dP"
   ],
   "note": ""
  },
  {
   "property": "C84",
   "status": "partial",
   "theorems": [
    "Verif.ExcessLiquid.C84_H_dep",
    "Verif.ExcessLiquid.C84_S_dep",
    "Verif.ExcessLiquid.C84_G_dep",
    "Verif.ExcessLiquid.C84_Cp",
    "Verif.ExcessLiquid.C84_dS_dT",
    "Verif.ExcessLiquid.C84_dH_dP",
    "Verif.ExcessLiquid.C84_dS_dP",
    "Verif.ExcessLiquid.C84_dG",
    "Verif.ExcessLiquid.C84_Hvap_G_partial",
    "Verif.ExcessLiquid.C84_dG_dP_noPoynting",
    "Verif.ExcessLiquid.C84_Hvap_Cp_fails",
    "Verif.ExcessLiquid.C84_Hvap_dS_dP_fails",
    "Verif.ExcessLiquid.C84_Hvap_G_fails",
    "Verif.ExcessLiquid.C84_V_fails"
   ],
   "note": "With Hvap based enthalpies, and for the volume, the code violates the property; proved for the other options and refuted by witnesses."
  },
  {
   "property": "C85",
   "status": "partial",
   "theorems": [
    "Verif.ExcessState.C85_equilibrium",
    "Verif.ExcessState.C85_options",
    "Verif.ExcessState.C85_caloric_partial",
    "Verif.ExcessState.C85_caloric_fails",
    "Verif.ExcessState.C85_unknown_basis_fails",
    "Verif.ExcessState.C85_solid_partial",
    "Verif.ExcessState.C85_solid_fails",
    "Verif.ExcessState.C85_volume_fits",
    "Verif.ExcessState.C85_psat_fits_fails",
    "Verif.ExcessState.C85_hvap_fits_fails",
    "Verif.ExcessState.C85_other_method",
    "Verif.ExcessState.C85_to_partial",
    "Verif.ExcessState.C85_to_fails",
    "Verif.ExcessState.C85_move",
    "Verif.ExcessState.C85_calls",
    "Verif.ExcessState.C85_model",
    "Verif.ExcessState.C85_keeps",
    "Verif.ExcessState.C85_stale_volume_fails",
    "Verif.ExcessState.C85_fill",
    "Verif.ExcessState.C85_fill_fails"
   ],
   "note": "Several options and calls violate the property; the invariant is proved for volumes that do not depend on composition."
  },
  {
   "property": "C86",
   "status": "partial",
   "theorems": [
    "Verif.ExcessState.C86_volume_derivatives",
    "Verif.ExcessState.C86_upper_limit",
    "Verif.ExcessState.C86_limit_fails",
    "Verif.ExcessState.C86_phi_sat_partial",
    "Verif.ExcessState.C86_phi_sat_fails",
    "Verif.ExcessState.C86_volumes_partial",
    "Verif.ExcessState.C86_volumes_fails",
    "Verif.ExcessState.C86_henry",
    "Verif.ExcessState.C86_henry_zero_fails",
    "Verif.ExcessState.C86_phis_at_partial",
    "Verif.ExcessState.C86_phis_at_fails"
   ],
   "note": "The code violates the property at the refuted points; proved elsewhere."
  },
  {
   "property": "C87",
   "status": "partial",
   "theorems": [
    "Verif.ExcessState.C87_incompressible_fails",
    "Verif.ExcessState.C87_incompressible_partial",
    "Verif.ExcessState.C87_Tait_fails",
    "Verif.ExcessState.C87_dvol",
    "Verif.ExcessState.C87_integral"
   ],
   "note": "The triple product rule is violated by the code; the Tait integral is proved."
  },
  {
   "property": "C88",
   "status": "partial",
   "theorems": [
    "Verif.FlashDispatch.C88_density",
    "Verif.FlashDispatch.C88_energy",
    "Verif.FlashDispatch.C88_molar",
    "Verif.FlashDispatch.C88_conflict_fails",
    "Verif.FlashDispatch.C88_check",
    "Verif.FlashDispatch.C88_limit",
    "Verif.FlashDispatch.C88_limit_fails",
    "Verif.FlashDispatch.C88_two",
    "Verif.FlashDispatch.C88_supported",
    "Verif.FlashDispatch.C88_iter",
    "Verif.FlashDispatch.C88_given",
    "Verif.FlashDispatch.C88_over_fails"
   ],
   "note": "conflicting and surplus specifications are proved to be accepted, and the temperature limit to be too strict"
  },
  {
   "property": "C89",
   "status": "partial",
   "theorems": [
    "Verif.FlashDispatch.C89_boundary",
    "Verif.FlashDispatch.C89_mixing",
    "Verif.FlashDispatch.C89_fallback_fails",
    "Verif.FlashDispatch.C89_grid",
    "Verif.FlashDispatch.C89_grid_fails",
    "Verif.FlashDispatch.C89_liquids_partial",
    "Verif.FlashDispatch.C89_liquids_fails"
   ],
   "note": "C89_liquids_partial needs the distinct models first; the general claim is refuted"
  },
  {
   "property": "C90",
   "status": "partial",
   "theorems": [
    "Verif.FlashSS.C90_balance",
    "Verif.FlashSS.C90_fugacity",
    "Verif.FlashSS.C90_progress",
    "Verif.FlashSS.C90_distinct",
    "Verif.FlashSS.C90_first_fails",
    "Verif.FlashSS.C90_order",
    "Verif.FlashSS.C90_several_partial",
    "Verif.FlashSS.C90_several_fugacity",
    "Verif.FlashSS.C90_several_fails"
   ],
   "note": "C90_several_partial lacks that the returned phases have the returned compositions, which is refuted; nothing is claimed about convergence"
  },
  {
   "property": "C91",
   "status": "partial",
   "theorems": [
    "Verif.FlashNewton.C91_two_KK",
    "Verif.FlashNewton.C91_two_KV",
    "Verif.FlashNewton.C91_two_V",
    "Verif.FlashNewton.C91_two_zero",
    "Verif.FlashNewton.C91_transform",
    "Verif.FlashNewton.C91_spec_zero",
    "Verif.FlashNewton.C91_dew_P",
    "Verif.FlashNewton.C91_many_jac",
    "Verif.FlashNewton.C91_many_zero",
    "Verif.FlashNewton.C91_many_fails",
    "Verif.FlashNewton.C91_spec_row_partial",
    "Verif.FlashNewton.C91_spec_fails",
    "Verif.FlashNewton.C91_dew_jac",
    "Verif.FlashNewton.C91_dew_zero",
    "Verif.FlashNewton.C91_dew_absent_fails",
    "Verif.FlashNewton.C91_flows",
    "Verif.FlashNewton.C91_basis",
    "Verif.FlashNewton.C91_transform_fails"
   ],
   "note": "the row of derivatives of a specification is right only if the phases return derivatives at the compositions of the iteration, which the code does not ensure; other parts of the claim refuted by the theorems named fails"
  },
  {
   "property": "C92",
   "status": "partial",
   "theorems": [
    "Verif.FlashStability.C92_stationary",
    "Verif.FlashStability.C92_tpd",
    "Verif.FlashStability.C92_sum",
    "Verif.FlashStability.C92_unstable",
    "Verif.FlashStability.C92_verdict",
    "Verif.FlashStability.C92_ideal",
    "Verif.FlashStability.C92_window_fails",
    "Verif.FlashStability.C92_missed_fails",
    "Verif.FlashStability.C92_stable",
    "Verif.FlashStability.C92_first",
    "Verif.FlashStability.C92_highest",
    "Verif.FlashStability.C92_lowest_fails",
    "Verif.FlashStability.C92_iffy_fails",
    "Verif.FlashStability.C92_options_fails",
    "Verif.FlashStability.C92_dedup",
    "Verif.FlashStability.C92_dedup_adjacent",
    "Verif.FlashStability.C92_dedup_fails"
   ],
   "note": "the verdict is right for composition independent phases; in general refuted by the theorems named fails"
  },
  {
   "property": "C93",
   "status": "partial",
   "theorems": [
    "Verif.SatPoints.C93_pure",
    "Verif.SatPoints.C93_pure_derivative",
    "Verif.SatPoints.C93_pure_stable_partial",
    "Verif.SatPoints.C93_pure_stable_fails",
    "Verif.SatPoints.C93_solid",
    "Verif.SatPoints.C93_solid_fails",
    "Verif.SatPoints.C93_mm_derivative",
    "Verif.SatPoints.C93_mm_result",
    "Verif.SatPoints.C93_mm_fails",
    "Verif.SatPoints.C93_mm_positive",
    "Verif.SatPoints.C93_mm_retry_fails",
    "Verif.SatPoints.C93_old_derivative",
    "Verif.SatPoints.C93_old_zero",
    "Verif.SatPoints.C93_old_step",
    "Verif.SatPoints.C93_old_retry_fails",
    "Verif.SatPoints.C93_liquids",
    "Verif.SatPoints.C93_liquids_fails",
    "Verif.SatPoints.C93_ig_derivative",
    "Verif.SatPoints.C93_ig_zero",
    "Verif.SatPoints.C93_ig_bounds",
    "Verif.SatPoints.C93_ig_unique"
   ],
   "note": "with several liquids the liquid at saturation need not be the stable one and converged dew points need not have equal fugacities; refuted by the theorems named fails"
  },
  {
   "property": "C94",
   "status": "partial",
   "theorems": [
    "Verif.FlashPure.C94_least",
    "Verif.FlashPure.C94_tie",
    "Verif.FlashPure.C94_limit_fails",
    "Verif.FlashPure.C94_TV_fails",
    "Verif.FlashPure.C94_dome_fails",
    "Verif.FlashPure.C94_shortcut",
    "Verif.FlashPure.C94_shortcut_fails",
    "Verif.FlashPure.C94_cubic",
    "Verif.FlashPure.C94_criterion_H",
    "Verif.FlashPure.C94_criterion_S",
    "Verif.FlashPure.C94_PU_fails",
    "Verif.FlashPure.C94_TS_fails",
    "Verif.FlashPure.C94_choice",
    "Verif.FlashPure.C94_choice_PS",
    "Verif.FlashPure.C94_lever",
    "Verif.FlashPure.C94_specfun_fails",
    "Verif.FlashPure.C94_specfun_partial",
    "Verif.FlashPure.C94_decide",
    "Verif.FlashPure.C94_solid_fails",
    "Verif.FlashPure.C94_bound",
    "Verif.FlashPure.C94_bound_fails",
    "Verif.FlashPure.C94_grid_partial",
    "Verif.FlashPure.C94_grid_fails",
    "Verif.FlashPure.C94_saturation_slope",
    "Verif.FlashPure.C94_bounding",
    "Verif.FlashPure.C94_bounding_all",
    "Verif.FlashPure.C94_interval",
    "Verif.FlashPure.C94_interval_fails",
    "Verif.FlashPure.C94_vfGuess"
   ],
   "note": "at specified volume, pressure with internal energy, temperature with entropy, with solids and at the least temperature of a gas the state returned need not be the stable one; refuted by the theorems named fails; CoolProp and IAPWS95 branches not modelled"
  },
  {
   "property": "C95",
   "status": "partial",
   "theorems": [
    "Verif.MultiPhase.C95_balance",
    "Verif.MultiPhase.C95_types",
    "Verif.MultiPhase.C95_far_below",
    "Verif.MultiPhase.C95_far_above_fails",
    "Verif.MultiPhase.C95_stable",
    "Verif.MultiPhase.C95_hot",
    "Verif.MultiPhase.C95_bounds_partial",
    "Verif.MultiPhase.C95_bounds_fails",
    "Verif.MultiPhase.C95_VF",
    "Verif.MultiPhase.C95_VF_fails",
    "Verif.MultiPhase.C95_K",
    "Verif.MultiPhase.C95_double_check",
    "Verif.MultiPhase.C95_energy_partial",
    "Verif.MultiPhase.C95_energy_two",
    "Verif.MultiPhase.C95_fractions_partial",
    "Verif.MultiPhase.C95_dead",
    "Verif.MultiPhase.C95_double_check_fails",
    "Verif.MultiPhase.C95_stable_fails",
    "Verif.MultiPhase.C95_retry_fails",
    "Verif.MultiPhase.C95_retry_error_fails",
    "Verif.MultiPhase.C95_loop_fails",
    "Verif.MultiPhase.C95_loop",
    "Verif.MultiPhase.C95_hot_fails"
   ],
   "note": "the result need not have the least Gibbs energy of all solutions found and fractions may be negative after retries; refuted by the theorems named fails"
  },
  {
   "property": "C96",
   "status": "partial",
   "theorems": [
    "Verif.FlashMixing.C96_overlap",
    "Verif.FlashMixing.C96_removed_partial",
    "Verif.FlashMixing.C96_removed_fails",
    "Verif.FlashMixing.C96_scaled",
    "Verif.FlashMixing.C96_bracket",
    "Verif.FlashMixing.C96_bracket_none",
    "Verif.FlashMixing.C96_last",
    "Verif.FlashMixing.C96_last_fails",
    "Verif.FlashMixing.C96_follow_partial",
    "Verif.FlashMixing.C96_follow_fails",
    "Verif.FlashMixing.C96_checks",
    "Verif.FlashMixing.C96_point_checks",
    "Verif.FlashMixing.C96_rich",
    "Verif.FlashMixing.C96_rich_fails",
    "Verif.FlashMixing.C96_nearest",
    "Verif.FlashMixing.C96_scan",
    "Verif.FlashMixing.C96_scan_first",
    "Verif.FlashMixing.C96_scan_ne",
    "Verif.FlashMixing.C96_keep_fails",
    "Verif.FlashMixing.C96_final_partial",
    "Verif.FlashMixing.C96_final_fails",
    "Verif.FlashMixing.C96_wet_bulb",
    "Verif.FlashMixing.C96_nested",
    "Verif.FlashMixing.C96_direct_partial",
    "Verif.FlashMixing.C96_direct_fails",
    "Verif.FlashMixing.C96_cricondentherm",
    "Verif.FlashMixing.C96_cricondenbar_partial",
    "Verif.FlashMixing.C96_cricondenbar_fails"
   ],
   "note": "searches as brackets and choices, not convergence of the secant and bisection; several steps refuted"
  },
  {
   "property": "C97",
   "status": "partial",
   "theorems": [
    "Verif.Unifac.C97_reference",
    "Verif.Unifac.C97_psi",
    "Verif.Unifac.C97_psi_pos",
    "Verif.Unifac.C97_fractions",
    "Verif.Unifac.C97_groups_dT",
    "Verif.Unifac.C97_pure_groups",
    "Verif.Unifac.C97_residual_dT",
    "Verif.Unifac.C97_GE_pure",
    "Verif.Unifac.C97_GE_dT",
    "Verif.Unifac.C97_pure",
    "Verif.Unifac.C97_function",
    "Verif.Unifac.C97_entry_partial",
    "Verif.Unifac.C97_entry_fails",
    "Verif.Unifac.C97_missing_partial",
    "Verif.Unifac.C97_missing_fails",
    "Verif.Unifac.C97_hash_partial",
    "Verif.Unifac.C97_hash_fails"
   ],
   "note": "interaction terms only agree for entries of the right form; missing parameters and hash refuted"
  },
  {
   "property": "C98",
   "status": "proved",
   "theorems": [
    "Verif.Unifac.C98_volumes",
    "Verif.Unifac.C98_fractions",
    "Verif.Unifac.C98_groups",
    "Verif.Unifac.C98_combinatorial",
    "Verif.Unifac.C98_residual",
    "Verif.Unifac.C98_GE",
    "Verif.Unifac.C98_gibbs_duhem",
    "Verif.Unifac.C98_generic",
    "Verif.Unifac.C98_gammas"
   ],
   "note": "more than one component, sizes positive"
  },
  {
   "property": "C99",
   "status": "partial",
   "theorems": [
    "Verif.GroupEstimates.C99_linear",
    "Verif.GroupEstimates.C99_missing",
    "Verif.GroupEstimates.C99_order",
    "Verif.GroupEstimates.C99_table",
    "Verif.GroupEstimates.C99_Tc",
    "Verif.GroupEstimates.C99_Tc_partial",
    "Verif.GroupEstimates.C99_alkane_partial",
    "Verif.GroupEstimates.C99_Tc_fails",
    "Verif.GroupEstimates.C99_Pc",
    "Verif.GroupEstimates.C99_Cpig",
    "Verif.GroupEstimates.C99_mul",
    "Verif.GroupEstimates.C99_init_partial",
    "Verif.GroupEstimates.C99_init_fails",
    "Verif.GroupEstimates.C99_diky",
    "Verif.GroupEstimates.C99_diky_units",
    "Verif.GroupEstimates.C99_fedors",
    "Verif.GroupEstimates.C99_fedors_status",
    "Verif.GroupEstimates.C99_wj",
    "Verif.GroupEstimates.C99_wj_flag_fails",
    "Verif.GroupEstimates.C99_wj_fails",
    "Verif.GroupEstimates.C99_wj_Pc_partial",
    "Verif.GroupEstimates.C99_wj_first",
    "Verif.GroupEstimates.C99_bondi",
    "Verif.GroupEstimates.C99_bondi_alkane",
    "Verif.GroupEstimates.C99_bondi_branched",
    "Verif.GroupEstimates.C99_bondi_fails"
   ],
   "note": "Proved: C99_linear, C99_missing, C99_order, C99_table, C99_Tc, C99_Pc, C99_Cpig, C99_mul, C99_diky, C99_fedors*, C99_wj, C99_bondi*. Positivity of critical temperatures holds only for bounded sums (C99_Tc_partial, C99_alkane_partial) and is refuted beyond (C99_Tc_fails, C99_wj_fails); further refutations C99_init_fails, C99_wj_flag_fails, C99_bondi_fails. The matching of structures by RDKit is an input."
  },
  {
   "property": "C100",
   "status": "proved",
   "theorems": [
    "Verif.PPR78.C100_complete",
    "Verif.PPR78.C100_table_symmetric",
    "Verif.PPR78.C100_data",
    "Verif.PPR78.C100_kij",
    "Verif.PPR78.C100_defined",
    "Verif.PPR78.C100_symmetric",
    "Verif.PPR78.C100_kijs",
    "Verif.PPR78.C100_self",
    "Verif.PPR78.C100_scale",
    "Verif.PPR78.C100_reference",
    "Verif.PPR78.C100_pure_groups",
    "Verif.PPR78.C100_van_laar",
    "Verif.PPR78.C100_constants",
    "Verif.PPR78.C100_parameters",
    "Verif.PPR78.C100_doc_fails",
    "Verif.PPR78.C100_missing_fails"
   ],
   "note": "Proved: C100_complete, C100_table_symmetric, C100_data, C100_kij, C100_defined, C100_symmetric, C100_kijs, C100_self, C100_scale, C100_reference, C100_pure_groups, C100_van_laar, C100_constants, C100_parameters. Refuted: C100_doc_fails, C100_missing_fails."
  },
  {
   "property": "C101",
   "status": "partial",
   "theorems": [
    "Verif.Functional.C101_allclose",
    "Verif.Functional.C101_allclose_default",
    "Verif.Functional.C101_allclose_empty",
    "Verif.Functional.C101_allclose_limits_fails",
    "Verif.Functional.C101_allclose_order_fails",
    "Verif.Functional.C101_identify",
    "Verif.Functional.C101_identify_mono",
    "Verif.Functional.C101_boiling_partial",
    "Verif.Functional.C101_boiling_fails",
    "Verif.Functional.C101_identify_zero_fails",
    "Verif.Functional.C101_select",
    "Verif.Functional.C101_dn2",
    "Verif.Functional.C101_TPD",
    "Verif.Functional.C101_TPD_self",
    "Verif.Functional.C101_TPD_equilibrium",
    "Verif.Functional.C101_truncLog",
    "Verif.Functional.C101_TPD_split",
    "Verif.Functional.C101_TPD_stable",
    "Verif.Functional.C101_TPD_ideal",
    "Verif.Functional.C101_stateva",
    "Verif.Functional.C101_stateva_fails",
    "Verif.Functional.C101_components",
    "Verif.Functional.C101_components_swap",
    "Verif.Functional.C101_components_total",
    "Verif.Functional.C101_components_split",
    "Verif.Functional.C101_reactive",
    "Verif.Functional.C101_components_zero_fails",
    "Verif.Functional.C101_reactive_fails",
    "Verif.Functional.C101_reactive_tolerance_fails",
    "Verif.Functional.C101_kinetic",
    "Verif.Functional.C101_energy",
    "Verif.Functional.C101_elevation_fails",
    "Verif.Functional.C101_areas_fails"
   ],
   "note": "Proved: C101_allclose*, C101_identify*, C101_select, C101_dn2, C101_TPD*, C101_stateva, C101_components*, C101_reactive, C101_kinetic, C101_energy. Only above 110 kPa: C101_boiling_partial. Refuted: C101_allclose_limits_fails, C101_allclose_order_fails, C101_boiling_fails, C101_identify_zero_fails, C101_stateva_fails, C101_components_zero_fails, C101_reactive_fails, C101_reactive_tolerance_fails, C101_elevation_fails, C101_areas_fails."
  },
  {
   "property": "C102",
   "status": "partial",
   "theorems": [
    "Verif.FlashTrials.C102_compositions",
    "Verif.FlashTrials.C102_wilson",
    "Verif.FlashTrials.C102_wilson_acentric",
    "Verif.FlashTrials.C102_thirds",
    "Verif.FlashTrials.C102_pure",
    "Verif.FlashTrials.C102_count_partial",
    "Verif.FlashTrials.C102_random_fails",
    "Verif.FlashTrials.C102_name_partial",
    "Verif.FlashTrials.C102_pure_name_fails",
    "Verif.FlashTrials.C102_zero_name_fails",
    "Verif.FlashTrials.C102_aqueous_name_fails",
    "Verif.FlashTrials.C102_generator",
    "Verif.FlashTrials.C102_random_size_fails",
    "Verif.FlashTrials.C102_guesses_partial",
    "Verif.FlashTrials.C102_same",
    "Verif.FlashTrials.C102_alpha",
    "Verif.FlashTrials.C102_constrained_partial",
    "Verif.FlashTrials.C102_constraint_fails"
   ],
   "note": "counts, names, sizes of random guesses and the constrained search are proved under the conditions stated and refuted outside"
  },
  {
   "property": "C103",
   "status": "partial",
   "theorems": [
    "Verif.IdealPackage.C103_split",
    "Verif.IdealPackage.C103_bounds",
    "Verif.IdealPackage.C103_window",
    "Verif.IdealPackage.C103_unique",
    "Verif.IdealPackage.C103_bracket_fails",
    "Verif.IdealPackage.C103_dew_le_bubble",
    "Verif.IdealPackage.C103_TP",
    "Verif.IdealPackage.C103_single",
    "Verif.IdealPackage.C103_TVF",
    "Verif.IdealPackage.C103_monotone",
    "Verif.IdealPackage.C103_round_trip",
    "Verif.IdealPackage.C103_nearly_pure_fails",
    "Verif.IdealPackage.C103_equal_fails",
    "Verif.IdealPackage.C103_PVF",
    "Verif.IdealPackage.C103_wrapper_TP_partial",
    "Verif.IdealPackage.C103_wrapper_VF",
    "Verif.IdealPackage.C103_overspecified_fails",
    "Verif.IdealPackage.C103_pairs"
   ],
   "note": "the wrapper is consistent only without a vapor fraction beside temperature and pressure; solvers by their contracts"
  },
  {
   "property": "C104",
   "status": "partial",
   "theorems": [
    "Verif.IdealCaloric.C104_enthalpy_partial",
    "Verif.IdealCaloric.C104_enthalpy_fails",
    "Verif.IdealCaloric.C104_entropy_fails",
    "Verif.IdealCaloric.C104_entropy_partial",
    "Verif.IdealCaloric.C104_limits_partial",
    "Verif.IdealCaloric.C104_bubble_fails",
    "Verif.IdealCaloric.C104_vaporization",
    "Verif.IdealCaloric.C104_gibbs",
    "Verif.IdealCaloric.C104_potentials_partial",
    "Verif.IdealCaloric.C104_potentials_fails",
    "Verif.IdealCaloric.C104_gibbs_fails",
    "Verif.IdealCaloric.C104_gas_derivatives",
    "Verif.IdealCaloric.C104_liquid_cp_fails",
    "Verif.IdealCaloric.C104_partial",
    "Verif.IdealCaloric.C104_partial_sum",
    "Verif.IdealCaloric.C104_liquid_route",
    "Verif.IdealCaloric.C104_routes",
    "Verif.IdealCaloric.C104_reactive",
    "Verif.IdealCaloric.C104_copy_fails",
    "Verif.IdealCaloric.C104_reference"
   ],
   "note": "additivity over phases holds only without pressure dependence and for phases of equal composition; refuted otherwise"
  },
  {
   "property": "C105",
   "status": "partial",
   "theorems": [
    "Verif.ObjectState.C105_make",
    "Verif.ObjectState.C105_insufficient",
    "Verif.ObjectState.C105_specs",
    "Verif.ObjectState.C105_three_specs_fails",
    "Verif.ObjectState.C105_to",
    "Verif.ObjectState.C105_to_fresh",
    "Verif.ObjectState.C105_to_TP_fails",
    "Verif.ObjectState.C105_more_stable",
    "Verif.ObjectState.C105_a_alpha_for_V",
    "Verif.ObjectState.C105_a_alpha_for_Psat",
    "Verif.ObjectState.C105_sat_departures"
   ],
   "note": "refuted: three specifications at once, to_TP of objects made from a volume"
  },
  {
   "property": "C106",
   "status": "partial",
   "theorems": [
    "Verif.MixState.C106_make",
    "Verif.MixState.C106_fast",
    "Verif.MixState.C106_touch_same",
    "Verif.MixState.C106_stale_fails",
    "Verif.MixState.C106_fugacities_lowest",
    "Verif.MixState.C106_lnphis_lowest_partial",
    "Verif.MixState.C106_lnphis_lowest_fails",
    "Verif.MixState.C106_only_g_fails",
    "Verif.MixState.C106_dphi_dn_fails",
    "Verif.MixState.C106_subset",
    "Verif.MixState.C106_subset_view_fails",
    "Verif.MixState.C106_subset_view",
    "Verif.MixState.C106_Psat_pure_partial",
    "Verif.MixState.C106_Psat_polish_fails",
    "Verif.MixState.C106_to_TP_zs_fails"
   ],
   "note": "refuted: calls after an evaluation at another temperature, lowest Gibbs lnphis, subsets of arrays, polish, to_TP_zs flags"
  },
  {
   "property": "C107",
   "status": "partial",
   "theorems": [
    "Verif.MixEquil.C107_triple_root",
    "Verif.MixEquil.C107_critical",
    "Verif.MixEquil.C107_critical_jacobian",
    "Verif.MixEquil.C107_guess",
    "Verif.MixEquil.C107_trial",
    "Verif.MixEquil.C107_decision",
    "Verif.MixEquil.C107_decision_fails",
    "Verif.MixEquil.C107_unstable_partial",
    "Verif.MixEquil.C107_ratios",
    "Verif.MixEquil.C107_label_fails",
    "Verif.MixEquil.C107_unconverged_fails",
    "Verif.MixEquil.C107_bubble",
    "Verif.MixEquil.C107_dew_iterations",
    "Verif.MixEquil.C107_dew_tolerance_fails",
    "Verif.MixEquil.C107_start",
    "Verif.MixEquil.C107_start_fails",
    "Verif.MixEquil.C107_substitution",
    "Verif.MixEquil.C107_substitution_exact",
    "Verif.MixEquil.C107_objects_fails"
   ],
   "note": "decision refuted for equal labels and trivial trials; substitution returns objects of the step before"
  },
  {
   "property": "C108",
   "status": "partial",
   "theorems": [
    "Verif.Formation.C108_table",
    "Verif.Formation.C108_table_sums",
    "Verif.Formation.C108_kirchhoff",
    "Verif.Formation.C108_gibbs",
    "Verif.Formation.C108_reference_partial",
    "Verif.Formation.C108_reference_fails",
    "Verif.Formation.C108_phosphorus_fails",
    "Verif.Formation.C108_changes",
    "Verif.Formation.C108_cache_partial",
    "Verif.Formation.C108_collision_fails",
    "Verif.Formation.C108_uncached_fails",
    "Verif.Formation.C108_absolute_partial",
    "Verif.Formation.C108_absolute_fails",
    "Verif.Formation.C108_crystal_fails",
    "Verif.Formation.C108_arguments_fails",
    "Verif.Formation.C108_converter",
    "Verif.Formation.C108_adjust",
    "Verif.Formation.C108_adjust_fails",
    "Verif.Formation.C108_mixture"
   ],
   "note": "values at the reference temperature refuted for bromine and mercury; solids, hash collisions refuted"
  },
  {
   "property": "C109",
   "status": "partial",
   "theorems": [
    "Verif.RefState.C109_enthalpy",
    "Verif.RefState.C109_entropy_partial",
    "Verif.RefState.C109_vaporization_fails",
    "Verif.RefState.C109_pressure_fails",
    "Verif.RefState.C109_derivative",
    "Verif.RefState.C109_transitions",
    "Verif.RefState.C109_excess_solid",
    "Verif.RefState.C109_excess_partial",
    "Verif.RefState.C109_boiling",
    "Verif.RefState.C109_liquid_reference_fails",
    "Verif.RefState.C109_gas_reference_fails",
    "Verif.RefState.C109_melting_fails",
    "Verif.RefState.C109_thermo_partial",
    "Verif.RefState.C109_stale_fails",
    "Verif.RefState.C109_calculate_partial",
    "Verif.RefState.C109_memo_fails",
    "Verif.RefState.C109_energies"
   ],
   "note": "entropy of liquids from gas references, pressure terms, departures of references, stale attributes refuted"
  },
  {
   "property": "C110",
   "status": "partial",
   "theorems": [
    "Verif.MixtureObj.C110_accepted",
    "Verif.MixtureObj.C110_list",
    "Verif.MixtureObj.C110_dict",
    "Verif.MixtureObj.C110_name",
    "Verif.MixtureObj.C110_contradiction_fails",
    "Verif.MixtureObj.C110_of_mole",
    "Verif.MixtureObj.C110_of_mass",
    "Verif.MixtureObj.C110_round_trip",
    "Verif.MixtureObj.C110_of_volume",
    "Verif.MixtureObj.C110_Vfls",
    "Verif.MixtureObj.C110_two_phase",
    "Verif.MixtureObj.C110_flash",
    "Verif.MixtureObj.C110_per_mass",
    "Verif.MixtureObj.C110_one_phase",
    "Verif.MixtureObj.C110_failed_partial",
    "Verif.MixtureObj.C110_failed_fails",
    "Verif.MixtureObj.C110_eos_partial",
    "Verif.MixtureObj.C110_eos_fails",
    "Verif.MixtureObj.C110_rho",
    "Verif.MixtureObj.C110_rhom",
    "Verif.MixtureObj.C110_rhom_fails",
    "Verif.MixtureObj.C110_bulk_partial",
    "Verif.MixtureObj.C110_bulk_fails",
    "Verif.MixtureObj.C110_Um",
    "Verif.MixtureObj.C110_SGg_partial",
    "Verif.MixtureObj.C110_SGg_fails",
    "Verif.MixtureObj.C110_Z_STP_partial",
    "Verif.MixtureObj.C110_Z_STP_fails",
    "Verif.MixtureObj.C110_expansion_partial",
    "Verif.MixtureObj.C110_expansion_fails",
    "Verif.MixtureObj.C110_API",
    "Verif.MixtureObj.C110_nugs_fails",
    "Verif.MixtureObj.C110_combustion",
    "Verif.MixtureObj.C110_atoms",
    "Verif.MixtureObj.C110_elements",
    "Verif.MixtureObj.C110_properties_partial",
    "Verif.MixtureObj.C110_properties_fails"
   ],
   "note": "failed flashes, the shared equation of state, molar density, SGg, STP compressibilities, expansion and gas viscosities of two phases are refuted; see theorems ending in _fails"
  },
  {
   "property": "C111",
   "status": "partial",
   "theorems": [
    "Verif.Electrolyte.C111_water_viscosity",
    "Verif.Electrolyte.C111_water_density",
    "Verif.Electrolyte.C111_water_25",
    "Verif.Electrolyte.C111_no_solute",
    "Verif.Electrolyte.C111_viscosity",
    "Verif.Electrolyte.C111_density",
    "Verif.Electrolyte.C111_heat_capacity",
    "Verif.Electrolyte.C111_fit_range",
    "Verif.Electrolyte.C111_thermal_conductivity",
    "Verif.Electrolyte.C111_ionic_strength",
    "Verif.Electrolyte.C111_dilute",
    "Verif.Electrolyte.C111_mcCleskey",
    "Verif.Electrolyte.C111_Kw_1981",
    "Verif.Electrolyte.C111_Kw_gas",
    "Verif.Electrolyte.C111_Kw",
    "Verif.Electrolyte.C111_Kw_coefficients",
    "Verif.Electrolyte.C111_Kw_documented_fails",
    "Verif.Electrolyte.C111_solute",
    "Verif.Electrolyte.C111_solute_heat_capacity",
    "Verif.Electrolyte.C111_Kw_constant",
    "Verif.Electrolyte.C111_load_partial",
    "Verif.Electrolyte.C111_load_fails",
    "Verif.Electrolyte.C111_offered_viscosity",
    "Verif.Electrolyte.C111_offered_heat_capacity",
    "Verif.Electrolyte.C111_offered_partial",
    "Verif.Electrolyte.C111_offered_fails",
    "Verif.Electrolyte.C111_pop",
    "Verif.Electrolyte.C111_validity",
    "Verif.Electrolyte.C111_limits_partial",
    "Verif.Electrolyte.C111_limits_fails"
   ],
   "note": "availability of the density method, loading of the table for thermal conductivity and the upper limit are refuted"
  },
  {
   "property": "C112",
   "status": "partial",
   "theorems": [
    "Verif.Offered.C112_ranked",
    "Verif.Offered.C112_available",
    "Verif.Offered.C112_unchecked_fails",
    "Verif.Offered.C112_exact",
    "Verif.Offered.C112_sound_classes",
    "Verif.Offered.C112_conductivity_fails",
    "Verif.Offered.C112_default",
    "Verif.Offered.C112_default_partial",
    "Verif.Offered.C112_default_fails",
    "Verif.Offered.C112_zero_fails",
    "Verif.Offered.C112_nonzero_partial",
    "Verif.Offered.C112_monotone",
    "Verif.Offered.C112_no_data_partial",
    "Verif.Offered.C112_no_data_fails",
    "Verif.Offered.C112_exported_partial",
    "Verif.Offered.C112_exported_fails",
    "Verif.Offered.C112_limits_recorded",
    "Verif.Offered.C112_limits_fails",
    "Verif.Offered.C112_range_partial",
    "Verif.Offered.C112_alibakhshi",
    "Verif.Offered.C112_up_to_Tc",
    "Verif.Offered.C112_lakshmi_prasad",
    "Verif.Offered.C112_sheffy_johnson",
    "Verif.Offered.C112_aleem_partial",
    "Verif.Offered.C112_aleem_fails",
    "Verif.Offered.C112_jasper",
    "Verif.Offered.C112_jasper_kept"
   ],
   "note": "Holds with the listed unchecked arguments present; several defaults, zero values, load_data=False and limits are refuted by witnesses. Fits kept in files and piecewise names are left out."
  },
  {
   "property": "C113",
   "status": "partial",
   "theorems": [
    "Verif.PhaseChange.C113_reference",
    "Verif.PhaseChange.C113_scaling",
    "Verif.PhaseChange.C113_compose",
    "Verif.PhaseChange.C113_validity_fails",
    "Verif.PhaseChange.C113_valid_partial",
    "Verif.PhaseChange.C113_window_fails",
    "Verif.PhaseChange.C113_clapeyron_partial",
    "Verif.PhaseChange.C113_clapeyron_valid",
    "Verif.PhaseChange.C113_clapeyron_fails",
    "Verif.PhaseChange.C113_sublimation",
    "Verif.PhaseChange.C113_parallel",
    "Verif.PhaseChange.C113_mixed_fails",
    "Verif.PhaseChange.C113_psub",
    "Verif.PhaseChange.C113_boiling_critical",
    "Verif.PhaseChange.C113_reraise_fails",
    "Verif.PhaseChange.C113_ppds9_fails",
    "Verif.PhaseChange.C113_ppds9_partial",
    "Verif.PhaseChange.C113_ppds9_range",
    "Verif.PhaseChange.C113_ppds9_order_fails"
   ],
   "note": "Validity answers, Clapeyron at its upper limit, mixed heat capacities and the PPDS9 limits are refuted by witnesses; correlations of chemicals are their documented formulas."
  },
  {
   "property": "C114",
   "status": "proved",
   "theorems": [
    "Verif.VolumeObj.C114_low",
    "Verif.VolumeObj.C114_low_smooth",
    "Verif.VolumeObj.C114_low_kink_fails",
    "Verif.VolumeObj.C114_low_linear_fails",
    "Verif.VolumeObj.C114_low_positive_fails",
    "Verif.VolumeObj.C114_inorganic",
    "Verif.VolumeObj.C114_compressed",
    "Verif.VolumeObj.C114_compressed_positive_fails",
    "Verif.VolumeObj.C114_tait",
    "Verif.VolumeObj.C114_virial",
    "Verif.VolumeObj.C114_virial_positive_fails",
    "Verif.VolumeObj.C114_validity_fails",
    "Verif.VolumeObj.C114_supercritical_fails",
    "Verif.VolumeObj.C114_supercritical_partial",
    "Verif.VolumeObj.C114_supercritical_table_fails",
    "Verif.VolumeObj.C114_linear",
    "Verif.VolumeObj.C114_gas_mixture",
    "Verif.VolumeObj.C114_history",
    "Verif.VolumeObj.C114_shared_fails",
    "Verif.VolumeObj.C114_mixture_validity",
    "Verif.VolumeObj.C114_exported_fails"
   ],
   "note": ""
  },
  {
   "property": "C115",
   "status": "partial",
   "theorems": [
    "Verif.MixSecond.C115_pressure",
    "Verif.MixSecond.C115_third_partial",
    "Verif.MixSecond.C115_PR",
    "Verif.MixSecond.C115_third_fails",
    "Verif.MixSecond.C115_volume",
    "Verif.MixSecond.C115_main",
    "Verif.MixSecond.C115_more",
    "Verif.MixSecond.C115_mixing",
    "Verif.MixSecond.C115_conversion",
    "Verif.MixSecond.C115_conversion_second",
    "Verif.MixSecond.C115_volume_ns"
   ],
   "note": "third derivatives of the pressure are refuted for equations with a composition dependent epsilon and proved otherwise"
  },
  {
   "property": "C116",
   "status": "partial",
   "theorems": [
    "Verif.MixDeparture.C116_gibbs",
    "Verif.MixDeparture.C116_helmholtz",
    "Verif.MixDeparture.C116_helmholtz_fails",
    "Verif.MixDeparture.C116_departures",
    "Verif.MixDeparture.C116_volume",
    "Verif.MixDeparture.C116_coefficients",
    "Verif.MixDeparture.C116_underflow",
    "Verif.MixDeparture.C116_lnphis",
    "Verif.MixDeparture.C116_fugacities",
    "Verif.MixDeparture.C116_symmetric",
    "Verif.MixDeparture.C116_P",
    "Verif.MixDeparture.C116_T"
   ],
   "note": "C116_helmholtz_fails: the Helmholtz energy helpers divide by the square root of zero for van der Waals mixtures"
  },
  {
   "property": "C117",
   "status": "proved",
   "theorems": [
    "Verif.MixClosed.C117_PR_T",
    "Verif.MixClosed.C117_PR_P",
    "Verif.MixClosed.C117_PR_zs",
    "Verif.MixClosed.C117_gibbs_duhem",
    "Verif.MixClosed.C117_SRK_T",
    "Verif.MixClosed.C117_SRK_P",
    "Verif.MixClosed.C117_VDW_T",
    "Verif.MixClosed.C117_VDW_P",
    "Verif.MixClosed.C117_general_zs",
    "Verif.MixClosed.C117_translated_fails"
   ],
   "note": "PRMIX, SRKMIX and VDWMIX derivatives proved; the composition derivative of translated Peng-Robinson classes is refuted"
  },
  {
   "property": "C118",
   "status": "proved",
   "theorems": [
    "Verif.Phase.VirialMix.C118_symmetric",
    "Verif.Phase.VirialMix.C118_diagonal",
    "Verif.Phase.VirialMix.C118_pure_limit",
    "Verif.Phase.VirialMix.C118_state",
    "Verif.Phase.VirialMix.C118_state_equation",
    "Verif.Phase.VirialMix.C118_B_derivatives",
    "Verif.Phase.VirialMix.C118_C_derivatives",
    "Verif.Phase.VirialMix.C118_ideal",
    "Verif.Phase.VirialMix.C118_cross_model_fails",
    "Verif.Phase.VirialMix.C118_self_interaction_fails",
    "Verif.Phase.VirialMix.C118_single_component_fails"
   ],
   "note": "Correlations arbitrary. Not effective: cross models 'Zeros'; self interaction parameters break the pure limit; single component composition derivative. Second and third temperature derivatives of the third coefficient are oracles."
  },
  {
   "property": "C119",
   "status": "partial",
   "theorems": [
    "Verif.ConstPack.C119_init",
    "Verif.ConstPack.C119_lengths_fails",
    "Verif.ConstPack.C119_wf",
    "Verif.ConstPack.C119_add",
    "Verif.ConstPack.C119_add_assoc",
    "Verif.ConstPack.C119_negative",
    "Verif.ConstPack.C119_subset",
    "Verif.ConstPack.C119_slice",
    "Verif.ConstPack.C119_subset_comp",
    "Verif.ConstPack.C119_add_subset",
    "Verif.ConstPack.C119_subset_all_partial",
    "Verif.ConstPack.C119_subset_identity_fails",
    "Verif.ConstPack.C119_add_subset_fails",
    "Verif.ConstPack.C119_empty_fails",
    "Verif.ConstPack.C119_subset_named",
    "Verif.ConstPack.C119_with_new_partial",
    "Verif.ConstPack.C119_with_new_fails",
    "Verif.ConstPack.C119_index",
    "Verif.ConstPack.C119_index_order",
    "Verif.ConstPack.C119_index_fails",
    "Verif.ConstPack.C119_json",
    "Verif.ConstPack.C119_json_fails",
    "Verif.ConstPack.C119_mass",
    "Verif.ConstPack.C119_critical",
    "Verif.ConstPack.C119_standard",
    "Verif.ConstPack.C119_formation",
    "Verif.ConstPack.C119_from_IDs",
    "Verif.ConstPack.C119_exposure_fails"
   ],
   "note": "the statement is proved for all properties but the atom fractions, which subset and with_new_constants drop (C119_subset_identity_fails, C119_with_new_fails, C119_add_subset_fails); lengths, exposure limits, JSON of ceilings and lookup errors are refuted by the other _fails theorems"
  },
  {
   "property": "C120",
   "status": "partial",
   "theorems": [
    "Verif.CorrPack.C120_defaults",
    "Verif.CorrPack.C120_from_IDs",
    "Verif.CorrPack.C120_mug_fails",
    "Verif.CorrPack.C120_user_fails",
    "Verif.CorrPack.C120_add",
    "Verif.CorrPack.C120_add_skip_fails",
    "Verif.CorrPack.C120_subset",
    "Verif.CorrPack.C120_subset_fails"
   ],
   "note": "construction, references, addition and subsets are proved as the code does them; the gas viscosity reference (C120_mug_fails), user data (C120_user_fails), addition with skip_missing (C120_add_skip_fails) and subset(None) (C120_subset_fails) violate the statement"
  },
  {
   "property": "C121",
   "status": "proved",
   "theorems": [
    "Verif.OnePhase.C121_derivative",
    "Verif.OnePhase.C121_store",
    "Verif.OnePhase.C121_value",
    "Verif.OnePhase.C121_second",
    "Verif.OnePhase.C121_value_fails",
    "Verif.OnePhase.C121_unbound_fails",
    "Verif.OnePhase.C121_physical",
    "Verif.OnePhase.C121_bracket",
    "Verif.OnePhase.C121_bracket_root",
    "Verif.OnePhase.C121_upper",
    "Verif.OnePhase.C121_lower_fails",
    "Verif.OnePhase.C121_not_bounded",
    "Verif.OnePhase.C121_guess_fails",
    "Verif.OnePhase.C121_tolerance",
    "Verif.OnePhase.C121_zero_fails",
    "Verif.OnePhase.C121_ideal_gas",
    "Verif.OnePhase.C121_consistent",
    "Verif.OnePhase.C121_TV_fails"
   ],
   "note": "refutations for the claims the code violates; fluids solvers are arbitrary; Shaw and ideal-liquid guess models not modelled"
  },
  {
   "property": "C122",
   "status": "proved",
   "theorems": [
    "Verif.Identity.C122_equivalence",
    "Verif.Identity.C122_other_fails",
    "Verif.Identity.C122_eos_model",
    "Verif.Identity.C122_phase_model",
    "Verif.Identity.C122_gibbs_model",
    "Verif.Identity.C122_missing",
    "Verif.Identity.C122_covered",
    "Verif.Identity.C122_unifac_fails",
    "Verif.Identity.C122_phases",
    "Verif.Identity.C122_phases_all",
    "Verif.Identity.C122_unhashable_fails",
    "Verif.Identity.C122_caloric_fails",
    "Verif.Identity.C122_same_model",
    "Verif.Identity.C122_memo",
    "Verif.Identity.C122_stale_fails",
    "Verif.Identity.C122_state_fails",
    "Verif.Identity.C122_tdep",
    "Verif.Identity.C122_mixture_cache_fails",
    "Verif.Identity.C122_flash",
    "Verif.Identity.C122_flash_solids_fails",
    "Verif.Identity.C122_package",
    "Verif.Identity.C122_correlations_fails"
   ],
   "note": "Model hashes characterised, is_same_model correct, memo correct without assignments; negations: solids, Grayson-Streed, Chao-Seader and humid air phases cannot be hashed, and flashers skip them; UNIFAC omits group counts; liquids omit the caloric basis; correlation packages omit constants; mixture properties hash their caches; memos go stale; an object equals the integer of its hash."
  },
  {
   "property": "C123",
   "status": "partial",
   "theorems": [
    "Verif.Fits.C123_derivatives",
    "Verif.Fits.C123_value",
    "Verif.Fits.C123_interval",
    "Verif.Fits.C123_correlation_partial",
    "Verif.Fits.C123_mirrored",
    "Verif.Fits.C123_conversion_fails",
    "Verif.Fits.C123_conversion_partial",
    "Verif.Fits.C123_orders_partial",
    "Verif.Fits.C123_polynomial_fails",
    "Verif.Fits.C123_extrapolates",
    "Verif.Fits.C123_extrapolates_fails",
    "Verif.Fits.C123_transforms",
    "Verif.Fits.C123_integrals",
    "Verif.Fits.C123_integral_fails"
   ],
   "note": "stable and Chebyshev correlations in the logarithm use the mirrored argument (C123_mirrored, C123_conversion_fails), polynomial correlations have no derivatives (C123_polynomial_fails, C123_extrapolates_fails) and, except for heat capacities, no integral (C123_integral_fails)"
  },
  {
   "property": "C124",
   "status": "partial",
   "theorems": [
    "Verif.Construct.C124_lookup",
    "Verif.Construct.C124_available",
    "Verif.Construct.C124_explicit_partial",
    "Verif.Construct.C124_explicit_fails",
    "Verif.Construct.C124_fit",
    "Verif.Construct.C124_empty_fit_fails",
    "Verif.Construct.C124_user_partial",
    "Verif.Construct.C124_displaced_fails",
    "Verif.Construct.C124_kept",
    "Verif.Construct.C124_shared_dictionary_fails",
    "Verif.Construct.C124_dictionary_partial",
    "Verif.Construct.C124_repr_partial",
    "Verif.Construct.C124_repr_fails",
    "Verif.Construct.C124_as_poly_fit_partial",
    "Verif.Construct.C124_as_poly_fit_fails",
    "Verif.Construct.C124_json_partial",
    "Verif.Construct.C124_json_fails",
    "Verif.Construct.C124_add_partial",
    "Verif.Construct.C124_add_fails"
   ],
   "note": "A method asked for is active only without fits and for names that are not of one allotrope; a user's correlation is displaced by file data under the same keyword; the caller's dictionary is changed; repr loses stable and Chebyshev fits; as_poly_fit returns nothing when another method is active; JSON resets mercury to the extra method; a refused correlation stays registered. These are refuted by witnesses. Numeric limits and argument validation are not modelled."
  },
  {
   "property": "C125",
   "status": "partial",
   "theorems": [
    "Verif.ModelObj.C125_nrtl_sources",
    "Verif.ModelObj.C125_flags",
    "Verif.ModelObj.C125_other_sources",
    "Verif.ModelObj.C125_one_source",
    "Verif.ModelObj.C125_precedence_fails",
    "Verif.ModelObj.C125_nrtl_fails",
    "Verif.ModelObj.C125_size_fails",
    "Verif.ModelObj.C125_repr",
    "Verif.ModelObj.C125_missing",
    "Verif.ModelObj.C125_states",
    "Verif.ModelObj.C125_ddbst_partial",
    "Verif.ModelObj.C125_ddbst_fails",
    "Verif.ModelObj.C125_ddbst_diagonal"
   ],
   "note": "C125_ddbst_fails: the parameters e and f of the DDBST are stored in each other's place. C125_nrtl_fails: tau_coeffs without alpha_coeffs are dropped silently. C125_precedence_fails: Wilson drops all but one source. C125_size_fails: sizes are not compared with the number of components."
  },
  {
   "property": "C126",
   "status": "partial",
   "theorems": [
    "Verif.Flows.C126_ns",
    "Verif.Flows.C126_ms",
    "Verif.Flows.C126_Qls_partial",
    "Verif.Flows.C126_Qgs_partial",
    "Verif.Flows.C126_totals",
    "Verif.Flows.C126_consistent",
    "Verif.Flows.C126_energy_partial",
    "Verif.Flows.C126_energy_fails",
    "Verif.Flows.C126_mass_enthalpy_fails",
    "Verif.Flows.C126_two_flows_fails",
    "Verif.Flows.C126_VfTP_fails",
    "Verif.Flows.C126_existing_fails",
    "Verif.Flows.C126_sum_fails",
    "Verif.Flows.C126_args_partial",
    "Verif.Flows.C126_args_fails",
    "Verif.Flows.C126_state_specs_fails"
   ],
   "note": "C126_energy_fails, C126_two_flows_fails, C126_mass_enthalpy_fails: energies with volumetric flows raise TypeError, energy with enthalpy accepts two flow rates, a mass enthalpy drops the energy. C126_VfTP_fails, C126_existing_fails, C126_sum_fails, C126_args_fails, C126_state_specs_fails: reference conditions, earlier flashes, fractions that do not sum to one, conversion back to arguments, list of specifications."
  },
  {
   "property": "C127",
   "status": "partial",
   "theorems": [
    "Verif.Legacy.C127_add",
    "Verif.Legacy.C127_add_total",
    "Verif.Legacy.C127_sub_partial",
    "Verif.Legacy.C127_sub_fails",
    "Verif.Legacy.C127_phases_partial",
    "Verif.Legacy.C127_stale_fails",
    "Verif.Legacy.C127_energy_partial",
    "Verif.Legacy.C127_energy_fails",
    "Verif.Legacy.C127_flow",
    "Verif.Legacy.C127_flow_fails",
    "Verif.Legacy.C127_state_specs_fails",
    "Verif.Legacy.C127_state_specs_partial",
    "Verif.Legacy.C127_autoflash_partial",
    "Verif.Legacy.C127_autoflash_fails"
   ],
   "note": "C127_sub_fails: equal totals or a component without flow raise ZeroDivisionError. C127_stale_fails: phase flows of the state before. C127_energy_fails, C127_flow_fails: energies. C127_state_specs_fails: mass and molar names exchanged. C127_autoflash_fails: a failed construction turns off automatic flashes of all mixtures."
  },
  {
   "property": "C128",
   "status": "partial",
   "theorems": [
    "Verif.GibbsMin.C128_balance",
    "Verif.GibbsMin.C128_translated",
    "Verif.GibbsMin.C128_guess",
    "Verif.GibbsMin.C128_untranslated_fails",
    "Verif.GibbsMin.C128_objective",
    "Verif.GibbsMin.C128_real",
    "Verif.GibbsMin.C128_equal_fugacities",
    "Verif.GibbsMin.C128_result",
    "Verif.GibbsMin.C128_default_fails",
    "Verif.GibbsMin.C128_picked_partial",
    "Verif.GibbsMin.C128_picked_fails"
   ],
   "note": "C128_default_fails: all methods that use gradients raise TypeError. C128_untranslated_fails: untranslated flows can exceed the feed. C128_picked_fails: if no point was found the first flash is returned."
  },
  {
   "property": "C129",
   "status": "partial",
   "theorems": [
    "Verif.PSRK.C129_residual",
    "Verif.PSRK.C129_excess",
    "Verif.PSRK.C129_constant",
    "Verif.PSRK.C129_pure",
    "Verif.PSRK.C129_first",
    "Verif.PSRK.C129_second",
    "Verif.PSRK.C129_covolume",
    "Verif.PSRK.C129_translation_fails",
    "Verif.PSRK.C129_construct",
    "Verif.PSRK.C129_evaluate",
    "Verif.PSRK.C129_solve_T",
    "Verif.PSRK.C129_solved",
    "Verif.PSRK.C129_fast_partial",
    "Verif.PSRK.C129_fast_fails",
    "Verif.PSRK.C129_reused"
   ],
   "note": "to_TP_zs_fast at the temperature of the object raises AttributeError (C129_fast_fails); translation constants change the attraction parameter (C129_translation_fails)"
  },
  {
   "property": "C130",
   "status": "partial",
   "theorems": [
    "Verif.MixMethods.C130_ranked",
    "Verif.MixMethods.C130_ready_partial",
    "Verif.MixMethods.C130_empty_fails",
    "Verif.MixMethods.C130_volumes_fails",
    "Verif.MixMethods.C130_volume_columns_fails",
    "Verif.MixMethods.C130_load_fails",
    "Verif.MixMethods.C130_water_twice_fails",
    "Verif.MixMethods.C130_available",
    "Verif.MixMethods.C130_default",
    "Verif.MixMethods.C130_keyword",
    "Verif.MixMethods.C130_keyword_fails",
    "Verif.MixMethods.C130_none_fails",
    "Verif.MixMethods.C130_repr_partial",
    "Verif.MixMethods.C130_repr_fails",
    "Verif.MixMethods.C130_valid_partial",
    "Verif.MixMethods.C130_valid_fails",
    "Verif.MixMethods.C130_filippov_fails",
    "Verif.MixMethods.C130_Tmin",
    "Verif.MixMethods.C130_Tmax_fails",
    "Verif.MixMethods.C130_solid_limits_fails",
    "Verif.MixMethods.C130_pures",
    "Verif.MixMethods.C130_pures_fails",
    "Verif.MixMethods.C130_partial_linear",
    "Verif.MixMethods.C130_partial_sum",
    "Verif.MixMethods.C130_derivative_linear"
   ],
   "note": "omitted constants pass the length check and make an incomplete rule the default (C130_empty_fails, C130_volumes_fails); volume of solutions is offered by viscosity columns (C130_volume_columns_fails); a method for solutions invalidates all others (C130_valid_fails); upper limits are the largest (C130_Tmax_fails); further refutations C130_load_fails, C130_water_twice_fails, C130_keyword_fails, C130_none_fails, C130_repr_fails, C130_filippov_fails, C130_solid_limits_fails, C130_pures_fails"
  },
  {
   "property": "C131",
   "status": "partial",
   "theorems": [
    "Verif.MassFlows.C131_ws",
    "Verif.MassFlows.C131_mass",
    "Verif.MassFlows.C131_mass_energies",
    "Verif.MassFlows.C131_density",
    "Verif.MassFlows.C131_sound",
    "Verif.MassFlows.C131_concentrations",
    "Verif.MassFlows.C131_flows",
    "Verif.MassFlows.C131_mass_flows",
    "Verif.MassFlows.C131_reference_flows",
    "Verif.MassFlows.C131_missing_fails",
    "Verif.MassFlows.C131_bulk_partial",
    "Verif.MassFlows.C131_bulk_fails",
    "Verif.MassFlows.C131_consistency",
    "Verif.MassFlows.C131_consistency_fails",
    "Verif.MassFlows.C131_gammas",
    "Verif.MassFlows.C131_dilution_partial",
    "Verif.MassFlows.C131_dilution_fails",
    "Verif.MassFlows.C131_stored_partial",
    "Verif.MassFlows.C131_stored_fails",
    "Verif.MassFlows.C131_state_partial",
    "Verif.MassFlows.C131_state_fails"
   ],
   "note": "mass basis, concentrations, flows of single phases and the checks proved; refuted for the bulk of some phases (per mole of the whole result, mass fraction one), pure feeds at infinite dilution, integrals stored under the name of their method, solids and whole bulks as states"
  },
  {
   "property": "C132",
   "status": "partial",
   "theorems": [
    "Verif.Derivatives.C132_sides",
    "Verif.Derivatives.C132_sides_fails",
    "Verif.Derivatives.C132_derivative_partial",
    "Verif.Derivatives.C132_derivative_fails",
    "Verif.Derivatives.C132_failure_fails",
    "Verif.Derivatives.C132_outside",
    "Verif.Derivatives.C132_plotted",
    "Verif.Derivatives.C132_inrange_fails",
    "Verif.Derivatives.C132_transform",
    "Verif.Derivatives.C132_transform_fails",
    "Verif.Derivatives.C132_integral_fails",
    "Verif.Derivatives.C132_solve",
    "Verif.Derivatives.C132_start",
    "Verif.Derivatives.C132_start_fails",
    "Verif.Derivatives.C132_valid_partial",
    "Verif.Derivatives.C132_valid_fails"
   ],
   "note": "derivative proved everywhere for extrapolations joining with value and slope; refuted for constant extrapolation at the limits, failures inside the range, in_range of forms without closed derivative, the clamp in transforms, start of the search near zero, and user methods in valid_methods"
  },
  {
   "property": "C133",
   "status": "partial",
   "theorems": [
    "Verif.MixConstruct.C133_attraction",
    "Verif.MixConstruct.C133_translation",
    "Verif.MixConstruct.C133_pure",
    "Verif.MixConstruct.C133_single",
    "Verif.MixConstruct.C133_pure_fails",
    "Verif.MixConstruct.C133_fast_partial",
    "Verif.MixConstruct.C133_fast_fails",
    "Verif.MixConstruct.C133_limit_fails",
    "Verif.MixConstruct.C133_rebuild_partial",
    "Verif.MixConstruct.C133_rebuild_fails",
    "Verif.MixConstruct.C133_reloaded",
    "Verif.MixConstruct.C133_reloaded_partial",
    "Verif.MixConstruct.C133_reloaded_fails",
    "Verif.MixConstruct.C133_subset_partial",
    "Verif.MixConstruct.C133_subset_fails",
    "Verif.MixConstruct.C133_covolume",
    "Verif.MixConstruct.C133_covolume_fails",
    "Verif.MixConstruct.C133_kappa78",
    "Verif.MixConstruct.C133_specified",
    "Verif.MixConstruct.C133_error_partial",
    "Verif.MixConstruct.C133_error_fails"
   ],
   "note": "APISRKMIX loses its interaction parameters when built again and cannot be restricted to some components; PRSVMIX with a limit on its first parameter keeps it removed after copying and reloading and depends on the specification; PRSV2MIX raises a TypeError without temperature; classes without acentric factors cannot give pure components; the slope of PR78 jumps"
  },
  {
   "property": "C134",
   "status": "partial",
   "theorems": [
    "Verif.CaloricFlash.C134_bounds_order",
    "Verif.CaloricFlash.C134_PH",
    "Verif.CaloricFlash.C134_PH_answered",
    "Verif.CaloricFlash.C134_PH_mixture_fails",
    "Verif.CaloricFlash.C134_PH_bounds",
    "Verif.CaloricFlash.C134_PS_partial",
    "Verif.CaloricFlash.C134_PS_fails",
    "Verif.CaloricFlash.C134_PS_answered",
    "Verif.CaloricFlash.C134_PS_bounds",
    "Verif.CaloricFlash.C134_TS_partial",
    "Verif.CaloricFlash.C134_TS_bounds",
    "Verif.CaloricFlash.C134_TS_answered",
    "Verif.CaloricFlash.C134_TS_fails",
    "Verif.CaloricFlash.C134_priority",
    "Verif.CaloricFlash.C134_overspecified_fails",
    "Verif.CaloricFlash.C134_unsupported",
    "Verif.CaloricFlash.C134_searches",
    "Verif.CaloricFlash.C134_pairs",
    "Verif.CaloricFlash.C134_failure",
    "Verif.CaloricFlash.C134_composition_fails",
    "Verif.CaloricFlash.C134_type_error"
   ],
   "note": "For mixtures the entropy of the result is the requested one only where entropy is continuous (C134_PS_partial, C134_TS_partial): nothing is checked at a jump (C134_PS_fails, C134_TS_fails), and with enthalpy an unset name is read (C134_PH_mixture_fails). Inputs beyond two are ignored (C134_overspecified_fails); the composition of the previous flash stays after a failure (C134_composition_fails)."
  },
  {
   "property": "C135",
   "status": "partial",
   "theorems": [
    "Verif.UnifacObject.C135_values",
    "Verif.UnifacObject.C135_history_partial",
    "Verif.UnifacObject.C135_never_stale",
    "Verif.UnifacObject.C135_copy_partial",
    "Verif.UnifacObject.C135_third_fails",
    "Verif.UnifacObject.C135_third_history_fails",
    "Verif.UnifacObject.C135_modified_fails",
    "Verif.UnifacObject.C135_group_list",
    "Verif.UnifacObject.C135_known",
    "Verif.UnifacObject.C135_built",
    "Verif.UnifacObject.C135_order",
    "Verif.UnifacObject.C135_components",
    "Verif.UnifacObject.C135_psi",
    "Verif.UnifacObject.C135_indexes",
    "Verif.UnifacObject.C135_empty_component"
   ],
   "note": "A new object cannot give the third temperature derivative of its logarithmic activity coefficients (method not called, line 7739), and a copy at the same temperature can lose the third derivative of the excess Gibbs energy; terms with the power of the volumes raise outside versions 1 and 4."
  },
  {
   "property": "C136",
   "status": "partial",
   "theorems": [
    "Verif.Getters.C136_atom_mass",
    "Verif.Getters.C136_mass_conserved",
    "Verif.Getters.C136_flows",
    "Verif.Getters.C136_element",
    "Verif.Getters.C136_component",
    "Verif.Getters.C136_cas",
    "Verif.Getters.C136_pseudo",
    "Verif.Getters.C136_gas_reference",
    "Verif.Getters.C136_heating",
    "Verif.Getters.C136_wobbe",
    "Verif.Getters.C136_SG",
    "Verif.Getters.C136_SG_fails",
    "Verif.Getters.C136_API",
    "Verif.Getters.C136_reference",
    "Verif.Getters.C136_Ks",
    "Verif.Getters.C136_value_partial",
    "Verif.Getters.C136_value_fails",
    "Verif.Getters.C136_phase_value",
    "Verif.Getters.C136_tables_partial",
    "Verif.Getters.C136_getters_fails",
    "Verif.Getters.C136_phase_flow"
   ],
   "note": "eight generated names unusable, value(name, phase) wrong for non-phase lists, SG not volume additive: proved with witnesses"
  },
  {
   "property": "C137",
   "status": "proved",
   "theorems": [
    "Verif.HelmGas.C137_derivatives",
    "Verif.HelmGas.C137_caloric",
    "Verif.HelmGas.C137_integral",
    "Verif.HelmGas.C137_integral_over_T",
    "Verif.HelmGas.C137_Cp",
    "Verif.HelmGas.C137_bounds",
    "Verif.HelmGas.C137_generalized",
    "Verif.HelmGas.C137_entropy_fails",
    "Verif.HelmGas.C137_convert_partial",
    "Verif.HelmGas.C137_doubled",
    "Verif.HelmGas.C137_convert_fails",
    "Verif.HelmGas.C137_mutation_fails",
    "Verif.HelmGas.C137_call",
    "Verif.HelmGas.C137_limits"
   ],
   "note": "The negations (entropy as antiderivative of Cp/T, repeated JSON entries, mutated argument) are proved with witnesses; the conversion theorem is partial, it covers descriptions without repeated kinds."
  },
  {
   "property": "C138",
   "status": "partial",
   "theorems": [
    "Verif.PhaseStates.C138_ideal",
    "Verif.PhaseStates.C138_air",
    "Verif.PhaseStates.C138_water",
    "Verif.PhaseStates.C138_reduced",
    "Verif.PhaseStates.C138_roundtrip",
    "Verif.PhaseStates.C138_virial",
    "Verif.PhaseStates.C138_two_partial",
    "Verif.PhaseStates.C138_surface",
    "Verif.PhaseStates.C138_underspecified_fails",
    "Verif.PhaseStates.C138_overspecified",
    "Verif.PhaseStates.C138_default_fails",
    "Verif.PhaseStates.C138_call",
    "Verif.PhaseStates.C138_fetch",
    "Verif.PhaseStates.C138_lru",
    "Verif.PhaseStates.C138_alias_fails",
    "Verif.PhaseStates.C138_fallback_fails",
    "Verif.PhaseStates.C138_composition_fails",
    "Verif.PhaseStates.C138_constants_fails",
    "Verif.PhaseStates.C138_key",
    "Verif.PhaseStates.C138_from_AS_fails"
   ],
   "note": "Honoured specifications, reduced variables, round trip and the cache (invariant, exact LRU, history independence) proved; underspecified calls, aliasing, phase fallback, constants flag and from_AS shown to fail."
  },
  {
   "property": "C139",
   "status": "partial",
   "theorems": [
    "Verif.SatDrivers.C139_solve_T",
    "Verif.SatDrivers.C139_nearest",
    "Verif.SatDrivers.C139_two_roots",
    "Verif.SatDrivers.C139_second_fails",
    "Verif.SatDrivers.C139_f0_fails",
    "Verif.SatDrivers.C139_first",
    "Verif.SatDrivers.C139_Psat_partial",
    "Verif.SatDrivers.C139_newton_fails",
    "Verif.SatDrivers.C139_Psat_complete",
    "Verif.SatDrivers.C139_bracket",
    "Verif.SatDrivers.C139_step",
    "Verif.SatDrivers.C139_Psat",
    "Verif.SatDrivers.C139_guess",
    "Verif.SatDrivers.C139_Tsat",
    "Verif.SatDrivers.C139_Tsat_complete",
    "Verif.SatDrivers.C139_Tsat_fails",
    "Verif.SatDrivers.C139_Tsat_bounds"
   ],
   "note": "Soundness, choice of solution and completeness of the drivers proved for solvers within their contracts; unchecked Newton results, the dead branch for the second solution and the wrong residual shown to fail."
  },
  {
   "property": "C140",
   "status": "partial",
   "theorems": [
    "Verif.Direct.C140_dispatch",
    "Verif.Direct.C140_PSRK_fails",
    "Verif.Direct.C140_activity",
    "Verif.Direct.C140_flory_fails",
    "Verif.Direct.C140_values",
    "Verif.Direct.C140_buffer_cubic",
    "Verif.Direct.C140_buffer_fails",
    "Verif.Direct.C140_most_stable_fails",
    "Verif.Direct.C140_humid_B",
    "Verif.Direct.C140_humid_C_fails",
    "Verif.Direct.C140_humid_C_partial",
    "Verif.Direct.C140_humid",
    "Verif.Direct.C140_state",
    "Verif.Direct.C140_state_errors",
    "Verif.Direct.C140_guess"
   ],
   "note": "PSRK is not dispatched, Flory-Huggins and Hansen go to the regular solution, lists of activity models are shared between calls, and the third virial coefficient of humid air lacks a power of the mole fraction; these are proved as counter-examples."
  },
  {
   "property": "C141",
   "status": "partial",
   "theorems": [
    "Verif.MixDrivers.C141_point",
    "Verif.MixDrivers.C141_point_fails",
    "Verif.MixDrivers.C141_mix",
    "Verif.MixDrivers.C141_residual",
    "Verif.MixDrivers.C141_gibbs",
    "Verif.MixDrivers.C141_mixing",
    "Verif.MixDrivers.C141_mixing_fails",
    "Verif.MixDrivers.C141_allowed",
    "Verif.MixDrivers.C141_wilson",
    "Verif.MixDrivers.C141_solution_fails",
    "Verif.MixDrivers.C141_spec_fun_fails",
    "Verif.MixDrivers.C141_energy",
    "Verif.MixDrivers.C141_VF",
    "Verif.MixDrivers.C141_fraction_fails",
    "Verif.MixDrivers.C141_stability",
    "Verif.MixDrivers.C141_unstable_fails",
    "Verif.MixDrivers.C141_secant",
    "Verif.MixDrivers.C141_newton_step",
    "Verif.MixDrivers.C141_damping_fails",
    "Verif.MixDrivers.C141_repair",
    "Verif.MixDrivers.C141_converged",
    "Verif.MixDrivers.C141_trivial_fails",
    "Verif.MixDrivers.C141_first_fails",
    "Verif.MixDrivers.C141_simultaneous_partial",
    "Verif.MixDrivers.C141_incipient_side",
    "Verif.MixDrivers.C141_tolerance"
   ],
   "note": "The claim fails for temperature-volume variables, for the choice of high or low solutions, for fractions between zero and one with several liquids, for stability at given temperature and for damped secant steps; these are proved as counter-examples. The numerical solvers are parameters."
  },
  {
   "property": "C142",
   "status": "partial",
   "theorems": [
    "Verif.Derived.C142_mass",
    "Verif.Derived.C142_stable",
    "Verif.Derived.C142_mass_fails",
    "Verif.Derived.C142_combustion_partial",
    "Verif.Derived.C142_combustion_fails",
    "Verif.Derived.C142_gibbs",
    "Verif.Derived.C142_gas",
    "Verif.Derived.C142_solid_fails",
    "Verif.Derived.C142_critical",
    "Verif.Derived.C142_vaporization_partial",
    "Verif.Derived.C142_vaporization_fails",
    "Verif.Derived.C142_densities",
    "Verif.Derived.C142_triple",
    "Verif.Derived.C142_triple_fails",
    "Verif.Derived.C142_solid_volume_fails",
    "Verif.Derived.C142_databases",
    "Verif.Derived.C142_lock",
    "Verif.Derived.C142_context_partial",
    "Verif.Derived.C142_context_fails",
    "Verif.Derived.C142_unreadable_fails",
    "Verif.Derived.C142_alias_fails",
    "Verif.Derived.C142_marshal_fails",
    "Verif.Derived.C142_columns_fails",
    "Verif.Derived.C142_average",
    "Verif.Derived.C142_eos_pures",
    "Verif.Derived.C142_speed"
   ],
   "note": "`C142_mass_fails`, `C142_combustion_fails`, `C142_solid_fails`, `C142_vaporization_fails`, `C142_triple_fails`, `C142_solid_volume_fails`, `C142_context_fails`, `C142_unreadable_fails`, `C142_alias_fails`, `C142_marshal_fails` and `C142_columns_fails` refute parts; data tables and property objects by contract"
  },
  {
   "property": "C143",
   "status": "partial",
   "theorems": [
    "Verif.Setup.C143_phases",
    "Verif.Setup.C143_flags",
    "Verif.Setup.C143_exclusive",
    "Verif.Setup.C143_make_fails",
    "Verif.Setup.C143_make_partial",
    "Verif.Setup.C143_ideal_fails",
    "Verif.Setup.C143_finish",
    "Verif.Setup.C143_refused_fails",
    "Verif.Setup.C143_missing_fails",
    "Verif.Setup.C143_branches",
    "Verif.Setup.C143_guess",
    "Verif.Setup.C143_saturation_partial",
    "Verif.Setup.C143_round_trip_partial",
    "Verif.Setup.C143_round_trip_fails",
    "Verif.Setup.C143_supercritical_fails",
    "Verif.Setup.C143_melting_guess_fails",
    "Verif.Setup.C143_range_partial",
    "Verif.Setup.C143_range_values",
    "Verif.Setup.C143_helium_fails",
    "Verif.Setup.C143_points",
    "Verif.Setup.C143_volumes_fails",
    "Verif.Setup.C143_volumes_partial",
    "Verif.Setup.C143_covolume_fails",
    "Verif.Setup.C143_grid_partial",
    "Verif.Setup.C143_grid_order",
    "Verif.Setup.C143_grid_fails",
    "Verif.Setup.C143_solid_grid_fails",
    "Verif.Setup.C143_reference_volumes",
    "Verif.Setup.C143_water"
   ],
   "note": "Proved for phases, flags, checks, points and small properties; saturation and its inversion are partial (critical point of activity liquids, correlation of the liquid), ranges for fluids above 6 K, grids in the order of the variables; the failures are proved as counter-examples."
  },
  {
   "property": "C144",
   "status": "proved",
   "theorems": [
    "Verif.Counts.C144_attached",
    "Verif.Counts.C144_attached_bounds",
    "Verif.Counts.C144_spiro_fails",
    "Verif.Counts.C144_ring_atoms_partial",
    "Verif.Counts.C144_ring_atoms_fails",
    "Verif.Counts.C144_conjugated",
    "Verif.Counts.C144_conjugated_count",
    "Verif.Counts.C144_trans_none",
    "Verif.Counts.C144_cis_trans_fails",
    "Verif.Counts.C144_free_fails",
    "Verif.Counts.C144_methylene",
    "Verif.Counts.C144_near_acid",
    "Verif.Counts.C144_bondi",
    "Verif.Counts.C144_fragments",
    "Verif.Counts.C144_names",
    "Verif.Counts.C144_version",
    "Verif.Counts.C144_organic",
    "Verif.Counts.C144_organic_fails",
    "Verif.Counts.C144_tsonopoulos",
    "Verif.Counts.C144_tsonopoulos_values",
    "Verif.Counts.C144_spelling_fails",
    "Verif.Counts.C144_halides_fails"
   ],
   "note": "Ring atoms are partial: requested counts of zero find nothing. Counter-examples are proved separately."
  },
  {
   "property": "C145",
   "status": "partial",
   "theorems": [
    "Verif.Fitting.C145_folds",
    "Verif.Fitting.C145_seed_fails",
    "Verif.Fitting.C145_assemble",
    "Verif.Fitting.C145_criteria_partial",
    "Verif.Fitting.C145_criteria_values",
    "Verif.Fitting.C145_criteria_fails",
    "Verif.Fitting.C145_wrapped",
    "Verif.Fitting.C145_coefficients",
    "Verif.Fitting.C145_coefficients_fails",
    "Verif.Fitting.C145_statistics_partial",
    "Verif.Fitting.C145_statistics_fails",
    "Verif.Fitting.C145_deviations",
    "Verif.Fitting.C145_deviations_fails",
    "Verif.Fitting.C145_deviation_values",
    "Verif.Fitting.C145_worst",
    "Verif.Fitting.C145_select",
    "Verif.Fitting.C145_select_criterion",
    "Verif.Fitting.C145_auto",
    "Verif.Fitting.C145_auto_fails",
    "Verif.Fitting.C145_twu_derivatives",
    "Verif.Fitting.C145_twu_sound",
    "Verif.Fitting.C145_twu_complete_partial",
    "Verif.Fitting.C145_twu_fails",
    "Verif.Fitting.C145_penalties",
    "Verif.Fitting.C145_poly_check",
    "Verif.Fitting.C145_start_fails",
    "Verif.Fitting.C145_best",
    "Verif.Fitting.C145_restart_fails"
   ],
   "note": "criteria need more points than parameters, statistics an ordered range, completeness of the check of Twu's function a decreasing exponential; counter-examples are proved"
  },
  {
   "property": "C146",
   "status": "partial",
   "theorems": [
    "Verif.FitModel.C146_arguments",
    "Verif.FitModel.C146_models",
    "Verif.FitModel.C146_order_fails",
    "Verif.FitModel.C146_jacobian",
    "Verif.FitModel.C146_fitted",
    "Verif.FitModel.C146_few_points",
    "Verif.FitModel.C146_required",
    "Verif.FitModel.C146_result_partial",
    "Verif.FitModel.C146_default_fails",
    "Verif.FitModel.C146_candidates",
    "Verif.FitModel.C146_count_partial",
    "Verif.FitModel.C146_count_fails",
    "Verif.FitModel.C146_overfit_fails",
    "Verif.FitModel.C146_no_candidates_fails",
    "Verif.FitModel.C146_select",
    "Verif.FitModel.C146_both",
    "Verif.FitModel.C146_three",
    "Verif.FitModel.C146_two_fails",
    "Verif.FitModel.C146_folds_fails",
    "Verif.FitModel.C146_folds",
    "Verif.FitModel.C146_choice_fails",
    "Verif.FitModel.C146_start",
    "Verif.FitModel.C146_ordered",
    "Verif.FitModel.C146_tries",
    "Verif.FitModel.C146_stop",
    "Verif.FitModel.C146_guess_fails",
    "Verif.FitModel.C146_bounds_partial",
    "Verif.FitModel.C146_bounds_values",
    "Verif.FitModel.C146_bounds_fails",
    "Verif.FitModel.C146_bounds_once_fails",
    "Verif.FitModel.C146_maxfev_fails"
   ],
   "note": "Results need defaults of 0, counts only physical constants given and enough points, bounds more than three guesses; counter-examples are proved"
  },
  {
   "property": "C147",
   "status": "partial",
   "theorems": [
    "Verif.VolumeResult.C147_polish",
    "Verif.VolumeResult.C147_polish_step",
    "Verif.VolumeResult.C147_stuck_fails",
    "Verif.VolumeResult.C147_pole_fails",
    "Verif.VolumeResult.C147_complete",
    "Verif.VolumeResult.C147_dropped_fails",
    "Verif.VolumeResult.C147_first",
    "Verif.VolumeResult.C147_last_fails",
    "Verif.VolumeResult.C147_covolume_fails",
    "Verif.VolumeResult.C147_horner",
    "Verif.VolumeResult.C147_nr",
    "Verif.VolumeResult.C147_after",
    "Verif.VolumeResult.C147_third_fails",
    "Verif.VolumeResult.C147_low_gas",
    "Verif.VolumeResult.C147_low_liquid_partial",
    "Verif.VolumeResult.C147_low_liquid_fails",
    "Verif.VolumeResult.C147_low_far_fails",
    "Verif.VolumeResult.C147_bracketed"
   ],
   "note": "Deflation returns all volumes if the first is exact, exact volumes are kept by polishing and by Newton's method, origin of the first volume. Fails: vapor with negligible attraction hides liquid volumes, a zero denominator of Halley's step or a pole is returned by polishing, convergence in the last iteration is discarded, a zero covolume term divides by zero, third tries accept errors of five thousand times the pressure, liquids at low pressure are not tested and are lost above one and a half covolumes. Convergence itself is not proved."
  },
  {
   "property": "C148",
   "status": "proved",
   "theorems": [
    "Verif.CpPieces.C148_fresh",
    "Verif.CpPieces.C148_gas",
    "Verif.CpPieces.C148_liquid",
    "Verif.CpPieces.C148_order_fails",
    "Verif.CpPieces.C148_nested_fails",
    "Verif.CpPieces.C148_covered",
    "Verif.CpPieces.C148_gap_fails",
    "Verif.CpPieces.C148_printed",
    "Verif.CpPieces.C148_sixth_fails",
    "Verif.CpPieces.C148_joback",
    "Verif.CpPieces.C148_joback_fails",
    "Verif.CpPieces.C148_export",
    "Verif.CpPieces.C148_export_fails",
    "Verif.CpPieces.C148_export_empty",
    "Verif.CpPieces.C148_limits",
    "Verif.CpPieces.C148_limits_fails"
   ],
   "note": "Proved for pieces apart (acceptance), meeting (covering), up to five (printing) and exported methods other than piecewise over tables; the other cases are refuted by witnesses."
  },
  {
   "property": "C149",
   "status": "proved",
   "theorems": [
    "Verif.Regress.C149_residual",
    "Verif.Regress.C149_mismatch",
    "Verif.Regress.C149_wilson",
    "Verif.Regress.C149_nrtl",
    "Verif.Regress.C149_uniquac",
    "Verif.Regress.C149_regular",
    "Verif.Regress.C149_second_ignored",
    "Verif.Regress.C149_clamped_fails",
    "Verif.Regress.C149_sum_fails",
    "Verif.Regress.C149_exchange",
    "Verif.Regress.C149_guesses",
    "Verif.Regress.C149_symmetric_nrtl",
    "Verif.Regress.C149_symmetric_regular",
    "Verif.Regress.C149_other_method",
    "Verif.Regress.C149_other_method_fails",
    "Verif.Regress.C149_columns"
   ],
   "note": "Proved for Wilson, NRTL, UNIQUAC (strictly between pure components) and the regular solution (one direction, below the cap of 1e10); clamped parameters, indistinguishable parameters and other fitting methods are refuted."
  },
  {
   "property": "C150",
   "status": "partial",
   "theorems": [
    "Verif.Arrays.C150_writable",
    "Verif.Arrays.C150_list_of_arrays_fails",
    "Verif.Arrays.C150_fields",
    "Verif.Arrays.C150_unchanged",
    "Verif.Arrays.C150_idempotent",
    "Verif.Arrays.C150_round_trip_partial",
    "Verif.Arrays.C150_list_fails",
    "Verif.Arrays.C150_mixed_fails",
    "Verif.Arrays.C150_missing",
    "Verif.Arrays.C150_type_fails",
    "Verif.Arrays.C150_tuple",
    "Verif.Arrays.C150_tuple_fails",
    "Verif.Arrays.C150_uneven_fails",
    "Verif.Arrays.C150_references",
    "Verif.Arrays.C150_references_fails",
    "Verif.Arrays.C150_single",
    "Verif.Arrays.C150_other",
    "Verif.Arrays.C150_option",
    "Verif.Arrays.C150_option_fails"
   ],
   "note": "Round trip proved for dictionaries of primitive values and proper arrays and for tuples of arrays of different lengths; refuted for lists of arrays, plain lists, mixed and empty element types, tuples of equal lengths, lists of objects in vectorized objects and nested recalculable fields."
  },
  {
   "property": "C151",
   "status": "partial",
   "theorems": [
    "Verif.Sheets.C151_frame",
    "Verif.Sheets.C151_columns",
    "Verif.Sheets.C151_joule_thomson_fails",
    "Verif.Sheets.C151_temperatures",
    "Verif.Sheets.C151_range_partial",
    "Verif.Sheets.C151_given",
    "Verif.Sheets.C151_range_fails",
    "Verif.Sheets.C151_names",
    "Verif.Sheets.C151_rows",
    "Verif.Sheets.C151_same_name_fails",
    "Verif.Sheets.C151_heats",
    "Verif.Sheets.C151_formation_fails",
    "Verif.Sheets.C151_streams",
    "Verif.Sheets.C151_total",
    "Verif.Sheets.C151_streams_fails",
    "Verif.Sheets.C151_combined",
    "Verif.Sheets.C151_total_status",
    "Verif.Sheets.C151_tsca",
    "Verif.Sheets.C151_methods",
    "Verif.Sheets.C151_load",
    "Verif.Sheets.C151_load_again",
    "Verif.Sheets.C151_load_fails",
    "Verif.Sheets.C151_bands",
    "Verif.Sheets.C151_economic",
    "Verif.Sheets.C151_oecd_fails",
    "Verif.Sheets.C151_copied",
    "Verif.Sheets.C151_shared_fails"
   ],
   "note": "Default ranges proved for known melting and critical points; refuted: Joule-Thomson column of liquids, unit of the heat of formation, limits of zero and unknown melting points, equal names and CAS numbers, interrupted loading, the OECD answer and the shared list of bands."
  },
  {
   "property": "C152",
   "status": "partial",
   "theorems": [
    "Verif.Exports.C152_stored",
    "Verif.Exports.C152_complete",
    "Verif.Exports.C152_half_added_fails",
    "Verif.Exports.C152_not_selectable_fails",
    "Verif.Exports.C152_selection",
    "Verif.Exports.C152_temperature",
    "Verif.Exports.C152_method_lost_fails",
    "Verif.Exports.C152_inverse",
    "Verif.Exports.C152_onto",
    "Verif.Exports.C152_critical_fails",
    "Verif.Exports.C152_exact",
    "Verif.Exports.C152_interpolation_fails",
    "Verif.Exports.C152_from_method",
    "Verif.Exports.C152_data_limits",
    "Verif.Exports.C152_max_error",
    "Verif.Exports.C152_saved",
    "Verif.Exports.C152_single",
    "Verif.Exports.C152_unsaved_fails",
    "Verif.Exports.C152_tait",
    "Verif.Exports.C152_tait_critical"
   ],
   "note": "holds for storing, selection, inverse transformations below the critical temperature and saved exports; refuted: a pressure correlation cannot be selected for pressures and displaces the method for temperatures, an incomplete one stays selected, the form `interpolation` raises for classes without a transformation of temperature, all temperatures from the critical one on coincide, exports without saving return nothing"
  },
  {
   "property": "C153",
   "status": "partial",
   "theorems": [
    "Verif.Priority.C153_atoms",
    "Verif.Priority.C153_bonds",
    "Verif.Priority.C153_monotone",
    "Verif.Priority.C153_bromine_fails",
    "Verif.Priority.C153_triple_fails",
    "Verif.Priority.C153_given",
    "Verif.Priority.C153_hydrogen_bromide_fails",
    "Verif.Priority.C153_readable",
    "Verif.Priority.C153_unreadable_fails"
   ],
   "note": "weighted sum and monotonicity hold for H, C, O, N, Si, S, Cl, F and the named bonds; refuted: other elements do not count, so hydrogen bromide goes after bromine; a plain `triple` does not count; an unreadable text makes the callers raise"
  },
  {
   "property": "C154",
   "status": "partial",
   "theorems": [
    "Verif.Repr.C154_recreated",
    "Verif.Repr.C154_all_printed",
    "Verif.Repr.C154_unprinted_lost",
    "Verif.Repr.C154_bare_lost",
    "Verif.Repr.C154_ideal_gas",
    "Verif.Repr.C154_ceos_phase",
    "Verif.Repr.C154_ceos_fails",
    "Verif.Repr.C154_virial",
    "Verif.Repr.C154_virial_fails",
    "Verif.Repr.C154_gibbs_unprinted_fails",
    "Verif.Repr.C154_gibbs_basis_fails",
    "Verif.Repr.C154_gibbs",
    "Verif.Repr.C154_solid_fails",
    "Verif.Repr.C154_iapws_gas",
    "Verif.Repr.C154_iapws_fails",
    "Verif.Repr.C154_air_pressure_fails",
    "Verif.Repr.C154_equilibrium_fails",
    "Verif.Repr.C154_equilibrium",
    "Verif.Repr.C154_flash_pure",
    "Verif.Repr.C154_stream_args_fails",
    "Verif.Repr.C154_bulk",
    "Verif.Repr.C154_small",
    "Verif.Repr.C154_entropies",
    "Verif.Repr.C154_constants",
    "Verif.Repr.C154_text",
    "Verif.Repr.C154_text_empty_fails",
    "Verif.Repr.C154_text_delimiter_fails",
    "Verif.Repr.C154_text_phase",
    "Verif.Repr.C154_text_correlations"
   ],
   "note": "exact conditions proved for each class; refuted for solids, IAPWS95, StreamArgs, cubic and virial phases without heat capacities, and for unprinted or unquoted arguments of GibbsExcessLiquid"
  },
  {
   "property": "C155",
   "status": "partial",
   "theorems": [
    "Verif.Ownership.C155_fractions",
    "Verif.Ownership.C155_gas",
    "Verif.Ownership.C155_kinds",
    "Verif.Ownership.C155_solid_fails",
    "Verif.Ownership.C155_others",
    "Verif.Ownership.C155_reading",
    "Verif.Ownership.C155_run",
    "Verif.Ownership.C155_total",
    "Verif.Ownership.C155_from_state",
    "Verif.Ownership.C155_stale_fails",
    "Verif.Ownership.C155_taken_fails"
   ],
   "note": "proved for all runs in which no phase with a stored flow is put into another result; refuted otherwise (stale and taken flows) and for the kind of solids"
  },
  {
   "property": "C156",
   "status": "proved",
   "theorems": [
    "Verif.HenryLaw.C156_joint",
    "Verif.HenryLaw.C156_separate",
    "Verif.HenryLaw.C156_exclusive",
    "Verif.HenryLaw.C156_documented_fails",
    "Verif.HenryLaw.C156_documented_six_fails",
    "Verif.HenryLaw.C156_mode",
    "Verif.HenryLaw.C156_components",
    "Verif.HenryLaw.C156_matrix",
    "Verif.HenryLaw.C156_derivatives",
    "Verif.HenryLaw.C156_ratio",
    "Verif.HenryLaw.C156_between",
    "Verif.HenryLaw.C156_one_solvent",
    "Verif.HenryLaw.C156_proportions",
    "Verif.HenryLaw.C156_rules",
    "Verif.HenryLaw.C156_missing_fails",
    "Verif.HenryLaw.C156_stored",
    "Verif.HenryLaw.C156_retry_ratio",
    "Verif.HenryLaw.C156_retry_fails"
   ],
   "note": "The documented form of henry_abcdef (six matrices) raises with fewer than six components and is misread with six; a solvent without parameters counts as one with a constant of 1 Pa under the default rule; a failed call for vapor pressures leaves part of the list stored, which the next call returns."
  },
  {
   "property": "C157",
   "status": "partial",
   "theorems": [
    "Verif.Tables.C157_between",
    "Verif.Tables.C157_points",
    "Verif.Tables.C157_beyond",
    "Verif.Tables.C157_affine",
    "Verif.Tables.C157_accepted",
    "Verif.Tables.C157_table_large",
    "Verif.Tables.C157_table_small",
    "Verif.Tables.C157_inverse_fails",
    "Verif.Tables.C157_vapor_pressure_fails",
    "Verif.Tables.C157_repeated_fails",
    "Verif.Tables.C157_grid_partial",
    "Verif.Tables.C157_grid_large_fails",
    "Verif.Tables.C157_border_fails",
    "Verif.Tables.C157_names",
    "Verif.Tables.C157_names_fails"
   ],
   "note": "Linear interpolation with increasing coordinates and tables of five or more points return their data. Fails for three or four points with inverse temperature (vapor pressure, liquid viscosity), grids of five or more pressures, borders of grids and unnamed pressure tables."
  },
  {
   "property": "C158",
   "status": "partial",
   "theorems": [
    "Verif.Containers.C158_fugacities",
    "Verif.Containers.C158_rk",
    "Verif.Containers.C158_pr",
    "Verif.Containers.C158_srk",
    "Verif.Containers.C158_mark",
    "Verif.Containers.C158_mixed_fails",
    "Verif.Containers.C158_consistent_partial",
    "Verif.Containers.C158_consistent_fails",
    "Verif.Containers.C158_covolume",
    "Verif.Containers.C158_attraction",
    "Verif.Containers.C158_asymmetric_fails",
    "Verif.Containers.C158_third_partial",
    "Verif.Containers.C158_third_fails"
   ],
   "note": "Parameters agree whenever a mixture is made. Fails: mixed containers are accepted by some classes only, consistent classes with arrays and default translations raise, asymmetric interaction parameters, the third derivative of the attraction of mixtures."
  },
  {
   "property": "C159",
   "status": "partial",
   "theorems": [
    "Verif.VaporFraction.C159_slopes",
    "Verif.VaporFraction.C159_critical",
    "Verif.VaporFraction.C159_sound",
    "Verif.VaporFraction.C159_cut",
    "Verif.VaporFraction.C159_extreme_partial",
    "Verif.VaporFraction.C159_high_fails",
    "Verif.VaporFraction.C159_second_turn_fails",
    "Verif.VaporFraction.C159_extremum_fails",
    "Verif.VaporFraction.C159_unspecified_fails",
    "Verif.VaporFraction.C159_guess",
    "Verif.VaporFraction.C159_zero_fails",
    "Verif.VaporFraction.C159_extremum",
    "Verif.VaporFraction.C159_stale_fails",
    "Verif.VaporFraction.C159_result",
    "Verif.VaporFraction.C159_answered",
    "Verif.VaporFraction.C159_once"
   ],
   "note": "Soundness of the interval, the result and the counts are proved; the highest and lowest solution only without extrema inside an interval. Refuted: the highest solution with a turn elsewhere, a second turn, values equal to an extremum, no request, slopes of zero, values of the evaluation before."
  },
  {
   "property": "C160",
   "status": "partial",
   "theorems": [
    "Verif.CriticalPoint.C160_guess",
    "Verif.CriticalPoint.C160_guess_fails",
    "Verif.CriticalPoint.C160_equations",
    "Verif.CriticalPoint.C160_density",
    "Verif.CriticalPoint.C160_ideal",
    "Verif.CriticalPoint.C160_order",
    "Verif.CriticalPoint.C160_failure",
    "Verif.CriticalPoint.C160_phase_partial",
    "Verif.CriticalPoint.C160_last_fails",
    "Verif.CriticalPoint.C160_ceos",
    "Verif.CriticalPoint.C160_tolerance_fails",
    "Verif.CriticalPoint.C160_raises",
    "Verif.CriticalPoint.C160_second_fails",
    "Verif.CriticalPoint.C160_half_fails",
    "Verif.CriticalPoint.C160_bulk",
    "Verif.CriticalPoint.C160_bulk_fails"
   ],
   "note": "An iteration that calls the function elsewhere after its answer stores the volume of that other state; a missing critical constant replaces both guesses; bulks of several phases have an inconsistent compressibility."
  },
  {
   "property": "C161",
   "status": "partial",
   "theorems": [
    "Verif.Transitions.C161_first",
    "Verif.Transitions.C161_raises",
    "Verif.Transitions.C161_refused_fails",
    "Verif.Transitions.C161_temperature",
    "Verif.Transitions.C161_temperature_partial",
    "Verif.Transitions.C161_temperature_fails",
    "Verif.Transitions.C161_constant_fails",
    "Verif.Transitions.C161_guess_fails",
    "Verif.Transitions.C161_bound_fails",
    "Verif.Transitions.C161_guesses",
    "Verif.Transitions.C161_repeated_fails",
    "Verif.Transitions.C161_high",
    "Verif.Transitions.C161_low",
    "Verif.Transitions.C161_nothing_fails",
    "Verif.Transitions.C161_unassigned_fails",
    "Verif.Transitions.C161_parameter",
    "Verif.Transitions.C161_volume",
    "Verif.Transitions.C161_subcritical_fails",
    "Verif.Transitions.C161_extrapolated_fails",
    "Verif.Transitions.C161_series"
   ],
   "note": "The function solved for temperatures keeps the temperature of the object, refused answers are returned, guesses of the user come last, and classes without Chebyshev coefficients never find a lower transition."
  },
  {
   "property": "C162",
   "status": "partial",
   "theorems": [
    "Verif.Transport.C162_ws",
    "Verif.Transport.C162_ws_exists",
    "Verif.Transport.C162_marked",
    "Verif.Transport.C162_unmarked",
    "Verif.Transport.C162_named",
    "Verif.Transport.C162_unmarked_fails",
    "Verif.Transport.C162_solid_mark_fails",
    "Verif.Transport.C162_solid_fails",
    "Verif.Transport.C162_virial_fails",
    "Verif.Transport.C162_ignored_fails",
    "Verif.Transport.C162_refused",
    "Verif.Transport.C162_order_partial",
    "Verif.Transport.C162_mark",
    "Verif.Transport.C162_state",
    "Verif.Transport.C162_stale_fails",
    "Verif.Transport.C162_shared_fails",
    "Verif.Transport.C162_prandtl",
    "Verif.Transport.C162_prandtl_exists",
    "Verif.Transport.C162_nu",
    "Verif.Transport.C162_nu_state",
    "Verif.Transport.C162_unknown_fails",
    "Verif.Transport.C162_mixed_fails"
   ],
   "note": "Answers are independent of earlier calls as long as the mark of the phase does not change; refuted when an equilibrium state marks a phase that was already asked, for unmarked cubic phases with one volume of the other kind, and for solids and virial gases. IAPWS, CoolProp and air phases have their own formulas and are not modelled here."
  },
  {
   "property": "C163",
   "status": "partial",
   "theorems": [
    "Verif.Databases.C163_value",
    "Verif.Databases.C163_vector",
    "Verif.Databases.C163_vector_raises",
    "Verif.Databases.C163_tables",
    "Verif.Databases.C163_automatic",
    "Verif.Databases.C163_automatic_raises",
    "Verif.Databases.C163_automatic_partial",
    "Verif.Databases.C163_automatic_fails",
    "Verif.Databases.C163_undeclared_fails",
    "Verif.Databases.C163_pair_automatic",
    "Verif.Databases.C163_pair_automatic_fails",
    "Verif.Databases.C163_validate",
    "Verif.Databases.C163_valid_found_partial",
    "Verif.Databases.C163_unsorted_fails",
    "Verif.Databases.C163_default_fails"
   ],
   "note": "The automatic lookups are refuted with rows of the bundled files: they use the first table with a default (or of the type) even if it has no row for the component. Validation is refuted for unsorted keys of symmetric tables and for missing defaults. Reading of files is not modelled."
  },
  {
   "property": "C164",
   "status": "partial",
   "theorems": [
    "Verif.Allotropes.C164_methods",
    "Verif.Allotropes.C164_marked",
    "Verif.Allotropes.C164_joined",
    "Verif.Allotropes.C164_taken",
    "Verif.Allotropes.C164_absent",
    "Verif.Allotropes.C164_two_fails",
    "Verif.Allotropes.C164_single_fails",
    "Verif.Allotropes.C164_database_fails",
    "Verif.Allotropes.C164_growing_fails",
    "Verif.Allotropes.C164_others",
    "Verif.Allotropes.C164_stored",
    "Verif.Allotropes.C164_again",
    "Verif.Allotropes.C164_caller_fails"
   ],
   "note": "Names, data, marks and the joining method are proved when the substance is not one of its own allotropes and each allotrope at a transition has one method; a second method, a single allotrope and the writes into the loaded data are refuted by witnesses. Merging of several files is C124."
  }
 ]
}