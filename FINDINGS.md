# Disagreements between the code and its expected behaviour

Generated by `tools/findings.py`. Each theorem proves, about the model, that the stated expectation is false.

* **C23** `C23_dgammas_dns_fails` (Activity/GibbsExcess.lean): at `x = (1/4, 3/4)` with `R T = 1`, `A = 1`, the code's derivative of `ln γ₀` with respect to `n₁` is not the derivative.
* **C26** `C26_regular_binary_jac_cap_fails` (Activity/RegularSolution.lean): The Jacobian does not follow the cap: where the activity coefficient is held at `1e10` the function is locally constant in its parameters, while the reported slope is not zero.
* **C26** `C26_uniquac_z_fails` (Activity/Uniquac.lean): The code passes the coordination number to the excess Gibbs energy but differentiates with 10: `uniquac_gammas_from_args` with another `z` combines an energy and a gradient that do not belong together. Here two components, `r = (1, 2)`, `q = (1, 1)`, all `τ = 1`, equal mole fractions: for every `z ≠ 10` the gradient code is not the gradient of the energy code.
* **C27** `C27_mpmath_fallback_fails` (Eos/CubicRoots.lean): A volume accepted by the fallback of `volume_solutions_mpmath` need not satisfy the equation of state: the covolume was overwritten by a polynomial coefficient.
* **C28** `C28_doubledouble_fails` (Eos/CubicRoots.lean): The double-double closed form does not return a root: with `b = 0`, `δ = ε = 0`, `R T = P = 1` and `a = 1/3` the only real root is zero, while the function returns a positive number. The sign of `9 b c` is wrong.
* **C29** `C29_negative_covolume_fails` (Eos/RootSelect.lean): With a negative covolume (possible for strongly translated equations, `b = b0 - c`) the zeros with which `volume_solutions_halley` pads its result count as physical roots, so a single-root state is given a liquid of zero volume.
* **C30** `C30_both_fails` (Eos/RootSelect.lean): When both phases were solved, `resolve_full_alphas` calls `set_from_PT` with both `only_l` and `only_g`, so neither is recomputed: the liquid and vapour properties keep the placeholder derivatives.
* **C32** `C32_poles_fails` (Eos/Departure.lean): When the two poles of the attraction coincide or are not real (`δ² ≤ 4ε`), the general function silently drops the attraction from the enthalpy departure: its volume derivative is zero although `T ∂P/∂T - P` is not.
* **C33** `C33_PRSV_third_fails` (Eos/Alpha.lean): The third derivative of `PRSV` treats `kappa` as a constant: at the critical temperature it misses the contribution of `kappa1`. It is wrong already for `kappa0 = 0`, `kappa1 = 1`.
* **C33** `C33_Almeida_critical_fails` (Eos/AlphaFns.lean): `Almeida_a_alpha` at the critical temperature: the derivative method raises there for every set of coefficients, although `a_alpha_pure` returns `a`.
* **C33** `C33_Mathias_Copeman_critical_fails` (Eos/AlphaFns.lean): `Mathias_Copeman_a_alpha` at the critical temperature: with `c2 ≠ 0` there is no second derivative; the method returns the one from below.
* **C33** `C33_TWU_low_fails` (Eos/Twu.lean): So the derivative is wrong there: for every `a > 0.001` at `ω = 0` the reported value is not the derivative of the returned value.
* **C33** `C33_TWU_critical_fails` (Eos/Twu.lean): At the critical temperature the two sets of constants give different slopes, so the attraction is not differentiable there (shown for `ω = 0`, both methods).
* **C34** `C34_SRK_negative_m_fails` (Eos/SolveT.lean): With `m` in `(-1, 0)` and a strong attraction the closed form of `SRK.solve_T` returns a temperature with another pressure.
* **C34** `C34_SRKTranslatedPPJP_fails` (Eos/SolveT.lean): The temperature `SRKTranslatedPPJP` finds from pressure and volume does not have that pressure when the translation is not zero.
* **C34** `C34_RK_zero_fails` (Eos/SolveTRK.lean): At zero pressure there is no result, whatever the general solver finds: a solution which is not used divides by zero.
* **C35** `C35_SRK_negative_m_fails` (Eos/SolveT.lean): With `m` in `(-1, 0)` the value of `SRK.P_max_at_V` need not be reached: the maximum of the quadratic lies at a negative `√Tr`.
* **C35** `C35_SRKTranslatedPPJP_fails` (Eos/SolveT.lean): `SRKTranslatedPPJP` inherits `SRK.P_max_at_V`; with a translation its value is exceeded.
* **C35** `C35_PRSV_fails` (Eos/SolveT.lean): For `PRSV`, whose `kappa` changes with temperature, the value is exceeded.
* **C37** `C37_discriminant_T_fails` (Eos/Discriminant.lean): Called with a temperature other than that of the object, `discriminant` is not the discriminant at the given temperature: it keeps the product `R*self.T` of the object.
* **C37** `C37_zeros_fails` (Eos/Discriminant.lean): For the Peng-Robinson constants (`b = 1`, `RT = 1`, `a = 4`: above the critical temperature) the quartic has a complex root with a positive real part. The filter keeps its real part as a pressure although the discriminant is not zero there.
* **C38** `C38_self_interaction_fails` (Eos/MixRule.lean): With a non-zero interaction of a component with itself the combined evaluator ignores it, the others do not.
* **C38** `C38_asymmetric_fails` (Eos/MixRule.lean): With an unsymmetric interaction matrix the evaluators use different halves of it.
* **C38** `C38_negative_fails` (Eos/MixRule.lean): A negative entry of the composition (as met in extrapolations) is skipped by `a_alpha_and_derivatives` only.
* **C39** `C39_combined_rows_fails` (Eos/MixRule.lean): So an absent component listed last gets the row sum zero instead of its attraction to the others. The two evaluators disagree: the fugacity coefficient of the absent component depends on which of them ran last.
* **C39** `C39_derivative_matrices_fails` (Eos/MixRule.lean): They do not when one is absent: the derivative of the pair of an absent component listed first with a present one is reported as zero, although the pair itself is there.
* **C54** `C54_unnormalised_fails` (Activity/RegularSolution.lean): Away from normalised compositions `flory_huggins_dGE_dxs` is not the derivative of `flory_huggins_GE`: the total of the mole fractions is replaced by one.
* **C55** `C55_VDW_fails` (Eos/LnPhi.lean): With a binary interaction parameter (here `k₁₂ = 1`, attractions one) the van der Waals routine is wrong.
* **C55** `C55_PR_no_attraction_fails` (Eos/LnPhi.lean): Without attraction `PR_lnphis` returns zero for the first component and leaves the other entries of the list it was given, although the fugacity coefficients are not one.
* **C58** `C58_dPsat_bound_fails` (Eos/Saturation.lean): Where the value is replaced by the bound `Pc*(1 - 1e-14)` (2929-2930) the derivative is not: the pressure is constant there but `dPsat_dT` is not zero.
* **C58** `C58_phi_sat_translated_fails` (Eos/Saturation.lean): The unpolished `phi_sat` of a translated equation cannot be right if it is right for the untranslated one: at the same saturation pressure the two coefficients differ by the factor `exp(-P c/(RT))` (`C36_lnphi`), but the correlation does not see the translation.
* **C59** `C59_volume_choice_fails` (Eos/LnPhi.lean): If the first root lies below the covolume and another is physical, the liquid choice still returns the first one.
* **C60** `C60_water_fails` (Chem/IonBalance.lean): A solution of ions whose mole fractions are fine can be balanced to a negative mole fraction of water: the result of `1. - sum(zs[0:-1])` (1500) is not checked.
* **C60** `C60_absent_group_fails` (Chem/IonBalance.lean): Without an ion of the group that carries too little charge the default method divides by the charge of water.
* **C60** `C60_zero_amount_fails` (Chem/IonBalance.lean): If every ion of that group is listed with mole fraction zero, the default method takes the first zero of the list, which can be an ion of the other group, and raises; increasing the listed sodium would have balanced the solution.
* **C60** `C60_dominant_fraction_fails` (Chem/IonBalance.lean): The documentation says that `dominant` adjusts the ion with the largest mole fraction; it adjusts the one with the largest share of the charge.
* **C60** `C60_decrease_absent_fails` (Chem/IonBalance.lean): The documentation of `Na or Cl decrease` says that the species is added if it was not present; that always raises.
* **C63** `C63_mixed_fails` (Phases/IdealGas.lean): The four mixed second derivatives of the ideal gas pressure, which the code returns as zero, are nonzero at every state.
* **C63** `C63_Cv_fails` (Phases/IdealGas.lean): `dCv_dT_P` of the ideal gas is `R/T` too small and `dCv_dP_T` is `R/P` instead of zero: the heat capacity `Cv = Cp - R` does not depend on pressure.
* **C63** `C63_sound_fails` (Phases/IdealGas.lean): The speed of sound of an ideal gas does not depend on pressure, but `dspeed_of_sound_dP_T` is negative at every state; `dspeed_of_sound_dT_P` differs from the true derivative at every state.
* **C66** `C66_formation_fails` (Phases/Fugacity.lean): The formation internal energy and Helmholtz energy are not properties of the composition: they change with the temperature of the phase (the code uses the ideal gas volume of the current state, 2256).
* **C67** `C67_Cp_fails` (Phases/Virial.lean): The reported heat capacity `Cp` is the derivative of the enthalpy at constant volume, whatever the coefficients; it is the derivative at constant pressure exactly where the enthalpy does not change with the volume at constant temperature. `dS_dT` is the derivative at constant pressure exactly where the gas expands like an ideal gas. `Cv` of the base class, computed from `Cp`, is wrong wherever `Cp` is.
* **C68** `C68_default_derivatives_fails` (Equilibrium/Bulk.lean): The remaining derivatives of the bulk are *not* those of the bulk with frozen phases, with the default settings: for some two-phase bulk, `dV_dT` and `dV_dP` (computed from the mole-weighted pressure derivatives) are not derivatives of the bulk volume, the mole-weighted `kappa` and `isobaric_expansion` are not the relative derivatives of the bulk volume, and the Maxwell relation between the bulk's `dS_dP` and `dV_dT` fails.
* **C69** `C69_quality_fails` (Equilibrium/State.lean): With a solid phase the vapour quality is not the mass fraction of the gas: the solid is counted as if it were liquid.
* **C69** `C69_shared_cache_fails` (Equilibrium/State.lean): The volume fractions depend on what was read before: after reading `betas_volume`, the property `betas_volume_liquid_ref` of some consistent state returns the wrong fractions, and the other way round.
* **C70** `C70_liquid_bulk_fails` (Equilibrium/State.lean): In a state with a gas and two liquids, the liquid bulk's molar volume is not between the molar volumes of the liquids, its volume flow and energy are not the sums over the liquids, and its mass flow is not the sum of the mass flows of the liquids but that of the whole stream including the gas.
* **C71** `C71_log_dP_dV_fails` (Equilibrium/Mixing.lean): The logarithmic settings offered for `dP_dV` can never be used for a bulk containing a stable phase (`dP_dV` is negative): they raise a math domain error.
* **C71** `C71_liquid_bulk_fails` (Equilibrium/Mixing.lean): Two liquids of viscosity one next to a gas: the mole-weighted rules give the liquid bulk the viscosity `LF = 1/2`, although every liquid has viscosity one (the fractions do not sum to one).
* **C71** `C71_solids_fails` (Equilibrium/Mixing.lean): A gas and a liquid of viscosity one next to a solid: the mass-weighted rule gives the bulk the viscosity 3/5, because the mass fractions of gas and liquid do not sum to one.
* **C71** `C71_gas_solid_fails` (Equilibrium/Mixing.lean): A gas and a solid without a liquid: every setting other than the two which treat everything as one phase ends in an `IndexError`.
* **C72** `C72_H_C_ratio_fails` (Equilibrium/Reports.lean): `H_C_ratio(phase)` is not the ratio in the phase: the bulk of half methane and half water has the ratio 6, its phase of pure methane the ratio 4, and the method returns 6 for it.
* **C72** `C72_humidity_fails` (Equilibrium/Reports.lean): `humidity_ratio(phase)` returns the ratio of the whole state for every phase: with half of the moles dry gas and half pure water of the same molar mass, the dry phase has the ratio 1.
* **C73** `C73_G_dep_fails` (Equilibrium/Reports.lean): In general `G_dep` of a bulk is strictly smaller than `G - G_ideal_gas`, by `R T` times the mean relative entropy: whenever the phases have positive fractions and not all the overall composition.
* **C74** `C74_wilson_pure_fails` (Equilibrium/PhaseId.lean): For a single component the Wilson score has the wrong sign: it is negative, that is liquid-like, exactly if the pressure is below the vapour pressure, where the substance is a gas.
* **C74** `C74_traces_bound_fails` (Equilibrium/PhaseId.lean): The documentation says the trace score "is always larger than 1.0"; for mole fractions it never is.
* **C74** `C74_two_forced_fails` (Equilibrium/PhaseId.lean): Two phases forced to be gases (for example two ideal gas phases) make the identification raise, whenever no other phase is a possible gas: there are no scores to take the maximum of.
* **C74** `C74_forced_gas_fails` (Equilibrium/PhaseId.lean): With a phase forced to be a gas the scores are read at the wrong index: the gas returned is neither the forced one, which is returned as a liquid, nor the one with the largest score.
* **C74** `C74_unknown_force_fails` (Equilibrium/PhaseId.lean): A phase whose `force_phase` is none of the three letters is dropped: the phases of the result are fewer than those given.
* **C75** `C75_ties_fails` (Equilibrium/PhaseId.lean): Two liquids of the same density raise `TypeError` instead of being sorted, whichever density setting.
* **C75** `C75_compressibility_fails` (Equilibrium/PhaseId.lean): Sorting by isothermal compressibility does not sort by it.
* **C75** `C75_no_betas_fails` (Equilibrium/PhaseId.lean): Although the code tests `betas is not None` (1043), calling without fractions always raises.
* **C77** `C77_A_fails` (Phases/Helmholtz.lean): `A()` does not return the molar Helmholtz energy `U - TS` that the base class documents: it returns the energy divided by `RT`.
* **C77** `C77_S_dep_fails` (Phases/Helmholtz.lean): So `S_dep` is not the departure entropy, and the departure Gibbs energy of the phase contradicts its own fugacity coefficient.
* **C77** `C77_d3B_fails` (Phases/Helmholtz.lean): The third derivative of the second virial coefficient is not available for every class that inherits the method: for water the call always raises.
* **C80** `C80_basis_fails` (Phases/Special.lean): At no state with a heat capacity is `Cp` (which is also `dH_dT`) the derivative of `H` by temperature at constant pressure, and `G` is not `H - TS` but that divided by `RT`.
* **C80** `C80_calls_fails` (Phases/Special.lean): Not every method returns a number: the internal energy and the heat capacity at constant volume never do, the volume does not on an object made from a volume, and in region 3 most methods fail.
* **C80** `C80_to_TP_zs_fails` (Phases/Special.lean): `to_TP_zs` returns no phase, and leaves the receiver in a mixture of two states: its temperature and pressure are the old ones, its density, volume and reduced variables the new ones.
* **C81** `C81_continuous_fails` (Phases/Special.lean): That of the Grayson-Streed class jumps at the critical temperature of every component with an acentric factor, at every pressure: the acentric term is set to one above it and is below a tenth there.
* **C81** `C81_to_fails` (Phases/Special.lean): A phase at new conditions needs two of temperature, pressure and volume; with the temperature alone `to` neither makes a phase nor raises an error.
* **C82** `C82_default_fails` (Phases/Special.lean): With the default `other_props=None` no property can be computed at all; with any dictionary the Gibbs energy cannot.
* **C82** `C82_alias_fails` (Phases/Special.lean): Two names of one derivative need not be answered by the same phase: `dS_dT` and `dS_dT_P` are looked up separately, while `dP_dT` and `dP_dT_V` share their entry.
* **C84** `C84_Hvap_Cp_fails` (Phases/ExcessLiquid.lean): `Cp` (2772-2853) never looks at `use_Hvap_caloric`: with enthalpies of vaporization it is not the derivative of the enthalpy.
* **C84** `C84_Hvap_dS_dP_fails` (Phases/ExcessLiquid.lean): With enthalpies of vaporization and Poynting factors `dS_dP` is not the derivative of `S`, which does not depend on pressure.
* **C84** `C84_Hvap_G_fails` (Phases/ExcessLiquid.lean): With enthalpies of vaporization and Poynting factors the Gibbs energy is not the one of the fugacity coefficients.
* **C84** `C84_V_fails` (Phases/ExcessLiquid.lean): Without Poynting factors the volume is not the pressure derivative of the Gibbs energy.
* **C85** `C85_caloric_fails` (Phases/ExcessState.lean): A `caloric_basis` does not select what the caloric methods use: they read the flags of the equilibrium basis.
* **C85** `C85_unknown_basis_fails` (Phases/ExcessState.lean): A misspelled basis is accepted, and leaves the attribute that `phis` reads undefined.
* **C85** `C85_solid_fails` (Phases/ExcessState.lean): The excess Gibbs energy model, the equations of state and `use_phis_sat` given to a solid are dropped.
* **C85** `C85_psat_fits_fails` (Phases/ExcessState.lean): If all vapor pressures are polynomials, the constructor raises `AttributeError`: it reads `DIPPR101_ABC`, which nothing in the library sets.
* **C85** `C85_hvap_fits_fails` (Phases/ExcessState.lean): The same for enthalpies of vaporization, with `poly_fit_Tc`.
* **C85** `C85_to_fails` (Phases/ExcessState.lean): Given temperature and volume, the phase has no temperature; given pressure and volume, it has no pressure; given a temperature only, it has neither, and no exception is raised.
* **C85** `C85_stale_volume_fails` (Phases/ExcessState.lean): With volumes from equations of state (1271-1285), the volume of a component above its critical temperature is computed at its vapor pressure, which for a Henry's law component depends on composition; the stored volumes are kept when the composition changes, and are then wrong.
* **C85** `C85_fill_fails` (Phases/ExcessState.lean): If a component fails, the first call raises the exception, but the next one returns a list that is too short.
* **C86** `C86_limit_fails` (Phases/ExcessState.lean): At the limits of the fit, where the volume and its first derivative are those of the polynomial, the second derivative is zero instead.
* **C86** `C86_phi_sat_fails` (Phases/ExcessState.lean): Above the critical temperature `phis_sat` is constant but `dphis_sat_dT` is the slope at the critical temperature.
* **C86** `C86_volumes_fails` (Phases/ExcessState.lean): With `use_eos_volume`, the methods that take a temperature (`Poyntings_at`, `phis_at`, `dphis_dT_at`) use another volume than the ones without, and so do all temperature derivatives.
* **C86** `C86_henry_zero_fails` (Phases/ExcessState.lean): With `solvents_with_parameters`, a solvent whose entry passes through zero at some temperature is left out there: the Henry's law constant jumps, and the derivative is not one.
* **C86** `C86_phis_at_fails` (Phases/ExcessState.lean): With Henry's law components it uses those of the composition of the phase.
* **C87** `C87_incompressible_fails` (Phases/ExcessState.lean): The derivatives do not satisfy `dP_dT = -dP_dV dV_dT`: the code divides instead of multiplying. The constant is also positive, the sign of a mechanically unstable phase.
* **C87** `C87_Tait_fails` (Phases/ExcessState.lean): With `use_Tait` the pressure derivatives raise `AttributeError`.
* **C88** `C88_conflict_fails` (Flash/Dispatch.lean): Contradictory specifications of one quantity are accepted: the molar one is dropped.
* **C88** `C88_limit_fails` (Flash/Dispatch.lean): A temperature that one phase supports is refused, with the message that it is below the minimum "supported by any of the provided phases".
* **C88** `C88_over_fails` (Flash/Dispatch.lean): More than two specifications are not refused: the others are ignored without an error. A vapor fraction, a volume and an enthalpy are treated as vapor fraction and volume, for which no flash exists.
* **C89** `C89_fallback_fails` (Flash/Dispatch.lean): If the first algorithm fails, the others listed after it are not tried, though one of them would succeed.
* **C89** `C89_grid_fails` (Flash/Dispatch.lean): A third list of values is ignored.
* **C89** `C89_liquids_fails` (Flash/Dispatch.lean): With two equal liquids followed by another one, the table holds a number that is no distinct liquid, and the third liquid phase is `None`.
* **C90** `C90_first_fails` (Flash/Substitution.lean): In the first iteration the error is that of the guesses but the compositions returned are others: the fugacities of the returned phases differ by more than a tenth, with an error of zero reported.
* **C90** `C90_several_fails` (Flash/Substitution.lean): With several phases the compositions of the returned phases are those before the last substitution: with the returned fractions they need not make up the feed.
* **C91** `C91_many_fails` (Flash/Newton.lean): The reference phase may get negative flows: then absolute values are taken as its composition, and at a zero of the equations the phases do not make up the feed.
* **C91** `C91_spec_fails` (Flash/Newton.lean): The derivatives are those of the phases given at the start, not of the iteration: for a phase given at mole fractions one half whose property is `x0²` the row is not that of the derivatives.
* **C91** `C91_dew_absent_fails` (Flash/Newton.lean): For a component that is not in the feed the equation is constant but its row of the matrix is not zero, and nothing determines its mole fraction in the other phase: a zero with a positive one is accepted.
* **C91** `C91_transform_fails` (Flash/Newton.lean): In `minimize_gibbs_2P_transformed` the transformation, whose variables start as vapor flows between zero and one, gives more vapor of each component than there is feed.
* **C92** `C92_window_fails` (Flash/Stability.lean): Because of its tolerance the test also calls feeds unstable for which the trial found a positive tangent plane distance.
* **C92** `C92_missed_fails` (Flash/Stability.lean): A trial may end at a phase of negative tangent plane distance, here with sum 39/20, and yet be taken as proof of stability, because the flash with its `K` values has a vapor fraction above one. The phases are thermodynamically consistent and the phase under test is the more stable one at the composition of the feed.
* **C92** `C92_lowest_fails` (Flash/Stability.lean): With `lowest_dG` the trial with the higher value of `dG_RT` is returned.
* **C92** `C92_iffy_fails` (Flash/Stability.lean): With `handle_iffy` a trial that clearly says that the feed is unstable ends in an exception.
* **C92** `C92_options_fails` (Flash/Stability.lean): With `highest_comp_diff` and `lowest_dG` or `handle_iffy` the test ends in an exception as soon as a trial is farther from existing compositions than the limit.
* **C92** `C92_dedup_fails` (Flash/Stability.lean): Results that are the same may both be kept, if the order of sorting puts another one between them.
* **C93** `C93_pure_stable_fails` (Flash/SatPoints.lean): With several liquids only the first is used: at the saturation pressure found another one is more stable than the gas and the liquid returned.
* **C93** `C93_solid_fails` (Flash/SatPoints.lean): Below the triple point `flash_TSF` and `flash_PSF` pass the gas before the liquids (`flash_pure_vls.py` 572-588), and only the gas is used: at the pressure found a liquid is more stable than the gas and the solid.
* **C93** `C93_mm_fails` (Flash/SatPoints.lean): Convergence of the composition is not tested: from the feed composition as guess a dew point of a Margules liquid is returned after one iteration with error zero although at the returned composition the fugacities of both components differ by more than a tenth from those in the vapor.
* **C93** `C93_mm_retry_fails` (Flash/SatPoints.lean): After a step at whose end the phases cannot be calculated the same step is tried again: if the step was not limited, the loop ends without a result, however many iterations are allowed.
* **C93** `C93_old_retry_fails` (Flash/SatPoints.lean): None of the four functions tries another value after a failure: it repeats the one that failed.
* **C93** `C93_liquids_fails` (Flash/SatPoints.lean): With a component that is absent from the second liquid the ratios of the appearing phase are used: liquids in equilibrium have an error and liquids out of equilibrium have none.
* **C94** `C94_limit_fails` (Flash/Pure.lean): At the least temperature of both a gas and a liquid, which `flash` accepts, the gas is not considered: the liquid is returned although the gas is more stable.
* **C94** `C94_TV_fails` (Flash/Pure.lean): At specified temperature and volume the phase with lower Gibbs energy is returned, although its Helmholtz energy is higher and it is the other that is stable.
* **C94** `C94_dome_fails` (Flash/Pure.lean): Inside the two phase region, at a volume between those of two phases of equal pressure and Gibbs energy, a single phase is returned although the two phases together have a lower Helmholtz energy at the specified volume.
* **C94** `C94_shortcut_fails` (Flash/Pure.lean): With a saturation fugacity coefficient the fugacity of the liquid is `phi * Psat`, but the shortcut still compares with `Psat`: the gas is returned although the liquid is more stable.
* **C94** `C94_PU_fails` (Flash/Pure.lean): At specified pressure and internal energy the state of highest entropy is preferred, but it may be of a phase that is unstable at every temperature, while the other is stable at every temperature and also meets the specification.
* **C94** `C94_TS_fails` (Flash/Pure.lean): At specified temperature Gibbs energies of states of different pressure are compared: a state of a phase that is unstable at every pressure is preferred, because its pressure is lower.
* **C94** `C94_specfun_fails` (Flash/Pure.lean): With `spec_fun` the specified value is used as if the errors were values: a fraction between zero and one is returned although the error is positive there and everywhere between zero and one.
* **C94** `C94_solid_fails` (Flash/Pure.lean): A solid in equilibrium with another phase is never returned, even if it has a lower value of the criterion than the solution with one phase; and the fraction calculated for the solid is that of the other phase.
* **C94** `C94_bound_fails` (Flash/Pure.lean): If no phase has a solution that is not metastable, `None` is returned and the caller fails instead of trying the general method.
* **C94** `C94_grid_fails` (Flash/Pure.lean): For a substance with a narrow range the grid has temperatures above the highest.
* **C94** `C94_interval_fails` (Flash/Pure.lean): A number is used as such with three or more intervals but not with two, and without a request there is an exception with three or more.
* **C95** `C95_far_above_fails` (Flash/MultiPhase.lean): A fraction far above one is not: substitution is repeated, and if it then ends in a trivial solution, this is not caught, so that there is an exception instead of a single phase.
* **C95** `C95_bounds_fails` (Flash/MultiPhase.lean): For pressure and volume they are those of temperature too: atmospheric pressure, which the bounds of pressure allow, is beyond those used, and so are volumes of liquids.
* **C95** `C95_VF_fails` (Flash/MultiPhase.lean): If there is no solution for any liquid, the errors are lost and `None` is returned, which the caller cannot unpack.
* **C95** `C95_double_check_fails` (Flash/MultiPhase.lean): If the stability tests find no second phase but the double check does, with lower Gibbs energy, this is discarded: one phase is returned.
* **C95** `C95_stable_fails` (Flash/MultiPhase.lean): With three components, a gas and two liquids a stable two phase solution is returned without comparing with one phase, which may have lower Gibbs energy.
* **C95** `C95_retry_fails` (Flash/MultiPhase.lean): After a failure with three phases substitution is repeated with two liquids, and its result is returned if its Gibbs energy is lower, even if a fraction is negative.
* **C95** `C95_retry_error_fails` (Flash/MultiPhase.lean): If this substitution does not converge, the exception is not caught, although a two phase solution was found.
* **C95** `C95_loop_fails` (Flash/MultiPhase.lean): With more components and phases a solution with a further liquid replaces that with three phases whatever its fractions and Gibbs energy.
* **C95** `C95_hot_fails` (Flash/MultiPhase.lean): Starting from a result with three phases a negative fraction is returned; starting from two phases it leads to one phase.
* **C96** `C96_removed_fails` (Flash/Mixing.lean): A mixture taken out of itself leaves nothing, and normalization divides by zero: the boundary of mixing something with itself is an exception.
* **C96** `C96_last_fails` (Flash/Mixing.lean): Otherwise the result of the first evaluation is returned without error, although the phase asked for is not there.
* **C96** `C96_follow_fails` (Flash/Mixing.lean): If it is, the fraction is chosen from the mixture without the phase: the liquid fraction is followed although the existing mixture is mostly liquid.
* **C96** `C96_rich_fails` (Flash/Mixing.lean): With only a mass fraction required it is ignored: a phase with a mass fraction above it is not found.
* **C96** `C96_keep_fails` (Flash/Mixing.lean): A value with the phase that is nearer to the boundary never replaces the first.
* **C96** `C96_final_fails` (Flash/Mixing.lean): With several the side is tested for the first but another is returned: the phase is found at 300 with rising and at 500 with falling check, and not at 400; returned are 400 and 500, although the phase vanishes above 500.
* **C96** `C96_direct_fails` (Flash/Mixing.lean): With water in the gas given the fraction returned is not that of the gas matched; and for a negative unknown, which gives the same errors, a negative fraction is returned.
* **C96** `C96_cricondenbar_fails` (Flash/Mixing.lean): On the dew curve the fractions of the gas are used where those of the liquid that appears would be right: the dew pressure has its highest value, the sum with liquid fractions vanishes, but the criterion does not.
* **C97** `C97_entry_fails` (Activity/Unifac.lean): With the default table of the original model `modified=True` silently gives one for every pair, where the class uses the parameters of the table.
* **C97** `C97_missing_fails` (Activity/Unifac.lean): A pair is listed as missing although the table has parameters for it and they have an effect (VTPR, main groups 11 and 5).
* **C97** `C97_hash_fails` (Activity/Unifac.lean): Two models of version 3, as `from_subgroups` builds them, with the same hash but different activity coefficients: the components of the first have one group of each kind, those of the second two of one kind.
* **C99** `C99_Tc_fails` (Groups/Estimates.lean): … and is a negative absolute temperature for every longer one.
* **C99** `C99_init_fails` (Groups/Estimates.lean): Giving only the atom count, an optional parameter of its own, raises `AttributeError`.
* **C99** `C99_wj_flag_fails` (Groups/Estimates.lean): For a denominator below zero the code returns two and a half times the boiling point and sets the flag of missing temperature increments, although no atom need be missing: here a cage of sixty carbon atoms with 32 rings.
* **C99** `C99_wj_fails` (Groups/Estimates.lean): With its own increments the method puts the critical temperature of every normal alkane of 68 or more carbon atoms below the boiling point it was given.
* **C99** `C99_bondi_fails` (Groups/Estimates.lean): A group whose area is not tabulated adds to the volume and not to the area, silently: allene has the area of its two end groups alone.
* **C100** `C100_doc_fails` (Groups/PPR78.lean): The formula of the documentation multiplies by `B / A - 1` instead of raising to this power: for methane and ethane at the reference temperature it has the wrong sign.
* **C100** `C100_missing_fails` (Groups/PPR78.lean): A pair for which no parameters were fitted is not reported: ethane and the thiol group (6 and 15) of the first table get the interaction of equal groups, zero.
* **C101** `C101_allclose_limits_fails` (Functional/Checks.lean): Limits without a tolerance of their own are ignored: nothing matches, no mismatch is allowed, and the result is true.
* **C101** `C101_allclose_order_fails` (Functional/Checks.lean): The comparison depends on which array is given first.
* **C101** `C101_boiling_fails` (Functional/Checks.lean): Between 90 and 110 kPa the phase found with the boiling point can contradict the vapor pressure: five degrees below the boiling point at 91 kPa a fluid of vapor pressure 96 kPa is called a liquid.
* **C101** `C101_identify_zero_fails` (Functional/Checks.lean): A vapor pressure of zero counts as unknown, so a liquid is not recognised.
* **C101** `C101_stateva_fails` (Functional/Checks.lean): Without positivity there are zeros that are no compositions: all fractions negative.
* **C101** `C101_components_zero_fails` (Functional/Checks.lean): A component present on one side only, with flow zero, makes the check fail although all flows balance.
* **C101** `C101_reactive_fails` (Functional/Checks.lean): The reactive check rejects every reaction that uses up a component or forms a new one, although mass and elements balance: an isomerisation.
* **C101** `C101_reactive_tolerance_fails` (Functional/Checks.lean): The tolerances given do not apply to the mass of the reactive check: 1.001 against 1 with a relative tolerance of one half.
* **C101** `C101_elevation_fails` (Functional/Checks.lean): Elevations are ignored: a stream lifted by a kilometre without work passes with tolerance zero.
* **C101** `C101_areas_fails` (Functional/Checks.lean): If fewer areas than streams are given the kinetic energy of the others is left out silently.
* **C102** `C102_random_fails` (Flash/Trials.lean): From 32 components on, `random=True` gives not one random trial per component but their square, and these repeat the same ones over and over.
* **C102** `C102_pure_name_fails` (Flash/Trials.lean): Every trial nearly pure in a component is given the name of the next component, and the last one a name that no component has: remaking the composition from that name is an exception.
* **C102** `C102_zero_name_fails` (Flash/Trials.lean): If a `K` value is zero, the third trial becomes the second and is given the name of the one left out.
* **C102** `C102_aqueous_name_fails` (Flash/Trials.lean): The stability test asks for names without saying that an aqueous phase was expected (flash_vl.py 608, 649): the aqueous trial is called the liquid estimate of Wilson. With the right argument names end before the last trial from the `K` values.
* **C102** `C102_random_size_fails` (Flash/Trials.lean): A number of random guesses is taken as the number of components: none of them is a composition of the mixture unless the numbers agree.
* **C102** `C102_constraint_fails` (Flash/Trials.lean): The search is not kept from negative fractions; their signs are dropped afterwards, so a point that meets the constraint can give a negative fraction.
* **C103** `C103_bracket_fails` (Package/Ideal.lean): For two components the lower bound is the vapor fraction itself. The bracket of the last resort (86) starts above it, so the error has the same sign all over the bracket: bisection never succeeds for two components.
* **C103** `C103_nearly_pure_fails` (Package/Ideal.lean): For nearly pure mixtures the bracket for the pressure (1029) lies above the bubble pressure: at none of its pressures is the vapor fraction one between zero and one, though there is such a pressure.
* **C103** `C103_equal_fails` (Package/Ideal.lean): If all vapor pressures are the same, the ends of the bracket for the pressure are in the wrong order and neither is the vapor pressure.
* **C103** `C103_overspecified_fails` (Package/Ideal.lean): With temperature, pressure and a vapor fraction given the pair is temperature and pressure; for a gas the vapor fraction asked for is then reported, though phase and compositions are those of the gas, and so for a liquid.
* **C104** `C104_enthalpy_fails` (Package/Caloric.lean): By default the liquid alone is given a pressure term that it is not given beside a gas: the enthalpy of two phases is not that of its phases, by the pressure term of the liquid.
* **C104** `C104_entropy_fails` (Package/Caloric.lean): The entropy of two phases of different composition is always above that of its phases: the composition entropy is that of mixing them.
* **C104** `C104_bubble_fails` (Package/Caloric.lean): By default the enthalpy jumps at the bubble point, even though the pressure is the sum of the partial pressures over the liquid.
* **C104** `C104_potentials_fails` (Package/Caloric.lean): By default the flash (which uses the law of Raoult) and the Gibbs energy disagree: at the equilibrium found the chemical potentials in both phases differ by the pressure term.
* **C104** `C104_gibbs_fails` (Package/Caloric.lean): The Gibbs energy of two phases in equilibrium is below the sum of the chemical potentials of the feed.
* **C104** `C104_liquid_cp_fails` (Package/Caloric.lean): The heat capacity reported for the liquid (1072-1076) comes from separate data and is not used for its enthalpy: nothing makes it the derivative.
* **C104** `C104_copy_fails` (Package/Caloric.lean): Copies, as made by `to`, lose the properties of formation: all reactive properties of them are exceptions.
* **C105** `C105_three_specs_fails` (Eos/ObjectState.lean): With all three given, the constructor replaces the temperature by the one that follows from pressure and volume, while `to` ignores the volume: the same keyword arguments give different states.
* **C105** `C105_to_TP_fails` (Eos/ObjectState.lean): `to_TP` of an object made from temperature and volume, at its own temperature and pressure, returns that object with its one volume, where the constructor would solve for the volumes: here a volume at which the pressure increases with volume (a state that cannot exist) is kept, and the liquid and the vapour of that temperature and pressure are not found.
* **C106** `C106_stale_fails` (Eos/MixState.lean): `Psat`, `phi_sat`, `Hvap`, `mechanical_critical_point`, … evaluate attraction terms at another temperature with `a_alpha_and_derivatives`, which stores them in the object. For every mixture, a state derived from the object afterwards at the object's own temperature then has the attraction of the other temperature; the row sums from which the fugacity coefficients of the object are computed are those of the other temperature, too.
* **C106** `C106_lnphis_lowest_fails` (Eos/MixState.lean): Not yet computed (as after `to_TP_zs_fast`), the result of `_eos_lnphis_lowest_Gibbs` is the fugacities, not the logarithms of the fugacity coefficients: whatever the functions are.
* **C106** `C106_only_g_fails` (Eos/MixState.lean): With only one of two phases computed (`fugacities(only_g=True)`), the phase with the higher Gibbs energy is returned.
* **C106** `C106_dphi_dn_fails` (Eos/MixState.lean): Unless the fraction is the old one (or the component is alone), the fractions of that composition do not add up to one: the replaced fraction is not divided by the total.
* **C106** `C106_subset_view_fails` (Eos/MixState.lean): Taking one component out of a mixture stored in arrays changes the mixture it is taken from.
* **C106** `C106_Psat_polish_fails` (Eos/MixState.lean): The argument `polish` has no effect: with it, the vapour pressure of a one component mixture is not that of the pure component, whenever polishing makes a difference there.
* **C106** `C106_to_TP_zs_fails` (Eos/MixState.lean): At the object's own state `to_TP_zs` returns the object, also if it was solved for the liquid only and now the vapour is asked for.
* **C107** `C107_decision_fails` (Eos/MixEquil.lean): A vapor trial that ends in the liquid and a trivial liquid trial find no second phase, but the mixture is declared unstable; the variables of the code made for that are not used.
* **C107** `C107_label_fails` (Eos/MixEquil.lean): If the equation of state labels all compositions as the same phase, every mixture is declared stable, also one whose tangent plane distance is negative for another composition: splits into two liquids are not found.
* **C107** `C107_unconverged_fails` (Eos/MixEquil.lean): A trial that has not converged is not reported if its last label is that of the reference.
* **C107** `C107_dew_tolerance_fails` (Eos/MixEquil.lean): A smaller tolerance gives a larger error: with the default tolerance the iteration halving the error is within `1e-5` of its limit after the 20 iterations, with a tolerance of `1e-11` its error is a half.
* **C107** `C107_start_fails` (Eos/MixEquil.lean): If further guesses are given and all fail, the exception to be raised has lost its name: an `UnboundLocalError` (not the `ValueError` the callers handle).
* **C107** `C107_objects_fails` (Eos/MixEquil.lean): Given start compositions that happen to have equal fugacities, the objects returned have these compositions and not the ones returned; they do not make up the feed with the fraction returned.
* **C108** `C108_reference_fails` (Chem/Formation.lean): Bromine and mercury are liquids at 298.15 K, but their integrals start with the solid. At 298.15 K the enthalpy of formation is then not the one given but too low by the enthalpy of fusion, and more if the liquid has the larger heat capacity: 5285 J/mol for hydrogen bromide.
* **C108** `C108_phosphorus_fails` (Chem/Formation.lean): With a reference temperature below the transition of phosphorus its enthalpy at the reference temperature is not zero: the transition is subtracted below it whatever the reference temperature is.
* **C108** `C108_collision_fails` (Chem/Formation.lean): The key of the cache is only the hash: for every hash function with finitely many values there are two compounds, of different reactions, such that after a call for one the other gets the reaction of the first.
* **C108** `C108_uncached_fails` (Chem/Formation.lean): Without the cache the function always fails.
* **C108** `C108_absolute_fails` (Chem/Formation.lean): The entropy of a substance that is solid at the reference temperature is that at its melting point, whatever the reference temperature: the integral of the solid goes up to the melting point. It is too large wherever the heat capacity is positive.
* **C108** `C108_crystal_fails` (Chem/Formation.lean): A transition of the solid given by entropy and by enthalpy with temperature is counted twice; one given by entropy is counted also if it is above the reference temperature.
* **C108** `C108_arguments_fails` (Chem/Formation.lean): Given values take precedence over those of the chemical. Refuted is that entropies of transition make the enthalpies unnecessary: without them, and without a chemical, the function fails.
* **C108** `C108_adjust_fails` (Chem/Formation.lean): A missing enthalpy of formation of the gas is never found: it is stored under another name.
* **C109** `C109_vaporization_fails` (Chem/RefState.lean): The entropy of a liquid counted from a gas has the enthalpy of vaporization at the temperature of the liquid instead of that at the boiling point.
* **C109** `C109_pressure_fails` (Chem/RefState.lean): The entropy of a gas counted from a solid does not depend on the pressure, nor does that of a liquid counted from a gas, while the gas counted from the gas has the term `-R log(P/P_ref)`: between pressures the same states have different entropy differences depending on the reference.
* **C109** `C109_liquid_reference_fails` (Chem/RefState.lean): With a liquid reference at another pressure the liquid at the reference state does not have the reference enthalpy: the departure of the reference is left out, though it is not for the gas.
* **C109** `C109_gas_reference_fails` (Chem/RefState.lean): With a gas as reference, enthalpies of gas and liquid at the boiling point and 101325 Pa do not differ by the enthalpy of vaporization but by the departure of the gas at the boiling point from that at the reference besides.
* **C109** `C109_melting_fails` (Chem/RefState.lean): Without a melting point, which the path does not need, gas enthalpies from a liquid reference are not available on a new object.
* **C109** `C109_stale_fails` (Chem/RefState.lean): If the enthalpy is not available at a state, the molar enthalpy is reset but enthalpy, entropies and Gibbs energies remain those of the state before; if the departure cannot be computed, the molar enthalpy is that without it.
* **C109** `C109_memo_fails` (Chem/RefState.lean): After a call refused for its pressure the temperature has changed and the properties have not; the next call at that temperature and the pressure before finds nothing to do and leaves them so. After a change of the reference a call at the same state does nothing either. A temperature of zero is ignored.
* **C110** `C110_contradiction_fails` (Chem/MixtureObj.lean): Contradicting arguments are accepted: the keys of a dictionary replace identifiers given beside it; with one component further compositions of any length pass, and a name replaces the mole fractions.
* **C110** `C110_failed_fails` (Chem/MixtureObj.lean): "Still want to set what variables that can be set": the test is on the name of the variable, not its value, so a failed flash at given pressure and enthalpy erases the temperature, while phase, compositions, quality and `V_over_F` of the earlier flash remain.
* **C110** `C110_eos_fails` (Chem/MixtureObj.lean): The list is an attribute of the class: every mixture reads the equation of state that was last assigned to any of them.
* **C110** `C110_rhom_fails` (Chem/MixtureObj.lean): So `rhom` is not one over the molar volume, nor `rho` over the molecular weight: a liquid of molecular weight 2 and a gas of 6, half and half.
* **C110** `C110_bulk_fails` (Chem/MixtureObj.lean): With two phases, reading `Vm`, `Cp`, `Cpm`, `SG`, `Z` or `isobaric_expansion`, and with the volume `Um`, `U`, `Am` and `A`, raises.
* **C110** `C110_SGg_fails` (Chem/MixtureObj.lean): `SGg` takes the molecular weight of the whole mixture with the volume of a gas of composition `ys`.
* **C110** `C110_Z_STP_fails` (Chem/MixtureObj.lean): "At 298.15 K and 101.325 kPa, and the current composition": the values follow the mixture's temperature and pressure; a gas of volume `RT/P + b`.
* **C110** `C110_expansion_fails` (Chem/MixtureObj.lean): With two phases the derivative is at the composition of the mixture and the volume at that of the phase: an ideal mixture of components with volumes `T` and `1 + 3T`.
* **C110** `C110_nugs_fails` (Chem/MixtureObj.lean): `nugs`, "pure component gas-phase kinematic viscosities", are those of the liquids.
* **C110** `C110_properties_fails` (Chem/MixtureObj.lean): Later calls return the first package whatever their arguments.
* **C111** `C111_Kw_documented_fails` (Chem/Electrolyte.lean): The documentation of the second formulation lists the coefficients of the first.
* **C111** `C111_load_fails` (Chem/Electrolyte.lean): `thermal_conductivity_Magomedov` does not load the tables: called first it raises, called after any other function it works.
* **C111** `C111_offered_fails` (Chem/Electrolyte.lean): The volume object looks at the viscosity coefficients: a solute with these only is offered and its density is `nan`; one with density coefficients only is not offered.
* **C111** `C111_limits_fails` (Chem/Electrolyte.lean): The upper limit is the largest, not the smallest: above the range of a component.
* **C112** `C112_unchecked_fails` (TDep/Offered.lean): For every unchecked argument there is an object that knows all else, lists the method, and fails to calculate it. The list of unchecked arguments is therefore complete and minimal.
* **C112** `C112_conductivity_fails` (TDep/Offered.lean): Liquid thermal conductivity with boiling point, critical constants and acentric factor: none of the three methods offered can be calculated, for want of the molar mass.
* **C112** `C112_default_fails` (TDep/Offered.lean): The default method may be one that cannot be calculated while a lower ranked one can: the enthalpy of vaporisation without a vapour pressure, the compressed liquid's volume and viscosity without one, and the gas's thermal conductivity under pressure without a molar volume.
* **C112** `C112_zero_fails` (TDep/Offered.lean): A value of zero counts as missing: with an acentric factor of zero the methods based on it are not offered although they could be calculated.
* **C112** `C112_no_data_fails` (TDep/Offered.lean): The VDI correlation of liquid viscosity is loaded all the same (viscosity.py 568: the test stands outside the block), and so is CoolProp for supercritical liquids.
* **C112** `C112_exported_fails` (TDep/Offered.lean): The JANAF tables, available for all three heat capacities, are in none of the exported lists; with them all the names are there.
* **C112** `C112_limits_fails` (TDep/Offered.lean): The sublimation enthalpy from the heat capacities has no limits recorded, although the constant it starts from has.
* **C112** `C112_aleem_fails` (TDep/Offered.lean): The correlation is evaluated with the heat capacity at `T`, the limit made with that at the boiling point: if the heat capacity grows, the value is negative inside the limits.
* **C113** `C113_validity_fails` (TDep/PhaseChange.lean): With a critical temperature the two methods with a value at 298.15 K are called valid at any temperature; above the critical one they give a complex number.
* **C113** `C113_window_fails` (TDep/PhaseChange.lean): Without a critical temperature a window of five kelvin is called valid, but the recorded limits are the single temperature, so calls inside the window are extrapolated all the same.
* **C113** `C113_clapeyron_fails` (TDep/PhaseChange.lean): At its upper limit, which is part of the range, it divides by zero; without a compressibility of the gas it uses an unbound name; both although the method was offered.
* **C113** `C113_mixed_fails` (TDep/PhaseChange.lean): A property object for one phase and a number for the other is not handled, whatever the values; and an enthalpy of vaporisation that cannot be found at the melting point is an error as well.
* **C113** `C113_reraise_fails` (TDep/PhaseChange.lean): The exception of the equation of state never reaches the caller; below the range of the equation of state the vapour pressure is zero.
* **C113** `C113_ppds9_fails` (TDep/PhaseChange.lean): The function fails precisely if neither coefficient is positive, or one of them is zero and the other is not negative.
* **C113** `C113_ppds9_order_fails` (TDep/PhaseChange.lean): The limits can be in the wrong order, and the viscosity can rise at both.
* **C114** `C114_low_kink_fails` (TDep/VolumeObj.lean): Otherwise there is a kink: here the fit falls at 100 K and the extension arrives level.
* **C114** `C114_low_linear_fails` (TDep/VolumeObj.lean): A straight line gets no extension, however it rises: the second derivative is divided by. Nor does a fit that falls at all trial points.
* **C114** `C114_low_positive_fails` (TDep/VolumeObj.lean): The extension can become negative before absolute zero although the fit is positive.
* **C114** `C114_compressed_positive_fails` (TDep/VolumeObj.lean): There is no limit to the compression: beyond some pressure the volume is negative.
* **C114** `C114_virial_positive_fails` (TDep/VolumeObj.lean): With a negative coefficient the volume is negative beyond the pressure `-R T/B`, and all of this is called valid.
* **C114** `C114_validity_fails` (TDep/VolumeObj.lean): The test of the vapour pressure written for the equation of state is never reached: the answer does not depend on it.
* **C114** `C114_supercritical_fails` (TDep/VolumeObj.lean): Above the critical point an equation of state with one root may name it a gas root. The value is then found, but the method is called invalid.
* **C114** `C114_supercritical_table_fails` (TDep/VolumeObj.lean): Tables over temperature and pressure are kept in `tabular_data_P`, but the lookup is in `tabular_data`: a table added by the user is not found unless one over temperature has its name.
* **C114** `C114_shared_fails` (TDep/VolumeObj.lean): But the object the caller sees in the shared list is left at the conditions of the last call.
* **C114** `C114_exported_fails` (TDep/VolumeObj.lean): One name of the method list is missing from the exported one, and one entry is not a name.
* **C115** `C115_third_fails` (Eos/MixSecond.lean): For a binary Peng-Robinson mixture the third derivatives are wrong (line 3939 takes `ε_j` where the variable is `k`).
* **C116** `C116_helmholtz_fails` (Eos/MixDeparture.lean): It fails for every van der Waals mixture, whose Helmholtz energy departure has second derivatives like any other: `1/sqrt(0)`. So do the functions at constant total volume.
* **C117** `C117_translated_fails` (Eos/MixClosed.lean): `PRMIXTranslated` and its subclasses override the name `d_lnphi_dzs` instead of `dlnphis_dzs` (7895), so their `dlnphis_dzs` is the untranslated formula. Two components which differ only in their translation: the fugacity coefficients are the same at every composition, and the method reports that exchanging one component for the other changes them.
* **C118** `C118_cross_model_fails` (Phases/VirialMix.lean): `cross_B_model='Zeros'` and `cross_C_model='Zeros'` are documented as using no cross parameters, but the settings are only stored: every interaction coefficient is the same as with the rule of Tarakad and Danner, and the cross coefficients are not zero.
* **C118** `C118_self_interaction_fails` (Phases/VirialMix.lean): The constructor accepts interaction parameters of a component with itself; then a mixture of which only that component is present has another second coefficient than the component.
* **C118** `C118_single_component_fails` (Phases/VirialMix.lean): For one component with the statistical mixing rule the coefficient reported does not depend on the composition, but the composition derivative reported is `2 z B`. The mole number derivatives are right nevertheless.
* **C119** `C119_lengths_fails` (Chem/ConstantsPackage.lean): nothing checks the lengths: two molecular weights and one critical temperature make a package of two components whose critical temperatures have one entry.
* **C119** `C119_subset_identity_fails` (Chem/ConstantsPackage.lean): the documentation says that all properties are included when none are named and all components when `idxs` is `None`; the result is nevertheless another object, because the atom fractions are lost.
* **C119** `C119_add_subset_fails` (Chem/ConstantsPackage.lean): removing the second summand from a sum does not give back the first.
* **C119** `C119_empty_fails` (Chem/ConstantsPackage.lean): an empty list of components is an `IndexError`, an empty slice is not.
* **C119** `C119_with_new_fails` (Chem/ConstantsPackage.lean): replacing nothing does not give an equal object: the atom fractions disappear.
* **C119** `C119_index_fails` (Chem/ConstantsPackage.lean): the documentation promises `IndexError` for identifiers that are not found; a CAS number raises `KeyError` and a name `ValueError`, which is also what a call without any identifier raises. And in a package with a component twice the CAS number and the name lead to different components.
* **C119** `C119_json_fails` (Chem/ConstantsPackage.lean): ceiling limits, documented as tuples like the other exposure limits, come back as lists.
* **C119** `C119_exposure_fails` (Chem/ConstantsPackage.lean): exposure limits, skin absorption and carcinogen status are computed for the components and then not handed over: whatever the tables say, the package has `None`. Nothing else is left out except economic and legal status and functional groups, which are not computed.
* **C120** `C120_mug_fails` (Chem/CorrelationsPackage.lean): the gas viscosity of the gas thermal conductivity objects is, in a package that makes its own objects, a *liquid* viscosity object; made by `_from_IDs`, the same object has the gas viscosity.
* **C120** `C120_user_fails` (Chem/CorrelationsPackage.lean): data of the user are looked up for all properties but the gas volume in `_from_IDs`; a package that makes its own objects ignores them for ten of these properties.
* **C120** `C120_add_skip_fails` (Chem/CorrelationsPackage.lean): packages made with `skip_missing`, as in the first example of the documentation (heat capacities only), cannot be added: `None + None`.
* **C120** `C120_subset_fails` (Chem/CorrelationsPackage.lean): `subset(None)`, documented as all components, is a `TypeError` as soon as one list is there; and mixture objects handed over by the user are gone from every subset of a package that skips missing objects.
* **C121** `C121_value_fails` (Flash/OnePhase.lean): a solver called without `require_eval` may return a point it has not evaluated (Newton's next step); then the phase returned is not the one at the value returned.
* **C121** `C121_unbound_fails` (Flash/OnePhase.lean): when the first attempt fails and no bounded attempt is asked for, or a bound is missing, the variable to be returned was never set: the caller gets an `UnboundLocalError` instead of the solver's error.
* **C121** `C121_lower_fails` (Flash/OnePhase.lean): the test for a missing lower bound looks at the upper bound twice (2804). Without a lower bound only the upper side is examined, and a solution below the transition is answered by "not bounded".
* **C121** `C121_guess_fails` (Flash/OnePhase.lean): the guesses from enthalpy models are never used, for any kind of phase: the guess is the last converged value or else the constant 298.15 K, 101325 Pa or 0.02447 m³/mol.
* **C121** `C121_zero_fails` (Flash/OnePhase.lean): a specified enthalpy or entropy of zero, which is the value of the reference state, leaves a tolerance of zero.
* **C121** `C121_TV_fails` (Flash/OnePhase.lean): the two combinations of temperature and volume that the documentation of the variables allows always fail, with every model: the pressure is used before it is set, and the fixed temperature is overwritten.
* **C122** `C122_other_fails` (Util/Identity.lean): An object equals the integer that is its hash, and comparing it with a list raises an exception: the other operand of `==` is never looked at, only its hash.
* **C122** `C122_unifac_fails` (Util/Identity.lean): The hash of `UNIFAC` does not cover the numbers of groups and their areas (`C97_hash_fails` has two such models with different activity coefficients).
* **C122** `C122_unhashable_fails` (Util/Identity.lean): No `GibbsExcessSolid`, `GraysonStreed`, `ChaoSeader` or `HumidAirRP1485` phase can be hashed or compared: their classes list attributes that their constructors do not set.
* **C122** `C122_caloric_fails` (Util/Identity.lean): Liquids whose enthalpies are computed in different ways, one from enthalpies of vaporization and one from vapor pressures, have the same model hash; so a flash takes the two for the same liquid.
* **C122** `C122_stale_fails` (Util/Identity.lean): A hash that was taken once is returned after every later assignment: two objects that now have different parameters still compare equal.
* **C122** `C122_state_fails` (Util/Identity.lean): The same state of the same equation of state, given once by pressure and once by volume, is unequal: the hash takes the attribute `V`, which is `None` if the pressure was given. And a mixture that kept only the liquid equals one that kept only the vapor, since `only_l` and `only_g` are not hashed.
* **C122** `C122_mixture_cache_fails` (Util/Identity.lean): Evaluating a property of a mixture changes its hash: it does not equal its copy any more (`prop_cached`, `TP_zs_ws_cached` are hashed).
* **C122** `C122_flash_solids_fails` (Util/Identity.lean): Flashers with entirely different solids are equal: hashing a solid raises an exception, and what cannot be hashed is skipped.
* **C122** `C122_correlations_fails` (Util/Identity.lean): Packages of correlations that belong to different constants, and even objects of different classes, are equal: `constants`, `skip_missing` and the class are not hashed.
* **C123** `C123_conversion_fails` (TDep/Fits.lean): The converted fit is another function: with the coefficients 1, 0 of the stable polynomial in the logarithm between 250 and 400 K for a critical temperature of 500 K, 1 instead of -1 at 250 K; every such fit with an even polynomial, or not in the logarithm, is kept.
* **C123** `C123_polynomial_fails` (TDep/Fits.lean): The derivatives of order one to three of a polynomial correlation raise a `TypeError`: its entry calls `horner_and_der` with a keyword `T` that is not a parameter of it; the polynomial fit has them all. The fourth derivative of a Chebyshev correlation is a finite difference while the Chebyshev fit has a formula for it.
* **C123** `C123_extrapolates_fails` (TDep/Fits.lean): A polynomial correlation cannot be extrapolated with the default linear extrapolation, while the same polynomial given as a fit can.
* **C123** `C123_integral_fails` (TDep/Fits.lean): A polynomial correlation of a property that is not a heat capacity has no integral: the look-up of its coefficients raises a `KeyError`, where the fit uses stored coefficients.
* **C124** `C124_explicit_fails` (TDep/Construct.lean): Any fit wins over the method asked for; and a method for a single allotrope that is asked for is replaced by a ranked one.
* **C124** `C124_empty_fit_fails` (TDep/Construct.lean): A polynomial fit without limits is accepted and becomes the active method although no coefficients are stored; every other fit without limits is refused.
* **C124** `C124_displaced_fails` (TDep/Construct.lean): Data from files displace a correlation given by the user under the same keyword: the one of the file becomes active; if that is one of the internal names, a ranked method does. If the names agree the data given by the user are lost, and under another keyword the construction fails.
* **C124** `C124_shared_dictionary_fails` (TDep/Construct.lean): The construction changes the dictionary of the caller: used for a second substance without data of its own under that keyword, it brings in the correlation of the first substance, and makes it active.
* **C124** `C124_repr_fails` (TDep/Construct.lean): An object with a polynomial fit whose active method is another one is rebuilt from its representation with the fit active; one with a stable or Chebyshev fit cannot be rebuilt, as the fit is not written and the method is unknown.
* **C124** `C124_as_poly_fit_fails` (TDep/Construct.lean): With another active method nothing is returned although there is a fit.
* **C124** `C124_json_fails` (TDep/Construct.lean): The vapour pressure of mercury set to another method comes back from JSON with the extra method active.
* **C124** `C124_add_fails` (TDep/Construct.lean): A refused correlation remains registered: it is listed among the methods, and adding the corrected one under the same name fails.
* **C125** `C125_precedence_fails` (Activity/ModelObjects.lean): Wilson does not: coefficients given one by one are dropped next to a tuple, and both next to an array.
* **C125** `C125_nrtl_fails` (Activity/ModelObjects.lean): Tau coefficients without alpha coefficients are dropped: the model has no interaction at all. A tuple with fewer than eight entries fails, while the other models fill up theirs.
* **C125** `C125_size_fails` (Activity/ModelObjects.lean): Sizes are compared with each other but not with the number of components: coefficients for two components make a model of three, whose third row cannot be read; and those of three make a model of two. Only the first row is looked at.
* **C125** `C125_ddbst_fails` (Activity/ModelObjects.lean): With the fifth or sixth parameter it is not: they are stored in each other's place.
* **C126** `C126_energy_fails` (Stream/Flows.lean): With the volumetric flows `Q`, `Ql` and `Qg` every energy is refused by accident, as is a reactive energy also with `Qls` and `Qgs`; and an energy with an enthalpy, which the message offers as a flow rate, is none.
* **C126** `C126_mass_enthalpy_fails` (Stream/Flows.lean): With a mass enthalpy the energy is dropped without a word.
* **C126** `C126_two_flows_fails` (Stream/Flows.lean): With an energy and an enthalpy two flow rates are accepted and one of them is dropped, as is the enthalpy.
* **C126** `C126_VfTP_fails` (Stream/Flows.lean): Liquid flows at conditions `Vf_TP` have the composition of these conditions and the mole flow of the reference conditions: the stream shows them at neither.
* **C126** `C126_existing_fails` (Stream/Flows.lean): With a flash that was done before, the composition of the flows is not compared with it: the mole flows of the stream are not its flow times its mole fractions.
* **C126** `C126_sum_fails` (Stream/Flows.lean): Mole fractions are taken as they are: with ones that do not sum to one the mole flows do not add up to the mole flow, and a liquid flow rate is not that of the stream.
* **C126** `C126_args_fails` (Stream/Flows.lean): A flow rate at other conditions is taken to be one at the conditions of the stream by the arguments made from the stream, and by the stream made from arguments (1782-1788), which hand on neither `Q_TP` nor `Vf_TP`.
* **C126** `C126_state_specs_fails` (Stream/Flows.lean): All specifications are listed only if none of them is a volume, an internal energy or another energy: of a flash at temperature and volume only the temperature is.
* **C127** `C127_sub_fails` (Stream/Legacy.lean): Nothing can be taken from a stream if the totals are equal, nor if one of the shared components has no flow, even though nothing of it is taken.
* **C127** `C127_stale_fails` (Stream/Legacy.lean): After another flash the stream shows the phase flows of the state before, and after `calculate` those of a phase that is gone.
* **C127** `C127_energy_fails` (Stream/Legacy.lean): With a mass enthalpy the energy is dropped.
* **C127** `C127_flow_fails` (Stream/Legacy.lean): With energy and enthalpy alone, as the message offers, a stream is refused, and the code for it (2212-2218) never runs; with two flow rates it is accepted.
* **C127** `C127_state_specs_fails` (Stream/Legacy.lean): Mass enthalpies and entropies are listed as molar ones, and molar ones as mass ones; all others by their own names.
* **C127** `C127_autoflash_fails` (Stream/Legacy.lean): One that could not be built, for instance with a misspelt component, turns them off for every mixture made later, until a stream without temperature or pressure is built.
* **C128** `C128_untranslated_fails` (Flash/GibbsMin.lean): Without translation flows can exceed the feed: the last phase then has a negative flow, its composition is that of the opposite flow, and the fractions add up to more than one.
* **C128** `C128_default_fails` (Flash/GibbsMin.lean): With the default method, and every other that uses gradients, two or more phases always raise a `TypeError`; `differential_evolution` does not.
* **C128** `C128_picked_fails` (Flash/GibbsMin.lean): If every flash was on the flat side, which means that no dew or bubble point was found, the first of them is returned as one.
* **C129** `C129_translation_fails` (Eos/PSRK.lean): The negation of "a volume translation leaves the attraction parameter alone": the rule is fed the translated covolumes, so constants `cs` change `a_alpha` and with it every phase equilibrium.
* **C129** `C129_fast_fails` (Eos/PSRK.lean): The negation of "`to_TP_zs_fast` works at the temperature of the object": from any object, solved or not, changing only pressure or composition raises `AttributeError`, since the derivatives of the pure parameters are not carried over.
* **C130** `C130_empty_fails` (TDep/MixMethods.lean): The negation of "an offered method has its data": with no constants given the length check compares empty lists and passes, so a gas mixture of two components has as its default conductivity a rule without its constants, and likewise for viscosity, volume and surface tension; the linear rule which would work is not chosen.
* **C130** `C130_volumes_fails` (TDep/MixMethods.lean): The negation of "the default surface tension has its data": it needs liquid volumes, which are not looked at.
* **C130** `C130_volume_columns_fails` (TDep/MixMethods.lean): The negation of "the volume of an aqueous solution is offered if densities are known": the columns of viscosity decide, both ways.
* **C130** `C130_load_fails` (TDep/MixMethods.lean): The negation of "without loading data no table is used": conductivity and heat capacity of solutions are offered all the same, viscosity and volume are not.
* **C130** `C130_water_twice_fails` (TDep/MixMethods.lean): The negation of "every list of identifiers works": with water listed twice the mass fractions are one longer than the solutes.
* **C130** `C130_keyword_fails` (TDep/MixMethods.lean): The negation of "the method of an object is one it has": a keyword is not checked; such an object raises in `calculate`.
* **C130** `C130_none_fails` (TDep/MixMethods.lean): The negation of "`method=None` is the default": an excess correlation is the method without the keyword, but not with `None`.
* **C130** `C130_repr_fails` (TDep/MixMethods.lean): The negation of "`__repr__` builds the object again": the correlation selected is gone, and the object built raises.
* **C130** `C130_valid_fails` (TDep/MixMethods.lean): The negation of "an available method is valid": where a method for aqueous solutions is offered, even the excess correlation the user has given, and which is the method of the object, is invalid, and the linear rule too.
* **C130** `C130_filippov_fails` (TDep/MixMethods.lean): The negation of "what is valid is available": the conductivity of liquids takes a rule for two components as valid for any number.
* **C130** `C130_Tmax_fails` (TDep/MixMethods.lean): The negation of "the upper limit is within the range of all components": the largest is taken. A limit of zero is no limit.
* **C130** `C130_solid_limits_fails` (TDep/MixMethods.lean): The negation of "solid volumes hold between 0 and 10000 K": the limits set are lost.
* **C130** `C130_pures_fails` (TDep/MixMethods.lean): The negation of "each component is corrected for pressure if it can be": the first one decides for all. An empty list raises.
* **C131** `C131_missing_fails` (Phases/MassFlows.lean): The negation of "without a flow all flows are `None`": `Qgs` raises where `Qg`, `n`, `Q` are `None`.
* **C131** `C131_bulk_fails` (Phases/MassFlows.lean): The negation of "the bulk of the liquids is a phase": its phase fractions are those of the whole result, so its molar volume and enthalpy are per mole of the result, its density is too high, its energy and volume flows are not those of the liquids, and its mass fraction is one whatever else is there.
* **C131** `C131_consistency_fails` (Phases/MassFlows.lean): The negation of "the checks work for every phase": of an ideal gas, with zero departures and fugacity coefficients of one, two of them divide by zero.
* **C131** `C131_dilution_fails` (Phases/MassFlows.lean): The negation of "activity coefficients at infinite dilution exist in every state": in a pure component nothing is left after taking it away, and the normalisation divides by zero.
* **C131** `C131_stored_fails` (Phases/MassFlows.lean): The negation of "the integrals of the pure liquids are computed": the list is kept under the name of the method, so the method finds itself, returns itself and never computes.
* **C131** `C131_state_fails` (Phases/MassFlows.lean): The negation of "every phase of a result can become a state": a solid has no assigned phase and raises; the bulk of a whole result raises; the bulk of the liquids beside a gas becomes a state whose phase fractions do not add up to one. Without result and flasher it is refused.
* **C132** `C132_sides_fails` (TDep/Derivatives.lean): The negation of "the derivative of the extrapolation is there wherever the extrapolation is": at the lower limit, and inside the range with `nearest`, the value is extrapolated and the derivative raises.
* **C132** `C132_derivative_fails` (TDep/Derivatives.lean): The negation of "the derivative is that of the property everywhere": with a constant extrapolation the property has a kink at the lower limit; the code gives the slope of the method.
* **C132** `C132_failure_fails` (TDep/Derivatives.lean): The negation of "a failing calculation gives `None` unless strict": the derivative inside the range raises whatever the setting, while the property gives `None`.
* **C132** `C132_inrange_fails` (TDep/Derivatives.lean): The negation of "with `in_range='low'` the low extrapolation is used": for a form without closed derivative the value differentiated numerically is that of the side nearer, so for temperatures closer to the upper limit the high extrapolation; and the integral and transform of such forms raise.
* **C132** `C132_transform_fails` (TDep/Derivatives.lean): The negation of "the transform is that of the property": the clamp enters the logarithm of a linear extrapolation but not of an Antoine extrapolation; and at the lower limit the ratio of a linear extrapolation raises while its logarithm does not.
* **C132** `C132_integral_fails` (TDep/Derivatives.lean): The integral of a form that is neither constant nor linear, inside the range with `in_range='low'`, evaluates an extrapolation that raises at each point.
* **C132** `C132_start_fails` (TDep/Derivatives.lean): The negation of "the search starts at temperatures where the property exists": for a wide range near zero the second point is negative, where the extrapolation raises.
* **C132** `C132_valid_fails` (TDep/Derivatives.lean): The negation of "the selected method comes first": a method added by the user is not in the ranking, so even selected and available it is not listed at all.
* **C133** `C133_pure_fails` (Eos/MixConstruct.lean): Without acentric factors, which some classes do not need, components cannot be taken out of the mixture.
* **C133** `C133_fast_fails` (Eos/MixConstruct.lean): With the limit, an object made from one above the limit keeps the parameter removed, while one built there has it; and the attribute `kappas` is in any case that of the old temperature.
* **C133** `C133_limit_fails` (Eos/MixConstruct.lean): With the limit, the same state given by pressure and volume or by temperature and pressure makes different models.
* **C133** `C133_rebuild_fails` (Eos/MixConstruct.lean): `APISRKMIX` forgets its interaction parameters: built again it has none.
* **C133** `C133_reloaded_fails` (Eos/MixConstruct.lean): With the limit, a reloaded object has lost the parameter for good.
* **C133** `C133_subset_fails` (Eos/MixConstruct.lean): Components can never be selected from an `APISRKMIX`: the interaction parameters are looked up among the keyword arguments.
* **C133** `C133_covolume_fails` (Eos/MixConstruct.lean): A given translation can make a covolume, and that of the mixture, negative without an error.
* **C133** `C133_error_fails` (Eos/MixConstruct.lean): `PRSV2MIX` divides by the critical temperatures before it looks at what was given.
* **C134** `C134_PH_mixture_fails` (Package/CaloricFlash.lean): For a mixture whose enthalpy jumps over the request the solver gives up and the code reads a name it never set.
* **C134** `C134_PS_fails` (Package/CaloricFlash.lean): For a mixture nothing is checked: when the entropy jumps over the request the flash reports success with another entropy.
* **C134** `C134_TS_fails` (Package/CaloricFlash.lean): For a mixture the flash at temperature and entropy too reports success with another entropy where the entropy jumps.
* **C134** `C134_overspecified_fails` (Package/CaloricFlash.lean): So a request with one input too many is not refused: the state reported need not have the pressure that was given.
* **C134** `C134_composition_fails` (Package/CaloricFlash.lean): The composition is: the object still shows the one of the flash before, not the one that failed.
* **C135** `C135_third_fails` (Activity/UnifacObject.lean): The third temperature derivative of the logarithmic activity coefficients cannot be had from a new object: it raises.
* **C135** `C135_third_history_fails` (Activity/UnifacObject.lean): The third derivative of the excess Gibbs energy can, since it needs the second first; but not from a copy at the same temperature of an object whose second derivative was computed: the copy takes over the second derivatives of the pure groups and not the sums they were made from.
* **C135** `C135_modified_fails` (Activity/UnifacObject.lean): The terms with the power of the volumes raise for the other versions.
* **C136** `C136_SG_fails` (Equilibrium/Getters.lean): The specific gravity of a mixture is not the density the same state reports for its reference volume over that of water: the density is averaged by mass and not by volume.
* **C136** `C136_value_fails` (Equilibrium/Getters.lean): `value(name, phase)` is not the property of the phase: of a list over components (such as `zs`) it is the value of the whole state for one component, the same for every phase composition; of a number (such as `H`) it raises; and the exception of a method which cannot be called is hidden, the bound method being returned as value. `value('beta_mass')` of a phase raises whenever the state has no attribute of that name, although the phase has.
* **C136** `C136_getters_fails` (Equilibrium/Getters.lean): Getters which cannot be used: `phase.molar_water_content()` and `state.B_from_Z()` find no such method; `state.n`, `state.m`, `state.ns` and `state.ms` of a plain `EquilibriumState` are methods which raise when called, though `state.Q` and `state.Qls` are values; `state.nu(phase)`, a method of the class body, is replaced by a getter without argument.
* **C137** `C137_entropy_fails` (TDep/HelmholtzGas.lean): the entropy function itself is not an antiderivative of `Cp/T`: for a monatomic gas between 100 and 200 K it is short by `R ln 2`.
* **C137** `C137_convert_fails` (TDep/HelmholtzGas.lean): two Planck–Einstein entries: only the last is kept (`thermo/coolprop.py` 375-377 assigns, the generalized ones are extended). A generalized entry followed by one of temperatures loses the exponents of the first. An unknown type raises.
* **C137** `C137_mutation_fails` (TDep/HelmholtzGas.lean): the conversion changes its argument: with two generalized entries the lists of the first are extended in the JSON data, so that a second conversion of the same data has more terms than the first.
* **C138** `C138_underspecified_fails` (Phases/States.lean): with only a temperature a cubic phase and ice return a phase without pressure and volume instead of raising, and CoolProp raises `UnboundLocalError`.
* **C138** `C138_default_fails` (Phases/States.lean): `DryAirLemmon()` is not at atmospheric pressure but at 298.15 Pa: the default temperature is written for both.
* **C138** `C138_alias_fails` (Phases/States.lean): an object obtained from the cache is not the caller's: when the cache is full and a new state of the same fluid is asked for, the oldest object is itself updated, so whoever still holds it sees the new state.
* **C138** `C138_fallback_fails` (Phases/States.lean): whether a state is refused depends on what was computed before: below the maximum a refused phase is retried in the other one, but with a full cache the same call raises, and the oldest state is lost.
* **C138** `C138_composition_fails` (Phases/States.lean): an object reused for a key without composition keeps the composition of its former key.
* **C138** `C138_constants_fails` (Phases/States.lean): the flag is never set, so each new phase empties the cache of all others: after constructing any number of phases it holds at most one state.
* **C138** `C138_from_AS_fails` (Phases/States.lean): the key written by `from_AS` (used for the saturated phases of a flash with given vapor fraction) has the density of the phase it was called on: it describes the new phase only if the two densities agree, so everything read later through `AS` is at another density.
* **C139** `C139_second_fails` (Eos/SatDrivers.lean): if the secant fails, the second solution is looked for between 0.001 and 10000 K as a whole, where there is no change of sign (the intervals on both sides of the first solution are in a branch never reached, 1737): the choice is ignored and the one solution known is returned.
* **C139** `C139_f0_fails` (Eos/SatDrivers.lean): the second call of `secant` is given the residual of the first guess as that of the other one.
* **C139** `C139_newton_fails` (Eos/SatDrivers.lean): the result of Newton's method, which is called without requiring a check of its last value, is returned whatever it is: even for a fluid without two phases anywhere.
* **C139** `C139_Tsat_fails` (Eos/SatDrivers.lean): if the first part does not return, the result of the unbounded Newton on the fugacities is returned without any check; and the check after the last one compares the error with the pressure for equality, so a result with any other error passes.
* **C140** `C140_PSRK_fails` (Phases/Direct.lean): a phase with the PSRK equation has no direct fugacity coefficients (`ValueError`), so successive substitution and the stability test fail for it.
* **C140** `C140_flory_fails` (Phases/Direct.lean): Flory-Huggins and Hansen liquids are dispatched to the regular solution equation.
* **C140** `C140_buffer_fails` (Phases/Direct.lean): for an activity model both calls return the same list: the coefficients kept from the first composition are replaced by those of the second.
* **C140** `C140_most_stable_fails` (Phases/Direct.lean): asked for the more stable root, a gas phase still uses only the gas root, a liquid phase only the liquid one.
* **C140** `C140_humid_C_fails` (Phases/Direct.lean): the third one is not: the coefficient of dry air has the square of its mole fraction instead of the cube. It is right only for pure air, without air, or if that coefficient vanishes.
* **C141** `C141_point_fails` (Flash/MixDrivers.lean): temperature and volume as variables have no starting point (the pressure is never bound).
* **C141** `C141_mixing_fails` (Flash/MixDrivers.lean): and strictly more for immiscible phases: none instead of `R log 2`.
* **C141** `C141_solution_fails` (Flash/MixDrivers.lean): the high and the low solution of a mixture are the same: the choice is checked and then not used.
* **C141** `C141_spec_fun_fails` (Flash/MixDrivers.lean): when the first algorithm fails, the second one solves for the number instead of the function.
* **C141** `C141_fraction_fails` (Flash/MixDrivers.lean): for a fraction between zero and one only the bounded algorithm can succeed, although the simultaneous one is listed after it: the guess of the composition it is called with is not bound. With several liquid models nothing is tried at all.
* **C141** `C141_unstable_fails` (Flash/MixDrivers.lean): a result may be one that the stability test rejects.
* **C141** `C141_damping_fails` (Flash/MixDrivers.lean): a damped step starts from the older point, so it does not stay at a solution: from an error of zero it goes back by `(1 - damping)` of the last step (the default of `SS_VF_simultaneous` is 0.8).
* **C141** `C141_trivial_fails` (Flash/MixDrivers.lean): in the first pass equal compositions are accepted: two phases of one composition and equal fugacity coefficients end the iteration at once, whatever the variable, if the property is met.
* **C141** `C141_first_fails` (Flash/MixDrivers.lean): for a given fraction the first guess of the fraction is the temperature or pressure.
* **C142** `C142_mass_fails` (Chem/Derived.lean): Where the enthalpy of formation of the gas is found from that of the liquid, only the value per kilogram is set: the molar value, the Gibbs energy, the entropy of formation and the enthalpy of combustion of the gas stay unknown.
* **C142** `C142_combustion_fails` (Chem/Derived.lean): Where the enthalpy of formation of a liquid is derived from that of the gas, it is reported but the enthalpy of combustion with it is not, even where the reaction is known.
* **C142** `C142_solid_fails` (Chem/Derived.lean): Of a solid, and where the phase is not known, entropy, Gibbs energy and entropy of formation are never known, whatever the data.
* **C142** `C142_vaporization_fails` (Chem/Derived.lean): The molar entropy of vaporization at the boiling point is computed from the enthalpy per kilogram: it is wrong by the factor `1000/MW`, except for molar masses of 1000. The entropies of fusion and sublimation are computed from molar values.
* **C142** `C142_triple_fails` (Chem/Derived.lean): A correlation without a value at the triple point is named as the source all the same.
* **C142** `C142_solid_volume_fails` (Chem/Derived.lean): The volume of the liquid at the triple point, from which the volume of the solid is found, is that at the melting point: right only where the two agree.
* **C142** `C142_context_fails` (Chem/Derived.lean): A context with the databases already loaded does not restore them.
* **C142** `C142_unreadable_fails` (Chem/Derived.lean): A file that cannot be read leaves the databases before it loaded and those of before lost, for good: the body is not run and nothing is restored.
* **C142** `C142_alias_fails` (Chem/Derived.lean): Setting the databases to the list of those loaded removes them all.
* **C142** `C142_marshal_fails` (Chem/Derived.lean): The compiled database cannot be written, for any data: the variable of the row is replaced by that of a property.
* **C142** `C142_columns_fails` (Chem/Derived.lean): Even where it is written, the surface tension is read as a volume; the other columns are read as what they were written for.
* **C143** `C143_make_fails` (Flash/Setup.lean): An object with one activity liquid cannot be made without a gas, nor with a gas that is neither ideal nor cubic, as a virial gas.
* **C143** `C143_ideal_fails` (Flash/Setup.lean): Two phases of the ideal gas equation are taken for cubic phases with a saturation pressure, contrary to the test meant to exclude them.
* **C143** `C143_refused_fails` (Flash/Setup.lean): An object that is refused leaves the phases before the offending one bound to its constants: the same phase is then refused by the object it was made for.
* **C143** `C143_missing_fails` (Flash/Setup.lean): A missing gas never raises the message meant for it, and a missing liquid only with a gas without ideal gas basis. An object is made exactly with both phases.
* **C143** `C143_round_trip_fails` (Flash/Setup.lean): With an activity liquid that has its own vapor pressure, the saturation temperature at the saturation pressure is another temperature: one flash reads the liquid, the other the object.
* **C143** `C143_supercritical_fails` (Flash/Setup.lean): An activity liquid with an ideal gas has a saturated state at every temperature, also above the critical one.
* **C143** `C143_melting_guess_fails` (Flash/Setup.lean): Above the triple pressure the melting temperature is searched from a million kelvin, the number meant for a pressure, outside every phase's limits of 10000 K.
* **C143** `C143_helium_fails` (Flash/Setup.lean): For helium the realistic range begins at zero, whose logarithm raises: critical temperatures below 6 K are rounded to zero.
* **C143** `C143_volumes_fails` (Flash/Setup.lean): Without a cubic phase no volumes can be made unless a least one is given.
* **C143** `C143_covolume_fails` (Flash/Setup.lean): With phases of different co-volumes the least is taken, below which the others have no pressure.
* **C143** `C143_grid_fails` (Flash/Setup.lean): In the other order the result is the same as in this one: rows belong to the second variable although the plot puts the first on its axis, and no error is raised when both have the same number of values, as by default.
* **C143** `C143_solid_grid_fails` (Flash/Setup.lean): Solid fractions are prepared but not passed on: the grid has one variable too few and raises.
* **C144** `C144_spiro_fails` (Groups/Counts.lean): "The rings have to share a wall": rings of a spiro compound share an atom but no bond, and are counted.
* **C144** `C144_ring_atoms_fails` (Groups/Counts.lean): A ring of six carbon atoms is not found if no oxygen is asked for explicitly.
* **C144** `C144_cis_trans_fails` (Groups/Counts.lean): Equal tags are read as cis by one function and as trans by the other: two condensed carbon rings of five or six atoms count twice as trans exactly if they count as cis.
* **C144** `C144_free_fails` (Groups/Counts.lean): A free ring is not counted if it is the only one, although two free rings count as two.
* **C144** `C144_organic_fails` (Groups/Counts.lean): The list of inorganic molecules given is not read, and the restriction of atoms does not apply to the molecules listed as organic.
* **C144** `C144_spelling_fails` (Groups/Counts.lean): The parameters depend on the spelling: methanol written `OC` is the same molecule as `CO` but gets those of the other alcohols.
* **C144** `C144_halides_fails` (Groups/Counts.lean): The correction of halides is not small: with data of chloromethane the parameter is below -60000, that of a ketone with the same data above -1.
* **C145** `C145_seed_fails` (TDep/Fitting.lean): The folds do not depend on the seed: the shuffled order is not used.
* **C145** `C145_criteria_fails` (TDep/Fitting.lean): With fewer points the correction is negative: nine parameters for five points are preferred to three with the same error, and a perfect fit with one point more than parameters is the worst of all.
* **C145** `C145_coefficients_fails` (TDep/Fitting.lean): "The number of coefficients": fits of numpy have one more, so up to as many points as given are fitted with one coefficient more than points.
* **C145** `C145_statistics_fails` (TDep/Fitting.lean): With a transform that decreases, such as `log(1 - T/Tc)`, the form is evaluated at the mirrored point, and with data that do not reach the limits at another point.
* **C145** `C145_deviations_fails` (TDep/Fitting.lean): Points with the value zero count as met, whatever is calculated.
* **C145** `C145_auto_fails` (TDep/Fitting.lean): Without data, the default, nothing can be fitted; nor if the first number of coefficients exceeds the number of points.
* **C145** `C145_twu_fails` (TDep/Fitting.lean): With an exponential that is constant some consistent functions are rejected, for example the constant one.
* **C145** `C145_start_fails` (TDep/Fitting.lean): All starting values but the first are used in reverse order.
* **C145** `C145_restart_fails` (TDep/Fitting.lean): If no minimization of the first pass is accepted an exception is raised, although the second would start again.
* **C146** `C146_order_fails` (TDep/FitModel.lean): In another order the values are exchanged.
* **C146** `C146_default_fails` (TDep/FitModel.lean): An argument with another default that is neither given nor fitted is 0 in the fit but has its default later: the base of Antoine's equation and the exponent of Watson's.
* **C146** `C146_count_fails` (TDep/FitModel.lean): The parameters counted are not those adjusted: with four points a fifth is counted but not fitted, given ones are counted, as are optional ones that cannot be fitted and the molecular weight.
* **C146** `C146_overfit_fails` (TDep/FitModel.lean): The criterion then prefers five parameters on four points to two with the same error.
* **C146** `C146_no_candidates_fails` (TDep/FitModel.lean): With a margin larger than the number of points there are no candidates, so that the choice raises.
* **C146** `C146_two_fails` (TDep/FitModel.lean): Two parameters are taken whenever cross-validation asks for them, although both criteria take one.
* **C146** `C146_folds_fails` (TDep/FitModel.lean): With at most three points there is no cross-validation and the candidate with the smallest error of the fit is taken, whatever its number of parameters.
* **C146** `C146_choice_fails` (TDep/FitModel.lean): An unknown criterion or no candidates raise only after all fits.
* **C146** `C146_guess_fails` (TDep/FitModel.lean): Without several tries the guess of the user is not used if a guess of the model has a smaller error.
* **C146** `C146_bounds_fails` (TDep/FitModel.lean): With three guesses or fewer the bounds are 0 and 1000 whatever the guesses.
* **C146** `C146_bounds_once_fails` (TDep/FitModel.lean): Bounds of the user hold for the first fit only, for example for the first candidate of a selection.
* **C146** `C146_maxfev_fails` (TDep/FitModel.lean): The limit of a fit with a Jacobian is kept for later fits without one that use the same dictionary.
* **C147** `C147_stuck_fails` (Eos/VolumeResult.lean): Where the denominator of the Halley step is zero the polishing loop repeats the same volume until its iterations are used up and returns it, whatever its error.
* **C147** `C147_pole_fails` (Eos/VolumeResult.lean): A pole of the attraction is returned as a volume.
* **C147** `C147_dropped_fails` (Eos/VolumeResult.lean): A vapor in which the attraction is negligible is returned as the only volume, although there are liquid volumes with the same pressure.
* **C147** `C147_last_fails` (Eos/VolumeResult.lean): A volume found before the last iteration is the first of the result, one found in the last is lost.
* **C147** `C147_covolume_fails` (Eos/VolumeResult.lean): If the covolume is a pole of the attraction there is a division by zero.
* **C147** `C147_third_fails` (Eos/VolumeResult.lean): On the third try volumes which failed are returned if the pressure is off by less than five thousand times its value: here 4 is returned where the pressure is not 1.
* **C147** `C147_low_liquid_fails` (Eos/VolumeResult.lean): The error of the liquid is not tested: a guess with zero slope is returned as volume, with a pressure far below the given one.
* **C147** `C147_low_far_fails` (Eos/VolumeResult.lean): A liquid volume above one and a half times the covolume is lost if the attraction is not tiny and there is none below, although Newton's method found it.
* **C148** `C148_order_fails` (TDep/CpPieces.lean): Gas and solid data stored in another order raise an exception while the object is constructed; the liquid class takes the same data.
* **C148** `C148_nested_fails` (TDep/CpPieces.lean): Sorting by lower limit is not enough: a piece lying inside another one makes the construction raise in the liquid class as well.
* **C148** `C148_gap_fails` (TDep/CpPieces.lean): The method's limits run over gaps between pieces: with data for 300-500 K and 700-1000 K a request at 600 K counts as within range and is answered with the coefficients of the upper piece, below its own lower limit.
* **C148** `C148_sixth_fails` (TDep/CpPieces.lean): The withheld names are numbered from zero and the pieces from one, so a sixth piece is printed as the user's correlation while the other five and the method over them are not; the name numbered zero belongs to no piece.
* **C148** `C148_joback_fails` (TDep/CpPieces.lean): Without a melting point the method is never within range: below its upper limit it has no value at all although every coefficient is known, and above it is extrapolated.
* **C148** `C148_export_fails` (TDep/CpPieces.lean): A piecewise method over a table exports its list of parts without the table, and the constructor then raises because the part is unknown.
* **C148** `C148_limits_fails` (TDep/CpPieces.lean): With several methods, of which one prints its parameters, the limits of the selected method are left out whichever it is: the count of methods is tested for being nonzero instead of one.
* **C149** `C149_clamped_fails` (Activity/Regress.lean): A regressed Wilson parameter need not be one of the model: any value below the minimum gives the residuals of the minimum, so a negative value can fit data exactly while the model with that value gives a negative activity coefficient.
* **C149** `C149_sum_fails` (Activity/Regress.lean): The two parameters of the regular solution model cannot be told apart by any data: only their sum enters, so exact fits are never unique.
* **C149** `C149_other_method_fails` (Activity/Regress.lean): In all other kinds of regression they raise, because the general function of the derivatives is passed in place of the wrapper defined for the fitted parameters.
* **C150** `C150_list_of_arrays_fails` (Serialize/Arrays.lean): A list of arrays is left as it is and cannot be written.
* **C150** `C150_list_fails` (Serialize/Arrays.lean): A list of the object comes back as an array.
* **C150** `C150_mixed_fails` (Serialize/Arrays.lean): Integers beside a float become floats, numbers beside a string become strings, truth values beside a number become numbers: the elements of a mixed list are not kept.
* **C150** `C150_type_fails` (Serialize/Arrays.lean): An array of integers without elements comes back as an array of floats, and an array of objects without a missing value as an array of numbers.
* **C150** `C150_tuple_fails` (Serialize/Arrays.lean): A tuple of two arrays of the same length comes back as one array of two rows.
* **C150** `C150_uneven_fails` (Serialize/Arrays.lean): Loading raises when lists of different lengths stand one level deeper, when a number stands beside a list, or when the only list of the list is itself uneven.
* **C150** `C150_references_fails` (Serialize/Arrays.lean): In a `vectorized` object a list of objects is lost: the field of the loaded object is an array of the names, whatever the document holds.
* **C150** `C150_option_fails` (Serialize/Arrays.lean): The objects below are written with all their fields under every option.
* **C151** `C151_joule_thomson_fails` (Chem/Sheets.lean): The Joule-Thomson coefficient in the table of a liquid is that of the gas.
* **C151** `C151_range_fails` (Chem/Sheets.lean): A lower limit of zero is not used, and with an unknown melting point and a critical point below 273.15 K all temperatures but the last are above the critical point.
* **C151** `C151_same_name_fails` (Chem/Sheets.lean): Of two chemicals with the same name only the later one is in the table.
* **C151** `C151_formation_fails` (Chem/Sheets.lean): The heat of formation is labelled per mole and is per mass: it is the molar one only for a molecular weight of 1000 g/mol or a value of zero.
* **C151** `C151_streams_fails` (Chem/Sheets.lean): Of a stream with the same CAS number twice only the first quantity is shown, and of two components with the same name only the later row.
* **C151** `C151_load_fails` (Chem/Sheets.lean): When a later file could not be read it is never looked for again, even when it can be read now.
* **C151** `C151_oecd_fails` (Chem/Sheets.lean): Asked for the list of the OECD the answer is that the chemical is on it, for every chemical.
* **C151** `C151_shared_fails` (Chem/Sheets.lean): A caller who changes the list of bands changes what every later call returns.
* **C152** `C152_half_added_fails` (TDep/Exports.lean): A correlation that raises for a missing entry is nevertheless selected, and kept among the methods.
* **C152** `C152_not_selectable_fails` (TDep/Exports.lean): A pressure correlation cannot be selected as the method for pressures, whatever the object; instead it becomes the method for temperatures, for which it has no formula.
* **C152** `C152_method_lost_fails` (TDep/Exports.lean): With a pressure correlation the method for temperatures asked for (the one the first part selected) is never the one in use, unless of the same name.
* **C152** `C152_critical_fails` (TDep/Exports.lean): From the critical temperature on all temperatures are one: the transformed variable is the same and its inverse is below the critical temperature.
* **C152** `C152_interpolation_fails` (TDep/Exports.lean): The form named `interpolation` calls the transformation of temperature of the class, which is `None` in the base class and for volumes, heat capacities, conductivities, surface tensions: an exception.
* **C152** `C152_unsaved_fails` (TDep/Exports.lean): Without saving (the default) nothing is returned: all fits are made and dropped, whatever the class and the method.
* **C153** `C153_bromine_fails` (Groups/Priority.lean): Bromine, iodine and phosphorus do not count, so that a larger group may have no higher priority than the smaller one it contains, whatever their numbers.
* **C153** `C153_triple_fails` (Groups/Priority.lean): A bond written with the plain word `triple` does not count.
* **C153** `C153_hydrogen_bromide_fails` (Groups/Priority.lean): The group for the whole molecule of hydrogen bromide has a lower priority than the group for a bromine atom and is tried after it; it is assigned only because a match of all heavy atoms without all hydrogens is passed over.
* **C153** `C153_unreadable_fails` (Groups/Priority.lean): For a text that cannot be read the documented five values are not returned: the callers raise instead of learning of the failure.
* **C154** `C154_ceos_fails` (Util/Repr.lean): A phase of a cubic equation of state without heat capacities, which is allowed, comes back with the empty list of heat capacities, and then with no components at all.
* **C154** `C154_virial_fails` (Util/Repr.lean): A virial gas without heat capacities is not recreated.
* **C154** `C154_gibbs_unprinted_fails` (Util/Repr.lean): The flags, Henry's law parameters, supercritical volumes and extrapolation of an activity coefficient liquid are not printed: any of them that is not at its default is lost.
* **C154** `C154_gibbs_basis_fails` (Util/Repr.lean): A basis set for the equilibrium or for the caloric properties is printed without quotes, which cannot be run.
* **C154** `C154_solid_fails` (Util/Repr.lean): A solid of activity coefficients can never be printed: it looks for correlations under names it does not store them under.
* **C154** `C154_iapws_fails` (Util/Repr.lean): Water without a phase prints its enthalpy of formation, a fixed attribute of the class that its constructor does not take.
* **C154** `C154_air_pressure_fails` (Util/Repr.lean): Dry air made without arguments is at a pressure of 298.15 Pa; other phases are at 101325 Pa.
* **C154** `C154_equilibrium_fails` (Util/Repr.lean): The specifications, the convergence report, the constants, the correlations, the flasher and the settings of an equilibrium state are not printed.
* **C154** `C154_stream_args_fails` (Util/Repr.lean): Arguments of a stream are never recreated: whether there is a flasher is printed in place of it, `True` or `False`.
* **C154** `C154_text_empty_fails` (Util/Repr.lean): Asked for constants none of which is known, a package prints its name cut by one letter and no opening bracket.
* **C154** `C154_text_delimiter_fails` (Util/Repr.lean): With a delimiter of one character the last printed character is lost, with one of three the first of the delimiter stays.
* **C155** `C155_solid_fails` (Equilibrium/Ownership.lean): Solids are assigned no kind: a state made of a solid of a result raises an exception, and a solid that was a liquid of an earlier result is taken for a liquid; one in no result works.
* **C155** `C155_stale_fails` (Equilibrium/Ownership.lean): A phase that has told its flow keeps it: a second stream of another flow made of the first one has the flows of the first in all phases asked before, whatever its own flow.
* **C155** `C155_taken_fails` (Equilibrium/Ownership.lean): A stream takes its phases from the flash it is made of: the first stream, whose phases were not asked, then answers with the flows of the second.
* **C156** `C156_documented_fails` (Phases/HenryLaw.lean): The documented form, six matrices, raises with fewer than six components.
* **C156** `C156_documented_six_fails` (Phases/HenryLaw.lean): With six components it is taken silently, and number, row and column change places: the parameter `k` of the pair `(i, j)` is read from matrix `i`, row `j`, column `k`.
* **C156** `C156_missing_fails` (Phases/HenryLaw.lean): Under the rule `solvents` a solvent without parameters counts as one with the constant 1 Pa: half of such a solvent takes the root of the constant of the other.
* **C156** `C156_retry_fails` (Phases/HenryLaw.lean): A failed call for vapor pressures is not: asked again, the phase returns the part of the list that was filled, without an exception; if only the Henry's law constants had failed, the correlations in their place.
* **C157** `C157_inverse_fails` (TDep/Tables.lean): With the transformation of vapor pressures and liquid viscosities, the points of a table of three or four are given to the interpolation in decreasing order. Everywhere below the last temperature it takes the line through the last two points; at the last temperature the line through the first two.
* **C157** `C157_vapor_pressure_fails` (TDep/Tables.lean): So a table of vapor pressures returns its first value only if the points lie on a line: here they do not.
* **C157** `C157_repeated_fails` (TDep/Tables.lean): A repeated temperature is accepted, although of two values at one temperature only one can be returned.
* **C157** `C157_grid_large_fails` (TDep/Tables.lean): A grid of five pressures or more has no value at any point within it, although it has values outside.
* **C157** `C157_border_fails` (TDep/Tables.lean): Without extrapolation the points on the border of the grid have no value, although `interpolate_P` itself accepts them.
* **C157** `C157_names_fails` (TDep/Tables.lean): Unnamed series of pressure replace one another; so does an unnamed series of temperature a series the user named like it.
* **C158** `C158_mixed_fails` (Eos/Containers.lean): The same lists and arrays make a mixture of one equation and not of another: lists of constants with an array of compositions, and the reverse.
* **C158** `C158_consistent_fails` (Eos/Containers.lean): With arrays and no translations given, the consistent classes cannot be made, as `numpy.max` is given a limit for its axis.
* **C158** `C158_asymmetric_fails` (Eos/Containers.lean): With interaction parameters that are not symmetric, the first derivative of the array form is wrong although its value follows the mixing rule.
* **C158** `C158_third_fails` (Eos/Containers.lean): The third derivative is that of a linear mixing rule: it ignores interaction parameters.
* **C159** `C159_high_fails` (Flash/VaporFraction.lean): One interval encloses the value, so it is used, although the function turns in another and has the value at higher temperatures too.
* **C159** `C159_second_turn_fails` (Flash/VaporFraction.lean): Only the first interval in which the function turns is searched: here the value is reached in the second, and there is an exception.
* **C159** `C159_extremum_fails` (Flash/VaporFraction.lean): A value equal to the extremum is an exception, although it is reached there.
* **C159** `C159_unspecified_fails` (Flash/VaporFraction.lean): Without a request, of two solutions the upper is sought if a node lies between them and the lower if none does.
* **C159** `C159_zero_fails` (Flash/VaporFraction.lean): An extremum at a node changes no sign and is not searched; the guess divides by its slope.
* **C159** `C159_stale_fails` (Flash/VaporFraction.lean): The secant method returns a temperature it has not evaluated. With the value before, a specified value above the extremum is taken as not reached: an exception, although both solutions are on the grid.
* **C160** `C160_guess_fails` (Phases/CriticalPoint.lean): One missing critical pressure or temperature replaces both guesses by 300 K and 1 MPa, even if the component is absent from the phase, and the constants of the package are not looked at.
* **C160** `C160_last_fails` (Phases/CriticalPoint.lean): The volume is not looked up at the answer: if the last call was elsewhere, as in a matrix of differences, it is the volume of that other state.
* **C160** `C160_tolerance_fails` (Phases/CriticalPoint.lean): Away from an exact solution there can be several volumes and the one stored depends on which attribute exists: van der Waals' equation two percent below its critical temperature.
* **C160** `C160_second_fails` (Phases/CriticalPoint.lean): Without a volume the first call raises whatever was asked for, and a second call for temperature or pressure returns it.
* **C160** `C160_half_fails` (Phases/CriticalPoint.lean): `CEOSPhase` stores temperature and pressure before it has a volume: if there is none, the volume raises and the others do not.
* **C160** `C160_bulk_fails` (Phases/CriticalPoint.lean): The compressibility of a bulk of two phases is not the one of its temperature, pressure and volume.
* **C161** `C161_refused_fails` (Eos/Transitions.lean): If no answer is accepted, the last one refused is returned.
* **C161** `C161_temperature_fails` (Eos/Transitions.lean): An exact zero of the function solved is not a transition, as the function keeps the temperature of the object beside the attraction.
* **C161** `C161_constant_fails` (Eos/Transitions.lean): For an attraction that does not depend on temperature, as of van der Waals, the function solved is constant: no transition is found from an object that is not at one, although there is one.
* **C161** `C161_guess_fails` (Eos/Transitions.lean): The guess of the user is tried last: if any built-in guess leads to an accepted answer, it has no influence.
* **C161** `C161_bound_fails` (Eos/Transitions.lean): The bound 1 K, when it is the last answer, is reported as a transition, and the search from high temperatures, which would find one, is not made.
* **C161** `C161_repeated_fails` (Eos/Transitions.lean): One guess of the high side is listed twice, so one of the attempts is a repetition.
* **C161** `C161_nothing_fails` (Eos/Transitions.lean): At no pressure the residual is zero for every equation of state; the side of low pressures returns that answer, refused in the loop, if it is the last.
* **C161** `C161_unassigned_fails` (Eos/Transitions.lean): A class without Chebyshev coefficients has no lower transition whatever the iteration, and no upper one at and above the critical temperature: `Tr` is not assigned.
* **C161** `C161_subcritical_fails` (Eos/Transitions.lean): Below the critical temperature the limit given is returned for every equation of state and every limit; the parameter is not computed.
* **C161** `C161_extrapolated_fails` (Eos/Transitions.lean): The series is evaluated at the pressure from which it starts: the volume is that of the gas there, at whatever pressure the object is.
* **C162** `C162_unmarked_fails` (Phases/Transport.lean): An unmarked `CEOSGas` whose equation of state has only a liquid volume takes viscosity and conductivity from liquid correlations but has no surface tension, and the other way round for a `CEOSLiquid` with only a gas volume.
* **C162** `C162_solid_mark_fails` (Phases/Transport.lean): A cubic phase marked as solid has the viscosity of a liquid, while conductivity and surface tension read a variable that no branch has assigned.
* **C162** `C162_solid_fails` (Phases/Transport.lean): Activity coefficient solids report viscosity and conductivity of the liquid, although they are no liquid for the surface tension.
* **C162** `C162_virial_fails` (Phases/Transport.lean): Virial gases have a viscosity but no conductivity, the call raises `AttributeError`.
* **C162** `C162_ignored_fails` (Phases/Transport.lean): An ideal gas marked as liquid has the viscosity of a gas and the surface tension of a liquid; an activity coefficient liquid marked as gas the viscosity of a liquid and no surface tension.
* **C162** `C162_stale_fails` (Phases/Transport.lean): A phase that was asked for its viscosity before it became the liquid of a state keeps the viscosity of the gas, while its conductivity and surface tension are those of the liquid.
* **C162** `C162_shared_fails` (Phases/Transport.lean): One object that is the liquid of one state and the gas of a later one keeps the surface tension it was asked for in between; asked only afterwards it has none.
* **C162** `C162_unknown_fails` (Phases/Transport.lean): When the viscosity is unknown the phase answers `None` while the state and, for an unknown conductivity, the thermal diffusivity raise.
* **C162** `C162_mixed_fails` (Phases/Transport.lean): After a viscosity that was asked for too early, the Prandtl number of a liquid is the viscosity of the gas over the conductivity of the liquid.
* **C163** `C163_automatic_fails` (Data/Databases.lean): "Get an interaction parameter for the first table containing the value" returns `None` for the 1274 components that only the second table with Twu parameters for Peng-Robinson contains, for instance `100-06-1`.
* **C163** `C163_undeclared_fails` (Data/Databases.lean): A table without a default for a parameter that it stores is not looked at: the call raises.
* **C163** `C163_pair_automatic_fails` (Data/Databases.lean): Four tables have the type `henry` and the first has 41 rows: for `100-02-7` in water, which a later table contains, the coefficient is zero. CAS numbers are written without dashes.
* **C163** `C163_unsorted_fails` (Data/Databases.lean): Validation does not look at the order of the components in a key: a symmetric table with an unsorted key passes, and its value is never found, whatever the order in the question.
* **C163** `C163_default_fails` (Data/Databases.lean): Nor at the defaults: in a valid table a necessary parameter of a pair that is not stored raises if it has no default.
* **C164** `C164_two_fails` (TDep/Allotropes.lean): A second method for the first allotrope puts its lower limit in front a second time, and a second one for the last appends its upper limit again; the constructor then raises an exception about inconsistent ranges. A second method for one in between replaces the first in the joining method.
* **C164** `C164_single_fails` (TDep/Allotropes.lean): With a single allotrope at the transitions the upper limit is not appended, and the constructor raises an exception.
* **C164** `C164_database_fails` (TDep/Allotropes.lean): Constructing an object writes the methods of the allotropes into the loaded data of the substance itself, from which later objects are made.
* **C164** `C164_growing_fails` (TDep/Allotropes.lean): If the substance is listed among its own allotropes, a second object has a method with the name of the allotrope twice, and its joining method is refused.
* **C164** `C164_caller_fails` (TDep/Allotropes.lean): A dictionary given by the caller receives the methods of the substance and of its allotropes.

# Partial theorems

What holds where the full property does not, or was not proved.

* **C01** `C01_at_most_two_state_specs_partial` (Stream/ArgsProps.lean): Along every history that never sets `H_reactive` and sets `energy` / `energy_reactive` only while a flow is specified, the object holds at most two state specifications. Missing for the full claim: the three keys excluded by `BenignRun`, for which the claim is false (`C01_energy_overspecifies`, `C01_H_reactive_overspecifies`).
* **C03** `C03_constructor_keeps_partial` (Stream/ArgsProps.lean): Every specification other than `H_reactive` passed to a constructor call with at most one composition and at most one flow specification is stored unchanged. Missing for the full claim: `H_reactive`, for which it is false (`C03_H_reactive_dropped`).
* **C03** `C03_copy_partial` (Stream/ArgsProps.lean): `copy()` of an object without `H_reactive`/`energy_reactive` and with at most one composition and one flow specification and at most two state specifications is equal to it.
* **C04** `C04_flash_is_fresh_partial` (Stream/Flash.lean): Starting from an object that has not flashed yet, after every history of edits and flashes during which the flasher stays in place and the mass-enthalpy specification keeps one value (in particular: is never used), `flash_state` returns what a fresh flash of the current specifications returns. Missing for the full claim: changes of `H_mass` and of the flasher, for which it is false (`C04_stale_after_H_mass`, `C04_stale_after_flasher`).
* **C05** `C05_single_unknown_outlet_partial` (Stream/MoleBalanceProps.lean): All inlets known and exactly one outlet not: if that outlet has no known component flow at all, or is the only outlet, `mole_balance` succeeds and every component balances. Missing for the full claim: an unknown outlet that has some known entries next to other outlets, where the claim is false (`C05_unbalanced_when_partly_known`).
* **C05** `C05_single_unknown_inlet_partial` (Stream/MoleBalanceProps.lean): the mirror image.
* **C06** `C06_known_flows_kept_partial` (Stream/MoleBalanceProps.lean): `mole_balance` never changes a known component flow of any stream, unless it takes the single-unknown-stream branch with that one stream partly known. Missing for the full claim: exactly that case, where it is false (`C06_overwrites_known`).
* **C07** `C07_single_unknown_partial` (Stream/EnergyBalanceProps.lean): With exactly one stream of unknown energy, and not in the one-in-one-out shortcut, and that stream not already given by two state variables and a flow (then the call raises, `C07_overdetermined_raises`), the balance succeeds, closes exactly, and changes no stream whose energy was known. Missing for the full claim: the shortcut (`C07_shortcut_partial`, `C07_shortcut_does_not_close`).
* **C07** `C07_shortcut_partial` (Stream/EnergyBalanceProps.lean): One material stream in, one out, molar enthalpy known on one side: the balance closes when both molar flows are known and equal.
* **C07** `C07_two_unknown_inlets_partial` (Stream/EnergyBalanceProps.lean): When exactly the two inlets `i0 < i1` have unknown energy, are `StreamArgs` with specified states of different mass enthalpy, no other inlet is a `StreamArgs` with a specified state, and all other material streams have a mass flow, then with `use_mass` both balances close exactly. Missing for the full claim: the hypothesis that no third inlet is a specified `StreamArgs`; without it see `C07_two_unknowns_wrong_stream`.
* **C08** `C08_round_trip_partial` (Serialize/Json.lean): For every heap of objects, with any sharing and cycles, whose finite set of objects reachable from the root has only clean fields: `as_json` succeeds, `from_json` succeeds on its result, and the loaded graph is isomorphic to the reachable part of the original — a bijection `ρ` between reachable objects and loaded objects that preserves the root, class names, field names, values and every reference. Recursion depth at most the number of objects suffices. Missing for the full claim: strings starting with `pyid_` in searched fields (false, see `C08_pyid_string_corrupted`).
* **C10** `C10_cache_unobservable_partial` (TDep/Props.lean): After any history of calls, method selections, additions of methods and data and changes of extrapolation in which no name is re-used and the extrapolation is not changed while a value outside the limits is memoised, a call answers what a new object with the current configuration answers. Missing: the excluded histories, for which the claim is false (`C10_extrapolation_change_stale`, `C10_readded_method_stale`, `C10_readded_table_stale`).
* **C13** `C13_integral_partial` (TDep/Extrapolate.lean): Without clamping the integral returned for the `constant` and `linear` forms is the integral of the extrapolated property. Missing: objects with `extrapolation_min` or `extrapolation_max`, for which it is not (`C13_clamp_ignored`).
* **C13** `C13_integral_over_T_partial` (TDep/Extrapolate.lean): The same for the integral of the property over temperature.
* **C15** `C15_cache_unobservable_partial` (TDep/Pressure.lean): After any history of calls at arbitrary `(T, P)` or `(T, None)`, selections of the pressure-dependent method, additions of pressure tables under new names, and temperature-side changes made while nothing is memoised, a call answers what a new object with the current configuration answers. Missing: a change of the temperature-dependent method or of the extrapolation after a call, and the re-use of a table name; there the claim is false (`C15_method_change_stale`, `C15_readded_table_stale`).
* **C16** `C16_returned_value_partial` (TDep/Mixture.lean): A returned value is the one the selected method computed, it is within the plausibility bounds unless that check is switched off, and — when `skip_method_validity_check` is *set* — the method's validity test accepted the conditions. Missing: the same for the default setting, where the validity test is never consulted (`C16_default_skips_check`).
* **C18** `C18_success_partial` (Groups/Fragment.lean): When it reports success and every recorded match lies in the molecule, every heavy atom is in exactly one assigned match and the hydrogens of the assigned groups add up to those of the formula. Missing: matches recorded in the molecule with explicit hydrogens for groups that consist of hydrogen only (`C18_unmatched_atom_success`).
* **C19** `C19_counts_partial` (Groups/Fragment.lean): If no atom is in two matches, or overlap removal is off, the returned counts are those of the surviving matches, which are all of them. Missing: overlaps that are removed (`C19_counts_before_removal`).
* **C23** `C23_dgammas_dns_partial` (Activity/GibbsExcess.lean): `dgammas_dns` is the derivative of the activity coefficients with respect to amounts when the row sums `Σ_k x_k ∂²GE/∂x_i∂x_k` are equal for all components and the second derivatives are symmetric. This is so for expressions that are homogeneous of first order in the mole fractions up to a multiple of `n ln n` (Wilson, NRTL, UNIQUAC, regular solution). Missing: other expressions, for which it fails (`C23_dgammas_dns_fails`).
* **C30** `C30_one_of_two_partial` (Eos/RootSelect.lean): After a solve with two roots of which only one was computed, `resolve_full_alphas` refreshes the phase that was computed. Missing: both phases (`C30_both_fails`) and single roots, for which see `C30_single_partial`.
* **C30** `C30_single_partial` (Eos/RootSelect.lean): With a single physical root, away from the critical point, the root is recomputed with the full terms; when the phase identification parameter does not change side with the terms, that is all there is. Missing: a change of side (`C30_single_stale`).
* **C33** `C33_PRSV_third_partial` (Eos/Alpha.lean): What the third derivative of `PRSV` is: that of the attraction with `kappa` frozen at the value of the temperature, so it is right exactly where `kappa` does not vary (`kappa1 = 0`).
* **C37** `C37_zeros_sound_partial` (Eos/Discriminant.lean): What the filter keeps is a zero of the discriminant when the root is real; partial because complex roots are kept too (next theorem).
* **C39** `C39_combined_rows_absent_partial` (Eos/MixRule.lean): For an absent component the combined evaluator sums only over the components listed after it.
* **C40** `C40_VDW_sum_partial` (Eos/LnPhi.lean): `VDW_lnphis` sums to the mixture value exactly when `√a` is the mole fraction average of the `√a_i`, as without interaction parameters.
* **C42** `C42_clear_state_specs_partial` (Stream/ArgsProps.lean): `clear_state_specs` removes every state specification provided `H_reactive` was not set. The full claim (no proviso) is false: `C42_clear_state_keeps_H_reactive`.
* **C43** `C43_constructor_rejects_two_totals_partial` (Stream/Reconcile.lean): Two of the total flows `n`, `m`, `Q` are rejected by the constructor. Missing for the full claim: `Ql` and `Qg`, for which it is false (`C43_constructor_accepts_two_total_flows`).
* **C45** `C45_progress_is_real_partial` (Stream/MoleBalanceProps.lean): When the component-wise stage reports progress and every stream has a writable list, at least one previously unknown flow is known afterwards.
* **C50** `C50_excess_correlation_partial` (TDep/Mixture.lean): When the number of components equals the number of temperature parameters the value is the linear rule plus the Redlich–Kister sum over all pairs. Missing: every other number of components, where the claim is false (`C50_pairs_dropped`, `C50_raises`).
* **C51** `C51_unnamed_is_new_partial` (TDep/AutoName.lean): If no name given by the user has the form of an invented one, a series added without a name gets a name not in use and no other series changes, after any history. Missing: names of that form given by the user (`C51_named_series_overwritten`) and the pressure tables (`C51_pressure_series_overwritten`), where the claim is false.
* **C55** `C55_VDW_partial` (Eos/LnPhi.lean): `VDW_lnphis` uses `√a √a_i` in place of the row sum; it is right when the two agree, in particular when all interaction parameters vanish.
* **C67** `C67_caloric_partial` (Phases/Virial.lean): Enthalpy and entropy of the gas obey `dH = T dS + V dP`; all supplied derivatives except the isobaric temperature derivatives are the partial derivatives they are named after.
* **C69** `C69_volume_reads_partial` (Equilibrium/State.lean): (partial: the two properties share one cache attribute.) A first access to `betas_volume` or `betas_volume_liquid_ref` of a new state returns the right fractions, and so does every later access to the same property as long as the other one has not been read first; what is missing is the other order, see `C69_shared_cache_fails`.
* **C69** `C69_quality_partial` (Equilibrium/State.lean): (partial: no solids.) The vapour quality is the mass fraction of the gas if there are no solid phases; what is missing is a state with solids, see `C69_quality_fails`.
* **C70** `C70_liquid_bulk_partial` (Equilibrium/State.lean): (partial: only the molar flows.) The mole flow of the liquid bulk and the mole flow of each component in it are the sums over the liquids. Its volume, enthalpy, mass, volume flow, energy and density are wrong unless there are only liquids, see `C70_liquid_bulk_scaled` and `C70_liquid_bulk_fails`.
* **C71** `C71_gas_liquid_partial` (Equilibrium/Mixing.lean): Gas and one or more liquids, no solids, one liquid or any mixing rule for the liquids: every accepted setting for gas and liquid other than the two which treat everything as one phase gives a value between bounds on the property of the phases (partial: the property of two or more liquids is assumed to be within the bounds, which the mole-weighted rules of the liquid bulk do not guarantee, see `C71_liquid_bulk_fails`; correlations other than those of McAdams and Cicchitti are not modelled).
* **C71** `C71_liquid_bulk_partial` (Equilibrium/Mixing.lean): The liquid bulk: with the mass or volume weighted rules (the default is mass weighted), the minimum or the maximum, the property of the liquid bulk lies between bounds on that of the liquids (partial: with mole weighting it does not if there is a gas or a solid, see `C71_liquid_bulk_fails`).
* **C72** `C72_H_C_ratio_partial` (Equilibrium/Reports.lean): The ratio of two atoms of the whole state is the ratio of their contents; `None` is returned exactly without the second atom. Missing: the ratio of a phase, which is not what is returned (`C72_H_C_ratio_fails`).
* **C72** `C72_humidity_partial` (Equilibrium/Reports.lean): The humidity ratio of the whole state is the mass of water per mass of everything else. Missing: the ratio of a phase, which is not what is returned (`C72_humidity_fails`).
* **C73** `C73_dep_partial` (Equilibrium/Reports.lean): The entropy departure is the difference if all phases have the overall composition (in particular for one phase), and then `G_dep` is `G - G_ideal_gas`.
* **C74** `C74_wilson_partial` (Equilibrium/PhaseId.lean): For a mixture the Wilson score is positive if all components prefer the gas (all K values above one) and negative if all prefer the liquid.
* **C74** `C74_best_gas_partial` (Equilibrium/PhaseId.lean): Without a phase that is forced to be a gas the identification succeeds, and the gas has the largest vapour score of the phases that are not solid. Missing: phases forced to be a gas, see the refutations.
* **C77** `C77_S_dep_partial` (Phases/Helmholtz.lean): `S_dep` is the entropy above that of the ideal gas at the same temperature and *density*. A departure is meant at the same pressure: missing is `R ln Z`, and `G_dep` exceeds `RT ln φ` by `RT ln Z`.
* **C80** `C80_basis_partial` (Phases/Special.lean): Enthalpy and entropy are those of the specific Gibbs energy `RTG`, and the heat capacity is the derivative of the enthalpy *times the molar mass*: `H` and `S` are per kilogram, `Cp` is per mole. Missing is a common basis.
* **C84** `C84_Hvap_G_partial` (Phases/ExcessLiquid.lean): With enthalpies of vaporization and neither Poynting factors nor fugacity coefficients at saturation, the departure Gibbs energy is still the one of the fugacity coefficients. Partial: heat capacity and the other choices are wrong, see below.
* **C85** `C85_caloric_partial` (Phases/ExcessState.lean): Enthalpy and entropy follow a `caloric_basis` if the `equilibrium_basis` has the same name, or if it is `Hvap`. Partial: they ignore all other choices, see below.
* **C85** `C85_solid_partial` (Phases/ExcessState.lean): A solid uses Poynting factors if asked to.
* **C85** `C85_to_partial` (Phases/ExcessState.lean): Given temperature and pressure, `to` returns a phase at that state, as `to_TP_zs` does. Partial: other pairs leave attributes unset.
* **C86** `C86_phi_sat_partial` (Phases/ExcessState.lean): Below the critical temperature, `dphis_sat_dT` is the derivative of `phis_sat` if it is so for the equation of state; where both fail below a tenth of the critical temperature, so do the values used instead. Partial: above the critical temperature it is wrong, see below.
* **C86** `C86_volumes_partial` (Phases/ExcessState.lean): The two agree unless volumes of equations of state are used; a fit is never used together with them (388).
* **C86** `C86_phis_at_partial` (Phases/ExcessState.lean): Without Henry's law components, `phis_at` uses the vapor pressures of the composition it is given.
* **C87** `C87_incompressible_partial` (Phases/ExcessState.lean): The sign of `dP_dT` is the opposite of that of `dV_dT`. Partial: for a stable liquid the two have the same sign.
* **C89** `C89_liquids_partial` (Flash/Dispatch.lean): Every liquid gets a phase of its own model if the distinct models come first, in particular if all are distinct or all are the same. Partial: see below for other orders.
* **C90** `C90_several_partial` (Flash/Substitution.lean): With several phases the returned fractions and compositions make up the feed and are in the ratios of the fugacity coefficients of the returned phases. Partial: the phases have other compositions, see below.
* **C91** `C91_spec_row_partial` (Flash/Newton.lean): With derivatives `d`, `dr` of the phases at the compositions of the iteration the row is that of the derivatives of the equation. Missing: the code takes them from other phases, see C91_spec_fails.
* **C93** `C93_pure_stable_partial` (Flash/SatPoints.lean): With a single liquid, at a zero no liquid is more stable than the gas. With several this is not so, see below.
* **C94** `C94_specfun_partial` (Flash/Pure.lean): It would be right for the specified value zero only.
* **C94** `C94_grid_partial` (Flash/Pure.lean): The upper part of the grid starts inside the range. The weights of the end of the lower part do not sum to one: it is inside the range only if the least temperature is at most half of the highest, and overlaps with the upper part if it is more than an eleventh.
* **C95** `C95_bounds_partial` (Flash/MultiPhase.lean): For temperature the bounds used are those of temperature.
* **C95** `C95_energy_partial` (Flash/MultiPhase.lean): With at most three components or three phases the result has at most the Gibbs energy of the first solution found.
* **C95** `C95_fractions_partial` (Flash/MultiPhase.lean): Results with three phases at most have fractions between zero and one, except those of the repeated substitution.
* **C96** `C96_removed_partial` (Flash/Mixing.lean): The composition after removal has no negative fractions and sums to one, unless nothing is left.
* **C96** `C96_follow_partial` (Flash/Mixing.lean): If the existing mixture is not the one with the phase, the fraction to follow is chosen from a flash of the existing mixture.
* **C96** `C96_final_partial` (Flash/Mixing.lean): With a single value with the phase the bracket is on the side where the phase vanishes.
* **C96** `C96_direct_partial` (Flash/Mixing.lean): The direct solution returns the fraction of water of the gas whose wet bulb temperature was matched if the gas given is dry and the unknown found is not negative.
* **C96** `C96_cricondenbar_partial` (Flash/Mixing.lean): On the bubble curve, parametrized by temperature, the criterion of the cricondenbar vanishes where pressure has zero slope, and nowhere else unless the sum with pressure derivatives vanishes too.
* **C97** `C97_entry_partial` (Activity/Unifac.lean): The interaction terms agree when the table has entries of the form that goes with the model.
* **C97** `C97_missing_partial` (Activity/Unifac.lean): Every pair of different groups for which the table has nothing is listed, and what is listed has no first parameter. Groups of the same main group, and pairs whose first parameter is zero, are listed as well.
* **C97** `C97_hash_partial` (Activity/Unifac.lean): Models with the same hash data, groups and areas are the same.
* **C99** `C99_Tc_partial` (Groups/Estimates.lean): Where the denominator is positive the estimated critical temperature exceeds the boiling point by at least 22 %. What is missing: the denominator is not always positive, see `C99_Tc_fails`.
* **C99** `C99_alkane_partial` (Groups/Estimates.lean): For normal alkanes the estimate lies above the boiling point up to 73 carbon atoms …
* **C99** `C99_init_partial` (Groups/Estimates.lean): When the atom count is not given, or the molecular weight is, the sizes are the given ones or else those of the molecule. What is missing: see `C99_init_fails`.
* **C99** `C99_wj_Pc_partial` (Groups/Estimates.lean): The pressure estimate is positive whenever the atoms and groups outweigh the rings: each ring costs 0.0290403, the sum counts 0.041 for each unit.
* **C101** `C101_boiling_partial` (Functional/Checks.lean): only at and above 110 kPa.** A liquid found with the boiling point is one according to any vapor pressure curve that does not decrease and is 101325 Pa at the boiling point.
* **C102** `C102_count_partial` (Flash/Trials.lean): With ordinary `K` values and at most 1000 random numbers there are four trials from the `K` values, one more if an aqueous phase is expected, one per component and the number of random ones asked for. Missing: larger numbers, see `C102_random_fails`.
* **C102** `C102_name_partial` (Flash/Trials.lean): The first four trials are given their names. Missing: the trials after them, see `C102_pure_name_fails`, and those with `K` values of zero, see `C102_zero_name_fails`.
* **C102** `C102_guesses_partial` (Flash/Trials.lean): With positive `K` values and without a number of random guesses, all guesses are compositions of the mixture. Missing: see `C102_random_size_fails`.
* **C102** `C102_constrained_partial` (Flash/Trials.lean): The fractions from the constrained search add to one, and if those found are not negative and meet the constraint, they are a composition. Missing: see `C102_constraint_fails`.
* **C103** `C103_wrapper_TP_partial` (Package/Ideal.lean): After a flash at temperature and pressure, without a vapor fraction, phase, compositions and vapor fraction agree. Missing: a vapor fraction given as well, see `C103_overspecified_fails`.
* **C104** `C104_enthalpy_partial` (Package/Caloric.lean): If liquid enthalpy does not depend on pressure, the enthalpy of two phases is that of the gas and that of the liquid, weighted by their amounts. Missing: liquids depending on pressure, which is the default, see `C104_enthalpy_fails`.
* **C104** `C104_entropy_partial` (Package/Caloric.lean): For phases of the same composition, as for a pure substance, the entropy is that of its phases. Missing: see `C104_entropy_fails`.
* **C104** `C104_limits_partial` (Package/Caloric.lean): At the dew point two phases have enthalpy and entropy of the gas; at the bubble point they have the entropy of the liquid, and its enthalpy if that does not depend on pressure. Missing: the enthalpy at the bubble point, see `C104_bubble_fails`.
* **C104** `C104_potentials_partial` (Package/Caloric.lean): At partial pressures by the law of Raoult every component has the same chemical potential in both phases, if liquid enthalpy does not depend on pressure. Missing: the default, see `C104_potentials_fails`.
* **C104** `C104_partial` (Package/Caloric.lean): Partial properties of a gas, the derivatives of amount times property by the amount of one component, are for the enthalpy the enthalpy of the pure component and for the Gibbs energy its chemical potential.
* **C106** `C106_lnphis_lowest_partial` (Eos/MixState.lean): Once computed, the logarithms of fugacity coefficients returned are those of the phase with the lowest Gibbs energy.
* **C106** `C106_Psat_pure_partial` (Eos/MixState.lean): The vapour pressure of a one component mixture is that of the pure component without polishing, for both values of `polish`.
* **C107** `C107_unstable_partial` (Eos/MixEquil.lean): A mixture declared unstable is unstable, if both trials ended with another label than the reference and the limit of the totals is not finer than the tolerance of the trials: there is a composition with negative tangent plane distance. (The default limit `1e-7` is finer than the default tolerance `1e-12`, the root of which is `1e-6`.)
* **C108** `C108_reference_partial` (Chem/Formation.lean): At the reference temperature the values given are returned, if all elements are then in the phase their integrals start from; at 298.15 K that is so for every element supported but bromine and mercury. Missing: these two, see `C108_reference_fails`.
* **C108** `C108_cache_partial` (Chem/Formation.lean): After any calls the cache has at most 250 entries; if compounds of different atoms have different hashes, the reaction used is that of the compound. Missing: compounds of equal hash, see `C108_collision_fails`.
* **C108** `C108_absolute_partial` (Chem/Formation.lean): The absolute entropy is that of the solid up to melting, of fusion, of the liquid and so on: of the gas if it is asked for or stable, of the liquid if it is stable. The derivative by the temperature is the heat capacity of that phase over it. Missing: solids, see `C108_absolute_fails`.
* **C109** `C109_entropy_partial` (Chem/RefState.lean): The entropy differs from the reference value by the difference of a function of phase and temperature, and the pressure term of an ideal gas if phase and reference phase are the same fluid phase or gas from liquid. For a liquid from a gas the enthalpy of vaporization at the temperature would have to be that at the boiling point. Missing: see `C109_vaporization_fails`, `C109_pressure_fails`.
* **C109** `C109_excess_partial` (Chem/RefState.lean): With departures the enthalpy is that of the real fluid up to a constant, if the reference is a gas and the state a gas, or the reference a liquid at 101325 Pa. At the reference state the reference value results. Missing: other references, see `C109_liquid_reference_fails` and `C109_gas_reference_fails`.
* **C109** `C109_thermo_partial` (Chem/RefState.lean): If all parts are available the attributes are those of the state, whatever they were before, and the Gibbs energies are consistent. Missing: failures, see `C109_stale_fails`.
* **C109** `C109_calculate_partial` (Chem/RefState.lean): On an object whose properties are current, `calculate` at positive temperature and pressure makes them current at the state asked for. Missing: objects that are not current, see `C109_memo_fails`.
* **C110** `C110_failed_partial` (Chem/MixtureObj.lean): After a flash that fails the seven attributes are the arguments (the molar ones converted), and all others are as before. Missing: that what stays belongs to the new state; see `C110_failed_fails`.
* **C110** `C110_eos_partial` (Chem/MixtureObj.lean): An equation of state assigned to a mixture is read back from it as long as none is assigned to any mixture afterwards. Missing: that assignments to other mixtures do not matter; see `C110_eos_fails`.
* **C110** `C110_bulk_partial` (Chem/MixtureObj.lean): Bulk properties are those of the phase there is. Missing: two phases; see `C110_bulk_fails`.
* **C110** `C110_SGg_partial` (Chem/MixtureObj.lean): The specific gravity of the gas is its density over that of air if the gas has the molecular weight of the mixture. Missing: two phases, see `C110_SGg_fails`.
* **C110** `C110_Z_STP_partial` (Chem/MixtureObj.lean): `Zl_STP` and `Zg_STP` are right for a mixture that is at 298.15 K and 101325 Pa.
* **C110** `C110_expansion_partial` (Chem/MixtureObj.lean): The expansion coefficient of a phase is the derivative of its volume over the volume if it has the composition of the mixture.
* **C110** `C110_properties_partial` (Chem/MixtureObj.lean): The first `properties()` has what was asked for. Missing: later calls; see `C110_properties_fails`.
* **C111** `C111_load_partial` (Chem/Electrolyte.lean): Every call of a function that loads the tables succeeds, and after one all calls do. Missing: `thermal_conductivity_Magomedov` as the first; see `C111_load_fails`.
* **C111** `C111_offered_partial` (Chem/Electrolyte.lean): So does the volume object if density and viscosity coefficients of the solutes are there or missing together. Missing: other solutes; see `C111_offered_fails`.
* **C111** `C111_limits_partial` (Chem/Electrolyte.lean): The lower limit of the mixture objects is one at which all components are within theirs.
* **C112** `C112_default_partial` (TDep/Offered.lean): The default of a class without unchecked arguments can be calculated.
* **C112** `C112_nonzero_partial` (TDep/Offered.lean): Without zeros among the arguments, a method that depends on arguments alone is offered exactly if the tested arguments are known.
* **C112** `C112_no_data_partial` (TDep/Offered.lean): With `load_data=False` the tables play no part, but for the viscosity of liquids and the volume of supercritical ones.
* **C112** `C112_exported_partial` (TDep/Offered.lean): The exported lists name exactly the methods that can become available, but for the heat capacities.
* **C112** `C112_range_partial` (TDep/Offered.lean): With plausible arguments no temperature range is empty, but for one of the methods for the enthalpy of vaporisation.
* **C112** `C112_aleem_partial` (TDep/Offered.lean): With a constant heat capacity the value is not negative within the limits of `ALEEM`, and without a critical temperature it vanishes at the upper one.
* **C113** `C113_valid_partial` (TDep/PhaseChange.lean): The other methods are valid only where the value is real and not negative.
* **C113** `C113_clapeyron_partial` (TDep/PhaseChange.lean): The Clapeyron equation below the critical point: positive when the gas is the more voluminous phase and the vapour pressure is below the critical pressure.
* **C113** `C113_ppds9_partial` (TDep/PhaseChange.lean): With a solver that finds zeros, the slopes at the two limits are never of opposite sign.
* **C114** `C114_supercritical_partial` (TDep/VolumeObj.lean): Where it is called valid, the value is the liquid root; and where either root exists the value is found.
* **C115** `C115_third_partial` (Eos/MixSecond.lean): Third derivatives, when the derivatives of `ε` by the second and third mole number agree, as in all equations with a constant `ε`. Missing: the other equations (see `C115_third_fails`).
* **C119** `C119_subset_all_partial` (Chem/ConstantsPackage.lean): `subset()` keeps everything except the atom fractions.
* **C119** `C119_with_new_partial` (Chem/ConstantsPackage.lean): `with_new_constants` takes the named properties from its arguments and the others, except the atom fractions, from the object.
* **C123** `C123_correlation_partial` (TDep/Fits.lean): A correlation with the same limits and coefficients as a fit is the same function, with the same derivatives, unless it is a stable or Chebyshev form in the logarithm.
* **C123** `C123_conversion_partial` (TDep/Fits.lean): The conversion keeps the value, and all derivatives, of every other fit.
* **C123** `C123_orders_partial` (TDep/Fits.lean): A correlation has the formulas of the fit of the same form for the orders one to three, except for the fourth derivative of the Chebyshev series and for all derivatives of the plain polynomial.
* **C124** `C124_explicit_partial` (TDep/Construct.lean): A method asked for by keyword is the active one if no fit is given and it is not one of the methods for a single allotrope.
* **C124** `C124_user_partial` (TDep/Construct.lean): Without data from files, tables, piecewise methods, fits and a method asked for, the last correlation of the first keyword is the active method, and all correlations hold the data given.
* **C124** `C124_dictionary_partial` (TDep/Construct.lean): The dictionary of a keyword for which the files have nothing is left as it is.
* **C124** `C124_repr_partial` (TDep/Construct.lean): Without fits, the object built from the representation has the same active method.
* **C124** `C124_as_poly_fit_partial` (TDep/Construct.lean): With an active fit, the call written builds an object with that fit active.
* **C124** `C124_json_partial` (TDep/Construct.lean): A substance without extra methods keeps its active method through JSON, and so does one whose active method is the last extra one.
* **C124** `C124_add_partial` (TDep/Construct.lean): A correlation that is accepted becomes active; one with a name in use leaves the object as it was.
* **C125** `C125_ddbst_partial` (Activity/ModelObjects.lean): The conversion is right with the last two parameters exchanged, and hence if both are zero.
* **C126** `C126_Qls_partial` (Stream/Flows.lean): Liquid volume flows given are those of the stream, if they are not meant at other conditions (`Vf_TP`).
* **C126** `C126_Qgs_partial` (Stream/Flows.lean): Gas volume flows given are those of the stream, if they are not meant at other conditions (`Q_TP`).
* **C126** `C126_energy_partial` (Stream/Flows.lean): An energy given with one flow rate of a kind the code knows is the enthalpy handed to the flash times the mole flow.
* **C126** `C126_args_partial` (Stream/Flows.lean): The stream made from the arguments of a stream is that stream: same composition, flows and enthalpy. Streams with `Vf_TP`, `Q_TP`, an earlier flash or a second flow rate are left out.
* **C127** `C127_sub_partial` (Stream/Legacy.lean): What is left is the difference up to a billionth of a thousandth of the product, and not negative; and nothing is refused if there is enough.
* **C127** `C127_phases_partial` (Stream/Legacy.lean): A new stream shows the flows of its phases, and in two phases they add up to its flow. After `calculate` the flows of the phases present are right.
* **C127** `C127_energy_partial` (Stream/Legacy.lean): An energy given without a mass enthalpy is the energy of the stream.
* **C127** `C127_state_specs_partial` (Stream/Legacy.lean): A specification of temperature, pressure or vapor fraction, of an energy or none of the others is listed by its own name.
* **C127** `C127_autoflash_partial` (Stream/Legacy.lean): After streams that could all be built, mixtures are flashed automatically.
* **C128** `C128_picked_partial` (Flash/GibbsMin.lean): A point returned was evaluated, and if any was on the side of the boundary where the error means something, so is it, and it is the last such.
* **C129** `C129_fast_partial` (Eos/PSRK.lean): `to_TP_zs_fast` to another temperature takes everything at the new temperature and composition. Missing: the same temperature, `C129_fast_fails`.
* **C130** `C130_ready_partial` (TDep/MixMethods.lean): With all lists and objects given, every method offered finds its data complete. Missing: omitted lists pass the check (`C130_empty_fails`), and the volume of aqueous solutions is offered by the columns of viscosity (`C130_volume_columns_fails`), hence the hypothesis `hd`.
* **C130** `C130_repr_partial` (TDep/MixMethods.lean): An object without excess correlations is built again from the method `__repr__` shows. Missing: correlations are not shown (`C130_repr_fails`).
* **C130** `C130_valid_partial` (TDep/MixMethods.lean): Every available method is valid in an object without a method for solutions. Missing: with one, all others are rejected (`C130_valid_fails`).
* **C131** `C131_bulk_partial` (Phases/MassFlows.lean): The bulk of a whole result, whose phase fractions add up to one, has the composition, flow, mass fraction and energy of the result. Missing: the bulk of some of the phases, `C131_bulk_fails`.
* **C131** `C131_dilution_partial` (Phases/MassFlows.lean): Infinite dilution of a component that is not the whole mixture: the composition has none of it, adds up to one, and keeps the proportions of the others. Missing: a pure mixture.
* **C131** `C131_stored_partial` (Phases/MassFlows.lean): Heat capacities of the pure liquids, kept under a name of their own, are computed on the first call and returned on the next. Missing: the integrals, `C131_stored_fails`.
* **C131** `C131_state_partial` (Phases/MassFlows.lean): A gas or liquid of a result, or any phase with a flasher, becomes a state of that one phase. Missing: solids of a result, bulk phases.
* **C132** `C132_derivative_partial` (TDep/Derivatives.lean): If the extrapolations join the method with value and slope, `T_dependent_property_derivative` is the derivative of `T_dependent_property` at every temperature, the limits included. Missing: extrapolations that only join in value, `C132_derivative_fails`, and forms whose derivative is numerical.
* **C132** `C132_valid_partial` (TDep/Derivatives.lean): `valid_methods`: exactly the ranked methods that are available (and valid at the temperature); the selected one comes first if it is ranked, available and valid.
* **C133** `C133_fast_partial` (Eos/MixConstruct.lean): The same parameters at a new composition are reached by copying as by building from the original arguments, if the class is not `PRSVMIX` with a limit on its first parameter.
* **C133** `C133_rebuild_partial` (Eos/MixConstruct.lean): An object of any class but `APISRKMIX` built again at another state is the one the original arguments make there.
* **C133** `C133_reloaded_partial` (Eos/MixConstruct.lean): All of a reloaded object but the parameter `PRSVMIX` has lost to its limit.
* **C133** `C133_subset_partial` (Eos/MixConstruct.lean): Some of the components of an object of any class but `APISRKMIX`: they keep their parameters among each other, and the fractions sum to one in the same proportions.
* **C133** `C133_error_partial` (Eos/MixConstruct.lean): And then with a `ValueError`, if the class is not `PRSV2MIX` without a temperature.
* **C134** `C134_PS_partial` (Package/CaloricFlash.lean): A flash at pressure and entropy that reports success, of a pure component or of a mixture whose entropy is continuous in temperature, holds a state at that pressure whose entropy is the one asked for to 1e-3 J/mol/K.
* **C134** `C134_TS_partial` (Package/CaloricFlash.lean): A flash at temperature and entropy that reports success, of a pure component or of a mixture whose entropy is continuous in pressure, holds a state at that temperature whose entropy is the one asked for to 1e-3 J/mol/K.
* **C135** `C135_history_partial` (Activity/UnifacObject.lean): Whatever was done with an object before, methods called, copies at other temperatures and compositions, copies of copies: every method returns the value it has at the state of the object, and none raises, except that the terms with the power of the volumes exist for versions 1 and 4 only and that the third temperature derivatives need a stored intermediate result.
* **C135** `C135_copy_partial` (Activity/UnifacObject.lean): So a copy at a state gives what a new object at that state gives, for every method of this kind.
* **C136** `C136_value_partial` (Equilibrium/Getters.lean): `value` of a state: without a phase it is the datum, or the result of the method of that name; with a phase it is the entry at the position of the phase of a list with one entry per phase. Missing: for other attributes see `C136_value_fails`.
* **C136** `C136_tables_partial` (Equilibrium/Getters.lean): Every name in the tables, with the names which do not work. `phase.name()` reaches a method of the state taking the phase for all names of `phases_properties_to_EquilibriumState` but one, and `bulk.name()` for all names of `Bulk_properties_to_EquilibriumState`; `state.name()` works for the names of `bulk_props` but seven; `state.name` is the value of the bulk for all names of `bulk_properties`.
* **C137** `C137_convert_partial` (TDep/HelmholtzGas.lean): for a description in which every kind of entry occurs at most once, and not a generalized together with a `FunctionT` entry, the conversion succeeds, leaves the JSON data as they were, and the energy computed from its result is the logarithm of the density plus the meaning of every entry. Missing: descriptions with two entries of a kind (`C137_convert_fails`).
* **C138** `C138_two_partial` (Phases/States.lean): cubic equations of state, ice and CoolProp with two arguments. Missing: with fewer (`C138_underspecified_fails`).
* **C139** `C139_Psat_partial` (Eos/SatDrivers.lean): if Newton's method raises and bisection keeps its tolerance, a pressure returned by the polished `Psat` is one at which liquid and gas exist with fugacities equal to a tolerance of 0.0001 times it or a millionth of the estimate. Missing: when Newton's method returns (`C139_newton_fails`).
* **C140** `C140_humid_C_partial` (Phases/Direct.lean): at the two ends the third coefficient is that of the pure gas. Missing: mixtures (`C140_humid_C_fails`).
* **C141** `C141_simultaneous_partial` (Flash/MixDrivers.lean): at a dew point the liquid is the incipient phase and at a bubble point the gas, as the callers expect. Missing: that the other phase is exactly the feed; it is the gas (or liquid) of the last pass.
* **C142** `C142_combustion_partial` (Chem/Derived.lean): Where the enthalpy of formation is found in the data, the enthalpies of combustion are those of the reaction with it, the lower without the heat of the water. Missing: values derived from the other phase.
* **C142** `C142_vaporization_partial` (Chem/Derived.lean): The enthalpy of vaporization at the boiling point, per mole and per kilogram. Missing: the entropy, see `C142_vaporization_fails`.
* **C142** `C142_context_partial` (Chem/Derived.lean): A context with other databases than those loaded runs its body with the databases asked for, and leaves those loaded before, whatever the body does. Missing: contexts with the databases already loaded, and files that cannot be read.
* **C143** `C143_make_partial` (Flash/Setup.lean): All other combinations are accepted.
* **C143** `C143_saturation_partial` (Flash/Setup.lean): The states returned have the temperature or pressure asked for, and the saturation pressure of the model of the branch; above the critical point cubic equations and IAPWS raise. For the general branch a converged point is refused only if both compressibilities are equal. Missing: the critical point of activity liquids.
* **C143** `C143_round_trip_partial` (Flash/Setup.lean): The saturation temperature at the saturation pressure is the temperature begun with, if the inverse is one and the pressure is below the critical pressure; for activity liquids if the correlation of the liquid is that of the object.
* **C143** `C143_range_partial` (Flash/Setup.lean): Limits given are used; else those of the phases, or around the critical temperature or pressure, which are positive and in order from 6 K and for critical pressures of 6 Pa or more. Missing: lighter fluids.
* **C143** `C143_volumes_partial` (Flash/Setup.lean): With cubic phases of one co-volume the volumes are above it.
* **C143** `C143_grid_partial` (Flash/Setup.lean): With the variables in the order temperature, pressure, volume, vapor fraction, entry `i, j` of the result belongs to value `i` of the first and value `j` of the second.
* **C144** `C144_ring_atoms_partial` (Groups/Counts.lean): With positive counts of different elements a ring is counted exactly if it has these atoms and no others. Missing: counts of zero.
* **C145** `C145_criteria_partial` (TDep/Fitting.lean): With more points than parameters and one, and an error, the criteria increase with the error and with the number of parameters. Missing: fewer points, see below.
* **C145** `C145_statistics_partial` (TDep/Fitting.lean): If the transformed lower limit is below the upper one, statistics evaluate the form that was made. Missing: transforms that decrease.
* **C145** `C145_twu_complete_partial` (TDep/Fitting.lean): If the exponential decreases with temperature (`c0 c1 c2 > 0`), the check rejects no consistent attraction function.
* **C146** `C146_result_partial` (TDep/FitModel.lean): If all arguments that are neither given nor fitted have default 0, the function used later is the one that was fitted; given values are never replaced.
* **C146** `C146_count_partial` (TDep/FitModel.lean): If only physical constants are given and the points suffice for all parameters of a candidate, its fit adjusts exactly the parameters counted.
* **C146** `C146_bounds_partial` (TDep/FitModel.lean): With more than three guesses the bounds contain all of them.
* **C147** `C147_low_liquid_partial` (Eos/VolumeResult.lean): A liquid volume at low pressure lies between the covolume and one and a half times it, or comes from a bracket. Missing: that the pressure is right, see `C147_low_liquid_fails`.
* **C150** `C150_round_trip_partial` (Serialize/Arrays.lean): A dictionary of primitive values, proper arrays of any number of axes and such dictionaries is the same after saving, writing, reading and loading. Missing: lists, tuples, numpy scalars, arrays of another type than their elements have (see the theorems below).
* **C151** `C151_range_partial` (Chem/Sheets.lean): Without limits a solid is shown from a temperature not above its melting point up to it, and a fluid from its melting point up to its critical point. Missing: chemicals with one of the constants unknown, and melting points below 0.01 K.
* **C157** `C157_grid_partial` (TDep/Tables.lean): A grid of fewer than five pressures returns its values, if extrapolation is permitted or the point is not on its border. Missing: larger grids and points on the border.
* **C158** `C158_consistent_partial` (Eos/Containers.lean): The consistent classes have the covolumes of their equation for lists of compositions, and for arrays if translations are given. Missing: arrays without translations.
* **C158** `C158_third_partial` (Eos/Containers.lean): The third temperature derivative of the attraction is right for a mixture of equal components without interaction, in particular for one component. Missing: all other mixtures.
* **C159** `C159_extreme_partial` (Flash/VaporFraction.lean): If the function rises or falls between neighbouring nodes and no slope changes its sign, the interval for `high` contains the solution of highest temperature on the grid and the one for `low` the solution of lowest temperature. Missing: grids with extrema inside an interval (see `C159_high_fails`).
* **C160** `C160_phase_partial` (Phases/CriticalPoint.lean): A phase: an answer whose last call was at the answer gives temperature, pressure and volume of one state, at which the equations hold as well as they did in that call. Missing: iterations that call the function elsewhere after the answer.
* **C161** `C161_temperature_partial` (Eos/Transitions.lean): At the temperature of the object the function is the discriminant, so that an answer equal to that temperature is a transition. Missing: all other answers.
* **C162** `C162_order_partial` (Phases/Transport.lean): As long as the mark of a phase does not change, every call answers what a new object would answer, whatever was called before.
* **C163** `C163_automatic_partial` (Data/Databases.lean): The documented result is returned if the first table with a default contains the value and tables without a default do not.
* **C163** `C163_valid_found_partial` (Data/Databases.lean): In a valid table every necessary parameter of a stored list of components is returned as stored, in any order if the table is symmetric and its keys are sorted as documented, and in the order of the key otherwise.
