{
"C01": ["partial", "At most two state specifications proved for every history of setters other than energy, energy_reactive and H_reactive; for those the claim is false and the failure is proved (C01_energy_overspecifies, C01_H_reactive_overspecifies)."],
"C02": ["proved", "Invariant over every history of setters; a raising setter changes nothing."],
"C03": ["partial", "Proved for every name but H_reactive and energy_reactive; the constructor drops H_reactive (proved)."],
"C04": ["partial", "Proved for edits of the specifications that are in the memo key; stale results after changing H_mass or the flasher are proved."],
"C05": ["partial", "Conservation proved for every branch except a partly known single unknown stream next to others, where it is proved false."],
"C06": ["partial", "Known flows kept, except by the single-unknown-stream branch when that stream is partly known, where it is proved false."],
"C07": ["partial", "Closure proved for one unknown energy and for two unknown mass flows; the one-in-one-out shortcut and the choice of the two unknown streams are proved wrong in general."],
"C08": ["partial", "Isomorphism proved for every finite graph whose strings do not look like object ids; a string field of the form pyid_k is proved to be corrupted."],
"C09": ["proved", ""],
"C10": ["partial", "Holds while the configuration is only read; changing the extrapolation or re-adding a method/table leaves stale values (proved)."],
"C11": ["proved", ""],
"C12": ["proved", "Fitted-coefficient helpers of the external chemicals package are modelled from their documented equations."],
"C13": ["partial", "Derivative formulas proved. Integrals hold without clamping; with extrapolation_min/max the derivative and integral ignore the clamp (proved)."],
"C14": ["proved", "Pieces are assumed to be the integrals they stand for. Reversing the limits raises instead of returning None (proved)."],
"C15": ["partial", "Holds while the configuration is only read; method changes and re-added tables leave stale values (proved)."],
"C16": ["partial", "Holds with the check enabled; the default configuration skips the check and a None result raises (proved)."],
"C17": ["proved", ""],
"C18": ["partial", "Disjointness and counts proved for all inputs; coverage proved when recorded matches lie in the molecule. A hydrogen-only group can make an unmatched molecule succeed (proved)."],
"C19": ["partial", "Coverage proved for all inputs; counts proved without overlaps. With overlaps the counts are stale, removal may raise IndexError or delete the wrong match (proved)."],
"C20": ["proved", ""],
"C21": ["proved", ""],
"C22": ["proved", ""],
"C23": ["partial", "Activity coefficients, mole-number derivatives, Gibbs-Duhem and dgammas_dT proved for every differentiable GE. dgammas_dns is proved when the Hessian is symmetric with equal weighted row sums (Wilson and NRTL meet this, proved) and proved wrong for a Margules GE."],
"C24": ["proved", "binary_jac is proved above the lower clamp on the parameters only."],
"C25": ["proved", ""],
"C26": ["partial", "UNIQUAC's gradient hard-codes the coordination number 10 while GE takes it as an argument (proved failing for other values; the class always uses 10), and the Jacobian of the binary regular-solution function ignores the cap 1e10 on the activity coefficient (proved). Everything else is proved in full."],
"C27": ["partial", "Equivalence, pole cases, root count, slope and curvature proved over any field or the reals. The fallback of volume_solutions_mpmath uses an overwritten b (negation proved)."],
"C28": ["partial", "high_alpha_one_root, the complex closed form, deflation and the bracket invariant of the Halley loop proved. Not modelled: early returns and the final polish of the Halley solver, NR solver loop. The double-double closed form has a wrong sign and the complex form divides by zero at a triple root (both proved)."],
"C29": ["partial", "Proved for every root list and covolume as the code treats roots; with a negative covolume zero placeholders are taken as roots (proved)."],
"C30": ["partial", "Holds when one of two phases was solved and for single roots that keep their phase; fails when both phases were solved, and leaves stale attributes when a single root changes phase (both proved)."],
"C31": ["proved", "Off the poles, for every differentiable attraction term. Division by zero and overflow guards are not modelled."],
"C32": ["partial", "Proved when delta^2 > 4 epsilon; for delta^2 <= 4 epsilon the code keeps the real part of an arctanh of the wrong branch or a 1e100 placeholder and drops the attraction (negation proved)."],
"C33": ["partial", "Exact for every alpha function on its smooth branches. False, with the failure proved, for TWU_a_alpha_common below Tr = 0.005 (derivatives five and twenty-five times too large) and at Tc, Almeida at Tc (raises), the second derivative of Mathias-Copeman at Tc, and the third derivative that PRSV inherits."],
"C34": ["partial", "SRK, PR, VDW and IG closed forms reproduce the pressure, SRK raises only when no temperature exists and returns the smallest solution; PR correction steps and generic Newton slope are exact derivatives; PRSV, PRSV2 and APISRK residuals exact. Fails for negative m with strong attraction and for SRKTranslatedPPJP, which inherits the untranslated closed form. The Redlich-Kwong closed form over complex numbers is the only solution at positive pressures, is rejected at negative ones and divides by zero at zero pressure. Convergence of the iterative solvers is not modelled."],
"C35": ["partial", "SRK and PR values are the attained maximum and None means unbounded, for m >= 0. Fails for negative m, for PRSV (kappa depends on temperature) and for SRKTranslatedPPJP (inherits the untranslated formula)."],
"C36": ["proved", "Constants of both translated families; pressure, roots, departures, fugacity coefficient, saturation pressure and heat of vaporisation; estimation of M and N by two points."],
"C37": ["partial", "Discriminant = product of squared root differences, its sign counts real roots, quartic / VDW cubics / RK polynomial vanish exactly where the discriminant does, Newton slope exact, RK filter exact. Fails: a given temperature is only used for a_alpha, and the valid filter of the pressure zeros keeps real parts of complex roots (proved for supercritical Peng-Robinson). Root finders are not modelled."],
"C38": ["partial", "All evaluators equal the double sum and its exact temperature derivatives for symmetric interaction matrices, positive pure attractions and non-negative compositions. Missing, because the claim is false there: a non-zero interaction of a component with itself (C38_self_interaction_fails), an unsymmetric matrix (C38_asymmetric_fails), negative fractions (C38_negative_fails). Derivatives with a zero pure attraction are not treated."],
"C39": ["partial", "Complete rows from a_alpha_quadratic_terms and from the pair matrix for every composition; from the combined evaluator only for present components. For absent ones the rows are incomplete (C39_combined_rows_absent_partial, C39_combined_rows_fails), and the derivative matrices hold zeros (C39_derivative_matrices_fails)."],
"C40": ["partial", "proved for the general routine, PR and SRK (and through the general routine RK and the translated equations); the VDW routine sums to the mixture value exactly when the root of the mixture attraction is the average of the component roots, i.e. not with interaction parameters"],
"C41": ["proved", "lists; the numpy variants of the same properties are not modelled"],
"C42": ["partial", "Composition and flow proved; clear_state_specs keeps H_reactive (proved)."],
"C43": ["partial", "Composition and state proved; two total flows n and Ql are accepted (proved)."],
"C44": ["proved", ""],
"C45": ["partial", "Proved when every stream has a list to write to; otherwise progress is reported without change (proved)."],
"C46": ["partial", "The claim is false: the second load of the same dictionary is proved to raise for every document."],
"C47": ["proved", ""],
"C48": ["proved", "The stored key is a list compared with a tuple, so the memo is never used."],
"C49": ["proved", ""],
"C50": ["partial", "Holds when the number of components equals the number of temperature coefficients; otherwise pairs are dropped or the call raises (proved)."],
"C51": ["partial", "Holds when only automatic names are used; a user-given name of the same pattern is overwritten and for pressure tables the second unnamed table always replaces the first (proved)."],
"C52": ["proved", "Integrals of the sub-methods are assumed right."],
"C53": ["proved", ""],
"C54": ["proved", "Stated at normalised compositions; off them the code's gradient is not the derivative (proved). Hansen's numerical second derivative is not modelled."],
"C55": ["partial", "general, PR, SRK, RK and both translated routines proved; VDW only for zero interaction parameters (failure witness), PR fails for zero attraction (witness)"],
"C56": ["proved", "Liquid and vapour bodies are the same formula; overflow guards are not modelled."],
"C57": ["proved", "For delta^2 > 4 epsilon. Overflow and division guards are not modelled."],
"C58": ["partial", "Derivatives and Clausius-Clapeyron proved for every saturation curve. Refuted where the correlation is replaced by its upper bound (dPsat_dT is not zero there) and for the unpolished phi_sat of translated equations. Missing: the solvers that find the saturation pressure."],
"C59": ["partial", "needs the first root above the covolume (failure witness without)"],
"C60": ["partial", "neutrality, totals, signs, frames, directions proved; failure witnesses: negative water, ZeroDivisionError without a deficient ion, ValueError when its amounts are zero, documented choice of the dominant ion, documented addition in 'Na or Cl decrease'"],
"C61": ["proved", ""],
"C62": ["proved", "speed of sound per root kilogram per mole; the mass conversion is separate"],
"C63": ["partial", "holds except for the four mixed second derivatives (ideal_gas.py 726-736 return 0.0), refuted by C63_mixed_fails, C63_Cv_fails and C63_sound_fails at every state"],
"C64": ["proved", "composition derivatives are covered by C41"],
"C65": ["proved", "dlnfugacities_dzs (1357-1380) is not covered: it calls a method that no class defines"],
"C66": ["partial", "U_formation_ideal_gas and A_formation_ideal_gas use the molar volume at the current state instead of the reference state, so they change with temperature (C66_formation_fails); at the reference state they are right (C66_formation)"],
"C67": ["partial", "Cp, dH_dT and dS_dT are the derivatives of the departure at constant volume, not constant pressure, so Cp, Cv and all properties computed from them are wrong unless the enthalpy is independent of volume (C67_Cp_fails); C67_corrected proves the rest of the chain with these three replaced; the external correlations of the coefficients are arbitrary functions"],
"C68": ["partial", "additivity, derivative option, volume weighting and sound speeds are proved; the default mole-weighted dP_dT, dP_dV, kappa, isobaric expansion and inherited dV_dT, dV_dP are refuted by C68_default_derivatives_fails"],
"C69": ["partial", "C69_volume_reads_partial holds only if a single one of the two volume fraction methods is ever read (C69_shared_cache_fails); quality equals the gas mass fraction only without solids (C69_quality_fails)"],
"C70": ["partial", "phases and the overall bulk are proved; the liquid bulk only if it is the whole stream (C70_liquid_bulk_fails, C70_liquid_bulk_scaled gives the exact error)"],
"C71": ["partial", "bounded for states without solids; refuted for the liquid bulk next to a gas, for solids (C71_solids_fails, C71_gas_solid_fails) and for logarithmic dP_dV (C71_log_dP_dV_fails)"],
"C72": ["partial", "H_C_ratio and humidity_ratio hold for the whole state only; for a phase they are refuted (C72_H_C_ratio_fails, C72_humidity_fails)"],
"C73": ["partial", "enthalpy proved; entropy and Gibbs energy departures are refuted for phases of different composition (C73_G_dep_fails); exact error proved"],
"C74": ["partial", "Wilson score proved only for several components, best gas only without forced gases; the other cases are refuted."],
"C75": ["proved", "Distinct phases, as many fractions as phases."],
"C76": ["proved", "for every smooth reduced Helmholtz energy; pressure relation as documented by the chemicals package"],
"C77": ["partial", "fugacity and virial parts proved; S_dep, G_dep, A() and d3B_virial_dT3 refuted, S_dep characterised up to R ln Z"],
"C78": ["proved", ""],
"C79": ["proved", "the derivative formulas with exact products; the literals separately"],
"C80": ["partial", "volume part proved; basis and calls refuted, enthalpy characterised up to the molar mass"],
"C81": ["partial", "continuity proved for Chao-Seader and refuted for Grayson-Streed; values of the coefficients not modelled"],
"C82": ["partial", "dispatch proved for a given dictionary; defaults refuted"],
"C83": ["proved", ""],
"C84": ["partial", "With Hvap based enthalpies, and for the volume, the code violates the property; proved for the other options and refuted by witnesses."],
"C85": ["partial", "Several options and calls violate the property; the invariant is proved for volumes that do not depend on composition."],
"C86": ["partial", "The code violates the property at the refuted points; proved elsewhere."],
"C87": ["partial", "The triple product rule is violated by the code; the Tait integral is proved."],
"C88": ["partial", "conflicting and surplus specifications are proved to be accepted, and the temperature limit to be too strict"],
"C89": ["partial", "C89_liquids_partial needs the distinct models first; the general claim is refuted"],
"C90": ["partial", "C90_several_partial lacks that the returned phases have the returned compositions, which is refuted; nothing is claimed about convergence"],
"C91": ["partial", "the row of derivatives of a specification is right only if the phases return derivatives at the compositions of the iteration, which the code does not ensure; other parts of the claim refuted by the theorems named fails"],
"C92": ["partial", "the verdict is right for composition independent phases; in general refuted by the theorems named fails"],
"C93": ["partial", "with several liquids the liquid at saturation need not be the stable one and converged dew points need not have equal fugacities; refuted by the theorems named fails"],
"C94": ["partial", "at specified volume, pressure with internal energy, temperature with entropy, with solids and at the least temperature of a gas the state returned need not be the stable one; refuted by the theorems named fails; CoolProp and IAPWS95 branches not modelled"],
"C95": ["partial", "the result need not have the least Gibbs energy of all solutions found and fractions may be negative after retries; refuted by the theorems named fails"],
"C96": ["partial", "searches as brackets and choices, not convergence of the secant and bisection; several steps refuted"],
"C97": ["partial", "interaction terms only agree for entries of the right form; missing parameters and hash refuted"],
"C98": ["proved", "more than one component, sizes positive"],
"C99": ["partial", "Proved: C99_linear, C99_missing, C99_order, C99_table, C99_Tc, C99_Pc, C99_Cpig, C99_mul, C99_diky, C99_fedors*, C99_wj, C99_bondi*. Positivity of critical temperatures holds only for bounded sums (C99_Tc_partial, C99_alkane_partial) and is refuted beyond (C99_Tc_fails, C99_wj_fails); further refutations C99_init_fails, C99_wj_flag_fails, C99_bondi_fails. The matching of structures by RDKit is an input."],
"C100": ["proved", "Proved: C100_complete, C100_table_symmetric, C100_data, C100_kij, C100_defined, C100_symmetric, C100_kijs, C100_self, C100_scale, C100_reference, C100_pure_groups, C100_van_laar, C100_constants, C100_parameters. Refuted: C100_doc_fails, C100_missing_fails."],
"C101": ["partial", "Proved: C101_allclose*, C101_identify*, C101_select, C101_dn2, C101_TPD*, C101_stateva, C101_components*, C101_reactive, C101_kinetic, C101_energy. Only above 110 kPa: C101_boiling_partial. Refuted: C101_allclose_limits_fails, C101_allclose_order_fails, C101_boiling_fails, C101_identify_zero_fails, C101_stateva_fails, C101_components_zero_fails, C101_reactive_fails, C101_reactive_tolerance_fails, C101_elevation_fails, C101_areas_fails."],
"C102": ["partial", "counts, names, sizes of random guesses and the constrained search are proved under the conditions stated and refuted outside"],
"C103": ["partial", "the wrapper is consistent only without a vapor fraction beside temperature and pressure; solvers by their contracts"],
"C104": ["partial", "additivity over phases holds only without pressure dependence and for phases of equal composition; refuted otherwise"],
"C105": ["partial", "refuted: three specifications at once, to_TP of objects made from a volume"],
"C106": ["partial", "refuted: calls after an evaluation at another temperature, lowest Gibbs lnphis, subsets of arrays, polish, to_TP_zs flags"],
"C107": ["partial", "decision refuted for equal labels and trivial trials; substitution returns objects of the step before"],
"C108": ["partial", "values at the reference temperature refuted for bromine and mercury; solids, hash collisions refuted"],
"C109": ["partial", "entropy of liquids from gas references, pressure terms, departures of references, stale attributes refuted"],
"C110": ["partial", "failed flashes, the shared equation of state, molar density, SGg, STP compressibilities, expansion and gas viscosities of two phases are refuted; see theorems ending in _fails"],
"C111": ["partial", "availability of the density method, loading of the table for thermal conductivity and the upper limit are refuted"],
"C112": ["partial", "Holds with the listed unchecked arguments present; several defaults, zero values, load_data=False and limits are refuted by witnesses. Fits kept in files and piecewise names are left out."],
"C113": ["partial", "Validity answers, Clapeyron at its upper limit, mixed heat capacities and the PPDS9 limits are refuted by witnesses; correlations of chemicals are their documented formulas."],
"C114": ["proved", ""],
"C115": ["partial", "third derivatives of the pressure are refuted for equations with a composition dependent epsilon and proved otherwise"],
"C116": ["partial", "C116_helmholtz_fails: the Helmholtz energy helpers divide by the square root of zero for van der Waals mixtures"],
"C117": ["proved", "PRMIX, SRKMIX and VDWMIX derivatives proved; the composition derivative of translated Peng-Robinson classes is refuted"],
"C118": ["proved", "Correlations arbitrary. Not effective: cross models 'Zeros'; self interaction parameters break the pure limit; single component composition derivative. Second and third temperature derivatives of the third coefficient are oracles."],
"C119": ["partial", "the statement is proved for all properties but the atom fractions, which subset and with_new_constants drop (C119_subset_identity_fails, C119_with_new_fails, C119_add_subset_fails); lengths, exposure limits, JSON of ceilings and lookup errors are refuted by the other _fails theorems"],
"C120": ["partial", "construction, references, addition and subsets are proved as the code does them; the gas viscosity reference (C120_mug_fails), user data (C120_user_fails), addition with skip_missing (C120_add_skip_fails) and subset(None) (C120_subset_fails) violate the statement"],
"C121": ["proved", "refutations for the claims the code violates; fluids solvers are arbitrary; Shaw and ideal-liquid guess models not modelled"],
"C122": ["proved", "Model hashes characterised, is_same_model correct, memo correct without assignments; negations: solids, Grayson-Streed, Chao-Seader and humid air phases cannot be hashed, and flashers skip them; UNIFAC omits group counts; liquids omit the caloric basis; correlation packages omit constants; mixture properties hash their caches; memos go stale; an object equals the integer of its hash."],
"C123": ["partial", "stable and Chebyshev correlations in the logarithm use the mirrored argument (C123_mirrored, C123_conversion_fails), polynomial correlations have no derivatives (C123_polynomial_fails, C123_extrapolates_fails) and, except for heat capacities, no integral (C123_integral_fails)"],
"C124": ["partial", "A method asked for is active only without fits and for names that are not of one allotrope; a user's correlation is displaced by file data under the same keyword; the caller's dictionary is changed; repr loses stable and Chebyshev fits; as_poly_fit returns nothing when another method is active; JSON resets mercury to the extra method; a refused correlation stays registered. These are refuted by witnesses. Numeric limits and argument validation are not modelled."],
"C125": ["partial", "C125_ddbst_fails: the parameters e and f of the DDBST are stored in each other's place. C125_nrtl_fails: tau_coeffs without alpha_coeffs are dropped silently. C125_precedence_fails: Wilson drops all but one source. C125_size_fails: sizes are not compared with the number of components."],
"C126": ["partial", "C126_energy_fails, C126_two_flows_fails, C126_mass_enthalpy_fails: energies with volumetric flows raise TypeError, energy with enthalpy accepts two flow rates, a mass enthalpy drops the energy. C126_VfTP_fails, C126_existing_fails, C126_sum_fails, C126_args_fails, C126_state_specs_fails: reference conditions, earlier flashes, fractions that do not sum to one, conversion back to arguments, list of specifications."],
"C127": ["partial", "C127_sub_fails: equal totals or a component without flow raise ZeroDivisionError. C127_stale_fails: phase flows of the state before. C127_energy_fails, C127_flow_fails: energies. C127_state_specs_fails: mass and molar names exchanged. C127_autoflash_fails: a failed construction turns off automatic flashes of all mixtures."],
"C128": ["partial", "C128_default_fails: all methods that use gradients raise TypeError. C128_untranslated_fails: untranslated flows can exceed the feed. C128_picked_fails: if no point was found the first flash is returned."],
"C129": ["partial", "to_TP_zs_fast at the temperature of the object raises AttributeError (C129_fast_fails); translation constants change the attraction parameter (C129_translation_fails)"],
"C130": ["partial", "omitted constants pass the length check and make an incomplete rule the default (C130_empty_fails, C130_volumes_fails); volume of solutions is offered by viscosity columns (C130_volume_columns_fails); a method for solutions invalidates all others (C130_valid_fails); upper limits are the largest (C130_Tmax_fails); further refutations C130_load_fails, C130_water_twice_fails, C130_keyword_fails, C130_none_fails, C130_repr_fails, C130_filippov_fails, C130_solid_limits_fails, C130_pures_fails"],
"C131": ["partial", "mass basis, concentrations, flows of single phases and the checks proved; refuted for the bulk of some phases (per mole of the whole result, mass fraction one), pure feeds at infinite dilution, integrals stored under the name of their method, solids and whole bulks as states"],
"C132": ["partial", "derivative proved everywhere for extrapolations joining with value and slope; refuted for constant extrapolation at the limits, failures inside the range, in_range of forms without closed derivative, the clamp in transforms, start of the search near zero, and user methods in valid_methods"],
"C133": ["partial", "APISRKMIX loses its interaction parameters when built again and cannot be restricted to some components; PRSVMIX with a limit on its first parameter keeps it removed after copying and reloading and depends on the specification; PRSV2MIX raises a TypeError without temperature; classes without acentric factors cannot give pure components; the slope of PR78 jumps"],
"C134": ["partial", "For mixtures the entropy of the result is the requested one only where entropy is continuous (C134_PS_partial, C134_TS_partial): nothing is checked at a jump (C134_PS_fails, C134_TS_fails), and with enthalpy an unset name is read (C134_PH_mixture_fails). Inputs beyond two are ignored (C134_overspecified_fails); the composition of the previous flash stays after a failure (C134_composition_fails)."],
"C135": ["partial", "A new object cannot give the third temperature derivative of its logarithmic activity coefficients (method not called, line 7739), and a copy at the same temperature can lose the third derivative of the excess Gibbs energy; terms with the power of the volumes raise outside versions 1 and 4."],
"C136": ["partial", "eight generated names unusable, value(name, phase) wrong for non-phase lists, SG not volume additive: proved with witnesses"],
"C137": ["proved", "The negations (entropy as antiderivative of Cp/T, repeated JSON entries, mutated argument) are proved with witnesses; the conversion theorem is partial, it covers descriptions without repeated kinds."],
"C138": ["partial", "Honoured specifications, reduced variables, round trip and the cache (invariant, exact LRU, history independence) proved; underspecified calls, aliasing, phase fallback, constants flag and from_AS shown to fail."],
"C139": ["partial", "Soundness, choice of solution and completeness of the drivers proved for solvers within their contracts; unchecked Newton results, the dead branch for the second solution and the wrong residual shown to fail."],
"C140": ["partial", "PSRK is not dispatched, Flory-Huggins and Hansen go to the regular solution, lists of activity models are shared between calls, and the third virial coefficient of humid air lacks a power of the mole fraction; these are proved as counter-examples."],
"C141": ["partial", "The claim fails for temperature-volume variables, for the choice of high or low solutions, for fractions between zero and one with several liquids, for stability at given temperature and for damped secant steps; these are proved as counter-examples. The numerical solvers are parameters."],
"C142": ["partial", "`C142_mass_fails`, `C142_combustion_fails`, `C142_solid_fails`, `C142_vaporization_fails`, `C142_triple_fails`, `C142_solid_volume_fails`, `C142_context_fails`, `C142_unreadable_fails`, `C142_alias_fails`, `C142_marshal_fails` and `C142_columns_fails` refute parts; data tables and property objects by contract"],
"C143": ["partial", "Proved for phases, flags, checks, points and small properties; saturation and its inversion are partial (critical point of activity liquids, correlation of the liquid), ranges for fluids above 6 K, grids in the order of the variables; the failures are proved as counter-examples."],
"C144": ["proved", "Ring atoms are partial: requested counts of zero find nothing. Counter-examples are proved separately."],
"C145": ["partial", "criteria need more points than parameters, statistics an ordered range, completeness of the check of Twu's function a decreasing exponential; counter-examples are proved"],
"C146": ["partial", "Results need defaults of 0, counts only physical constants given and enough points, bounds more than three guesses; counter-examples are proved"],
"C147": ["partial", "Deflation returns all volumes if the first is exact, exact volumes are kept by polishing and by Newton's method, origin of the first volume. Fails: vapor with negligible attraction hides liquid volumes, a zero denominator of Halley's step or a pole is returned by polishing, convergence in the last iteration is discarded, a zero covolume term divides by zero, third tries accept errors of five thousand times the pressure, liquids at low pressure are not tested and are lost above one and a half covolumes. Convergence itself is not proved."],
"C148": ["proved", "Proved for pieces apart (acceptance), meeting (covering), up to five (printing) and exported methods other than piecewise over tables; the other cases are refuted by witnesses."],
"C149": ["proved", "Proved for Wilson, NRTL, UNIQUAC (strictly between pure components) and the regular solution (one direction, below the cap of 1e10); clamped parameters, indistinguishable parameters and other fitting methods are refuted."],
"C150": ["partial", "Round trip proved for dictionaries of primitive values and proper arrays and for tuples of arrays of different lengths; refuted for lists of arrays, plain lists, mixed and empty element types, tuples of equal lengths, lists of objects in vectorized objects and nested recalculable fields."],
"C151": ["partial", "Default ranges proved for known melting and critical points; refuted: Joule-Thomson column of liquids, unit of the heat of formation, limits of zero and unknown melting points, equal names and CAS numbers, interrupted loading, the OECD answer and the shared list of bands."],
"C152": ["partial", "holds for storing, selection, inverse transformations below the critical temperature and saved exports; refuted: a pressure correlation cannot be selected for pressures and displaces the method for temperatures, an incomplete one stays selected, the form `interpolation` raises for classes without a transformation of temperature, all temperatures from the critical one on coincide, exports without saving return nothing"],
"C153": ["partial", "weighted sum and monotonicity hold for H, C, O, N, Si, S, Cl, F and the named bonds; refuted: other elements do not count, so hydrogen bromide goes after bromine; a plain `triple` does not count; an unreadable text makes the callers raise"],
"C154": ["partial", "exact conditions proved for each class; refuted for solids, IAPWS95, StreamArgs, cubic and virial phases without heat capacities, and for unprinted or unquoted arguments of GibbsExcessLiquid"],
"C155": ["partial", "proved for all runs in which no phase with a stored flow is put into another result; refuted otherwise (stale and taken flows) and for the kind of solids"],
"C156": ["proved", "The documented form of henry_abcdef (six matrices) raises with fewer than six components and is misread with six; a solvent without parameters counts as one with a constant of 1 Pa under the default rule; a failed call for vapor pressures leaves part of the list stored, which the next call returns."],
"C157": ["partial", "Linear interpolation with increasing coordinates and tables of five or more points return their data. Fails for three or four points with inverse temperature (vapor pressure, liquid viscosity), grids of five or more pressures, borders of grids and unnamed pressure tables."],
"C158": ["partial", "Parameters agree whenever a mixture is made. Fails: mixed containers are accepted by some classes only, consistent classes with arrays and default translations raise, asymmetric interaction parameters, the third derivative of the attraction of mixtures."],
"C159": ["partial", "Soundness of the interval, the result and the counts are proved; the highest and lowest solution only without extrema inside an interval. Refuted: the highest solution with a turn elsewhere, a second turn, values equal to an extremum, no request, slopes of zero, values of the evaluation before."],
"C160": ["partial", "An iteration that calls the function elsewhere after its answer stores the volume of that other state; a missing critical constant replaces both guesses; bulks of several phases have an inconsistent compressibility."],
"C161": ["partial", "The function solved for temperatures keeps the temperature of the object, refused answers are returned, guesses of the user come last, and classes without Chebyshev coefficients never find a lower transition."],
"C162": ["partial", "Answers are independent of earlier calls as long as the mark of the phase does not change; refuted when an equilibrium state marks a phase that was already asked, for unmarked cubic phases with one volume of the other kind, and for solids and virial gases. IAPWS, CoolProp and air phases have their own formulas and are not modelled here."],
"C163": ["partial", "The automatic lookups are refuted with rows of the bundled files: they use the first table with a default (or of the type) even if it has no row for the component. Validation is refuted for unsorted keys of symmetric tables and for missing defaults. Reading of files is not modelled."],
"C164": ["partial", "Names, data, marks and the joining method are proved when the substance is not one of its own allotropes and each allotrope at a transition has one method; a second method, a single allotrope and the writes into the loaded data are refuted by witnesses. Merging of several files is C124."]
}
