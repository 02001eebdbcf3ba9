{"id": "C01", "title": "Stream specification never becomes over-determined in state", "statement": "A StreamArgs object built and then edited through its public setters never holds more than two thermodynamic state specifications: a setter either raises and leaves the object unchanged or leaves at most two of T, P, VF, V, rho, H, S, U, G, A (molar or mass, reactive or not) or stream energy set.", "quantifier": "every finite sequence of public setter calls with arbitrary values (including None) starting from every successfully constructed object", "why_tests_cant": "the property is about all histories of edits; a test fixes one history, and the guard used differs from setter to setter so untested interleavings can slip a third specification in", "anchors": ["thermo/stream.py: StreamArgs.T/P/VF/V/rho/H/S/U/G/A/energy setters", "thermo/stream.py: StreamArgs.state_specified, specified_state_vars"]}
{"id": "C02", "title": "Setting one composition or flow specification displaces or refuses the others", "statement": "With single composition basis, after any history of public setters a StreamArgs object holds at most one composition specification and at most one flow specification, and a setter call that raises changes nothing.", "quantifier": "every finite sequence of composition and flow setter calls with arbitrary values from every state satisfying the property", "why_tests_cant": "exclusivity has to survive every order in which the nine composition and flow setters are called", "anchors": ["thermo/stream.py: StreamArgs.zs/ws/Vfls/Vfgs/ns/ms/Qls/Qgs/m/n/Q/Ql/Qg setters", "thermo/stream.py: StreamArgs.composition_spec, flow_spec, clear_flow_spec"]}
{"id": "C03", "title": "Stream constructor and copy keep every specification they were given", "statement": "Reading back any specification from StreamArgs(spec=value) or from its copy() yields the value that was passed in, for every specification name accepted by the constructor.", "quantifier": "every specification name and every value", "why_tests_cant": "each of about thirty names is routed by hand through a dictionary; a test suite covers names one by one and misses the one that is wired wrongly", "anchors": ["thermo/stream.py: StreamArgs.__init__", "thermo/stream.py: StreamArgs.copy"]}
{"id": "C04", "title": "A stream's flash answers for the current specifications", "statement": "StreamArgs.flash() / flash_state returns the result of flashing the specifications the object holds at the time of the call, after any interleaving of edits and flashes (caching is unobservable).", "quantifier": "every sequence of edits and flash calls and every behaviour of the flasher", "why_tests_cant": "staleness shows up only for particular edit/flash interleavings; a memo key that omits one field is invisible to tests that never change only that field", "anchors": ["thermo/stream.py: StreamArgs.flash_state"]}
{"id": "C05", "title": "mole_balance conserves every component", "statement": "When mole_balance reports that it solved (or was given) all flows, the total inlet mole flow of every component equals the total outlet mole flow of that component.", "quantifier": "every number of inlets, outlets and components and every pattern of known and unknown component flows", "why_tests_cant": "the function branches on how many streams and which components are unknown; the number of patterns is exponential in the number of streams and components", "anchors": ["thermo/stream.py: mole_balance", "thermo/stream.py: _mole_balance_process_ns"]}
{"id": "C06", "title": "mole_balance only fills in unknowns", "statement": "mole_balance never changes a component flow that was already known, and each flow it writes is the one forced by component conservation.", "quantifier": "every pattern of known and unknown flows in inlets and outlets", "why_tests_cant": "needs all patterns; a test sees only the written streams it looks at", "anchors": ["thermo/stream.py: mole_balance"]}
{"id": "C07", "title": "energy_balance closes the balance it solves", "statement": "When energy_balance fills in the single missing energy (or mass flow, with use_mass) the sum of inlet energies equals the sum of outlet energies, and no known energy changes.", "quantifier": "every number of streams and every choice of the unknown stream", "why_tests_cant": "the choice of the unknown stream and its index are computed by hand; tests use few streams", "anchors": ["thermo/stream.py: energy_balance"]}
{"id": "C08", "title": "Saving to JSON and loading back preserves object structure and sharing", "statement": "For any graph of serialisable objects, including shared and cyclic references, from_json(as_json(x)) yields an isomorphic graph: same fields, same sharing, no object duplicated or lost.", "quantifier": "every finite object graph (any shape, sharing and cycles)", "why_tests_cant": "graphs are unbounded; sharing and cycles interact with the dedupe table and its id assignment in ways no finite set of graphs covers", "anchors": ["thermo/serialize.py: JsonOptEncodable.as_json, from_json, object_lookups"]}
{"id": "C09", "title": "Interaction-parameter lookups respect the declared symmetry", "statement": "For parameter tables declared symmetric the value for a pair does not depend on the order in which the two CAS numbers are given, and the parameter matrix assembled for a list of components agrees entry by entry with the pairwise lookup, with the documented default for missing pairs and on the diagonal.", "quantifier": "every table content, every list of components in every order (with repetitions)", "why_tests_cant": "the key is formed by sorting and the matrix by nested loops; correctness must hold for every table and every ordering", "anchors": ["thermo/interaction_parameters.py: InteractionParameterDB.get_ip_specific, get_ip_symmetric_matrix, get_ip_asymmetric_matrix, has_ip_specific", "thermo/interaction_parameters.py: ScalarParameterDB"]}
{"id": "C10", "title": "Temperature-property cache is unobservable", "statement": "Calling a TDependentProperty at T gives the value of evaluating the currently selected method with the currently selected extrapolation at T, whatever calls and configuration changes happened before.", "quantifier": "every sequence of evaluations and of method / extrapolation changes", "why_tests_cant": "a stale memo is visible only for specific call orders at the same temperature", "anchors": ["thermo/utils/t_dependent_property.py: TDependentProperty.__call__, method setter, extrapolation setter"]}
{"id": "C11", "title": "Evaluation uses the selected method inside its limits and the selected extrapolation outside", "statement": "T_dependent_property(T) returns the selected method's value when T is within that method's limits and the value passes the plausibility bounds, the extrapolation when T is outside and extrapolation is allowed, and None otherwise; it never returns a value outside the plausibility bounds from an in-range evaluation.", "quantifier": "every temperature, every method behaviour (including raising) and every configuration", "why_tests_cant": "the decision table has several interacting flags and boundary comparisons; tests sample few temperatures", "anchors": ["thermo/utils/t_dependent_property.py: T_dependent_property, test_method_validity, test_property_validity, _calculate_extrapolate"]}
{"id": "C12", "title": "Extrapolation is continuous at the edge of the fitted range", "statement": "Each built-in extrapolation form (constant, linear, interp1d-free analytic forms such as AntoineAB, DIPPR101_ABC, Watson, EXP_POLY_LN_TAU, EXP_LN, DIPPR106 forms with fitted coefficients) takes the method's own value at the limit temperature, and the slope-matching forms take its slope too.", "quantifier": "every limit temperature, value and slope in the form's domain", "why_tests_cant": "coefficients are fitted from value and derivative by closed formulas; the identity has to hold for all reals", "anchors": ["thermo/utils/t_dependent_property.py: _get_extrapolation_coeffs, extrapolate"]}
{"id": "C13", "title": "Extrapolated derivatives and integrals match the extrapolated values", "statement": "extrapolate_derivative is the derivative of extrapolate, and the extrapolated integral (and integral over T) between two temperatures is the integral of the extrapolated property, on the side where that extrapolation applies.", "quantifier": "every coefficient set and every temperature in the form's domain", "why_tests_cant": "analytic identities over the reals; numeric tests check points with tolerances", "anchors": ["thermo/utils/t_dependent_property.py: extrapolate, extrapolate_derivative, extrapolate_integral, extrapolate_integral_over_T"]}
{"id": "C14", "title": "Property integrals are additive across range boundaries", "statement": "T_dependent_property_integral(T1,T2) equals the sum of the integrals over [T1,T3] and [T3,T2] for any T3, including when the points lie on different sides of the method's limits, and is antisymmetric in its limits.", "quantifier": "every triple of temperatures relative to the limits", "why_tests_cant": "the interval is split by a decision tree over the relative order of the end points and the limits", "anchors": ["thermo/utils/t_dependent_property.py: T_dependent_property_integral, _T_dependent_property_integral, T_dependent_property_integral_over_T"]}
{"id": "C15", "title": "Pressure-dependent property cache is unobservable", "statement": "Calling a TPDependentProperty at (T, P) or (T, None) gives the value of a fresh evaluation under the current method selection regardless of history.", "quantifier": "every sequence of calls at arbitrary (T,P) and method / method_P changes", "why_tests_cant": "staleness depends on a specific interleaving of configuration change and repeated call", "anchors": ["thermo/utils/tp_dependent_property.py: TPDependentProperty.__call__, method_P setter", "thermo/utils/t_dependent_property.py: method setter"]}
{"id": "C16", "title": "Mixture property evaluation honours its validity check", "statement": "mixture_property returns a value only from a selected method whose validity test accepts the conditions, unless the user asked to skip the check; otherwise None.", "quantifier": "every method table and every condition", "why_tests_cant": "the guard is a boolean combination evaluated for every method; tests mostly run with valid methods", "anchors": ["thermo/utils/mixture_property.py: MixtureProperty.mixture_property, __call__"]}
{"id": "C17", "title": "Group assignment strings round-trip", "statement": "str_group_assignment_to_dict(group_assignment_to_str(d)) = d for every assignment dictionary with integer group ids and counts, for every admissible pair of separators.", "quantifier": "every finite assignment dictionary", "why_tests_cant": "unbounded data", "anchors": ["thermo/group_contribution/group_contribution_base.py: group_assignment_to_str, str_group_assignment_to_dict"]}
{"id": "C18", "title": "Prioritised fragmentation covers each atom once", "statement": "smarts_fragment_priority assigns pairwise disjoint atom sets, its counts equal the number of assigned matches per group, and it reports success only if every heavy atom is covered and hydrogens balance.", "quantifier": "every molecule match table, every catalogue and priority order", "why_tests_cant": "greedy assignment over arbitrary overlap patterns", "anchors": ["thermo/group_contribution/group_contribution_base.py: smarts_fragment_priority, run_match, priority_assignment_inner"]}
{"id": "C19", "title": "Simple fragmentation reports counts that match the assignment", "statement": "When smarts_fragment reports success, the group counts it returns are the counts of the matches that survived overlap removal and cover each heavy atom exactly once.", "quantifier": "every set of matches", "why_tests_cant": "depends on overlap patterns between groups; tests use molecules where no removal happens", "anchors": ["thermo/group_contribution/group_contribution_base.py: smarts_fragment"]}
{"id": "C20", "title": "Redlich-Kister excess property is well-behaved under relabelling", "statement": "The Redlich-Kister excess property computed from a structure built from binary data is unchanged by permuting components consistently, vanishes for a pure component, for two components equals the binary closed form, and swapping the stored order of a pair (reversing coefficients) changes nothing.", "quantifier": "every number of components, order of expansion, coefficients and composition", "why_tests_cant": "algebraic identities in unboundedly many variables", "anchors": ["thermo/redlich_kister.py: redlich_kister_excess_inner, redlich_kister_excess_inner_binary, redlich_kister_build_structure, redlich_kister_reverse, redlich_kister_T_dependence, redlich_kister_excess_binary"]}
{"id": "C21", "title": "Temperature-dependent interaction parameters have exact derivatives", "statement": "The first, second and third temperature-derivative functions for exponential interaction parameters are the derivatives of the interaction parameter function.", "quantifier": "every coefficient matrix of every size and every positive temperature", "why_tests_cant": "real-analysis identity; numerical differentiation only checks points within tolerance", "anchors": ["thermo/activity.py: interaction_exp, dinteraction_exp_dT, d2interaction_exp_dT2, d3interaction_exp_dT3"]}
{"id": "C22", "title": "Excess properties obey the thermodynamic identities", "statement": "For every excess Gibbs model HE = GE - T dGE/dT, SE = -dGE/dT, GE = HE - T SE, dHE/dT = -T d2GE/dT2, and activity coefficients satisfy sum x_i ln gamma_i = GE/(RT).", "quantifier": "every excess Gibbs function, composition and temperature", "why_tests_cant": "identities over all functions and compositions", "anchors": ["thermo/activity.py: GibbsExcess.HE, SE, dHE_dT, dSE_dT, gammas, gibbs_excess_gammas, gibbs_excess_dHE_dxs"]}
{"id": "C23", "title": "Activity coefficients from mole-fraction derivatives are the mole-number derivatives", "statement": "gibbs_excess_gammas applied to the composition gradient gives exp of the partial molar excess Gibbs energy over RT, i.e. d(n GE)/dn_i / RT, and hence satisfies the Gibbs-Duhem relation.", "quantifier": "every smooth excess Gibbs function, number of components and composition", "why_tests_cant": "calculus over arbitrarily many variables", "anchors": ["thermo/activity.py: gibbs_excess_gammas, gibbs_excess_dgammas_dns, gibbs_excess_dgammas_dT"]}
{"id": "C24", "title": "Wilson model derivatives are exact", "statement": "All temperature and composition derivatives exposed by the Wilson model are the derivatives of its excess Gibbs energy, its activity coefficients equal the closed Wilson formula, and a pure component has activity coefficient one.", "quantifier": "every number of components, composition and parameter matrix", "why_tests_cant": "hand-derived loops over i,j,k; tests check 2 or 3 components at points", "anchors": ["thermo/wilson.py: wilson_dGE_dT, wilson_d2GE_dT2, wilson_d3GE_dT3, wilson_dGE_dxs, wilson_d2GE_dxixjs, wilson_d3GE_dxixjxks, wilson_d2GE_dTdxs, wilson_gammas, wilson_gammas_from_args"]}
{"id": "C25", "title": "NRTL model derivatives are exact", "statement": "The temperature and composition derivatives exposed by the NRTL model are the derivatives of its excess Gibbs energy and its activity coefficients equal the partial molar excess Gibbs energy.", "quantifier": "every number of components, composition and parameter matrices", "why_tests_cant": "as for Wilson", "anchors": ["thermo/nrtl.py: NRTL, NRTL_gammas, nrtl_dGE_dxs, nrtl_d2GE_dxixjs, nrtl_d2GE_dTdxs, NRTL_dGE_dT"]}
{"id": "C26", "title": "UNIQUAC and regular-solution derivatives are exact", "statement": "The temperature and composition derivatives exposed by the regular-solution and UNIQUAC models are the derivatives of their excess Gibbs energies; activity coefficients equal the partial molar excess Gibbs energy.", "quantifier": "every number of components, composition and parameters", "why_tests_cant": "as for Wilson", "anchors": ["thermo/regular_solution.py: RegularSolution", "thermo/uniquac.py: UNIQUAC"]}
{"id": "C27", "title": "Cubic compressibility polynomial is the equation of state", "statement": "The volumes the volume solvers look for are exactly the molar volumes at which the equation of state returns the specified pressure: V solves the solver's cubic iff V satisfies P = RT/(V-b) - a/(V^2+delta V+epsilon).", "quantifier": "all T, P > 0, all parameters and all volumes off the poles", "why_tests_cant": "an equivalence over the reals that every other result rests on", "anchors": ["thermo/eos_volume.py: volume_solutions_halley, volume_solutions_NR, volume_solutions_fast, volume_solutions_ideal", "thermo/eos.py: GCEOS.volume_solutions, solve"]}
{"id": "C28", "title": "Closed-form cubic solvers return roots", "statement": "Each closed-form volume solver returns real volumes that satisfy the cubic, and in the single-root regime it returns the only real root.", "quantifier": "all real coefficients in the regime", "why_tests_cant": "branch-heavy radical expressions over the reals", "anchors": ["thermo/eos_volume.py: high_alpha_one_root, volume_solutions_fast, volume_solutions_doubledouble_float, volume_solutions_ideal"]}
{"id": "C29", "title": "Liquid and vapour roots are the smallest and largest physical roots", "statement": "After solving at T and P, the liquid volume is the smallest and the vapour volume the largest real solver root above the covolume, single-root states get exactly one phase, and an error is raised when there is no such root.", "quantifier": "every list of complex solver roots and every covolume", "why_tests_cant": "selection logic over arbitrary root lists", "anchors": ["thermo/eos.py: GCEOS.set_from_PT"]}
{"id": "C30", "title": "Resolving full temperature derivatives refreshes every solved phase", "statement": "After an equation of state was solved with cheap alphas, resolve_full_alphas recomputes the departure properties of every phase that was solved.", "quantifier": "every solved state (liquid only, vapour only, both)", "why_tests_cant": "depends on which roots exist; a test must look at the stale attributes of the two-root case", "anchors": ["thermo/eos.py: GCEOS.resolve_full_alphas, set_from_PT"]}
{"id": "C31", "title": "Pressure derivatives are exact", "statement": "dP_dT, dP_dV, d2P_dT2, d2P_dV2, d2P_dTdV returned with a solution are the partial derivatives of the pressure equation, and the inverse derivatives (dV_dT, dT_dP, ...) are those of the implicitly defined functions.", "quantifier": "all T, V off the poles and every differentiable attraction term", "why_tests_cant": "calculus identities", "anchors": ["thermo/eos.py: main_derivatives_and_departures, GCEOS.set_properties_from_solution, derivatives_and_departures"]}
{"id": "C32", "title": "Departure functions are the exact integrals of the equation of state", "statement": "H_dep, S_dep and Cv_dep have the volume derivatives required by thermodynamics, vanish in the ideal-gas limit V -> infinity, and G_dep = H_dep - T S_dep = RT ln(phi) with phi the fugacity coefficient.", "quantifier": "all T, V above the largest pole, every twice differentiable attraction term and every delta, epsilon with delta^2 > 4 epsilon", "why_tests_cant": "limits and integrals over an unbounded range", "anchors": ["thermo/eos.py: main_derivatives_and_departures, main_derivatives_and_departures_VDW, eos_lnphi, eos_G_dep, GCEOS.phi_l, fugacity_l"]}
{"id": "C33", "title": "Attraction-term derivatives are exact for every alpha function", "statement": "For each alpha function the derivative outputs are the first and second temperature derivatives of the value output, and the pure and vectorised evaluations agree.", "quantifier": "every coefficient vector and positive temperature (each branch)", "why_tests_cant": "more than twenty hand-derived formulas with common-subexpression rewriting", "anchors": ["thermo/eos_alpha_functions.py: all *_a_alpha classes and *_a_alpha_and_derivatives_vectorized", "thermo/eos.py: PR/SRK/RK/PRSV/PRSV2/VDW/APISRK.a_alpha_and_derivatives_pure"]}
{"id": "C34", "title": "Closed-form temperature solutions satisfy the equation of state", "statement": "For PR, SRK, RK and VDW, solving for temperature from pressure and volume returns a T at which the equation of state gives back that pressure.", "quantifier": "all V above the covolume and all pressures for which a real solution exists", "why_tests_cant": "nested-radical formula over the reals", "anchors": ["thermo/eos.py: PR.solve_T, SRK.solve_T, RK.solve_T, VDW.solve_T", "thermo/eos.py: GCEOS.a_alpha_for_V, a_alpha_for_Psat"]}
{"id": "C35", "title": "P_max_at_V is the maximum pressure over all temperatures", "statement": "When P_max_at_V returns a value it is the maximum of the pressure over temperature at that volume, and None means the pressure is unbounded above.", "quantifier": "all volumes above the covolume and all parameters", "why_tests_cant": "global optimisation over temperature", "anchors": ["thermo/eos.py: PR.P_max_at_V, SRK.P_max_at_V"]}
{"id": "C36", "title": "Volume translation only shifts volumes", "statement": "A translated PR/SRK equation with shift c gives at volume V the pressure the untranslated equation gives at V + c, so translated volume roots are the untranslated roots minus c.", "quantifier": "all T, V, c and parameters", "why_tests_cant": "identity over the reals for the re-parameterised constants", "anchors": ["thermo/eos.py: PRTranslated, SRKTranslated, MSRKTranslated constructors"]}
{"id": "C37", "title": "Discriminant sign and its pressure zeros are consistent", "statement": "discriminant(T, P) is the discriminant of the compressibility cubic at that T and P (zero iff a repeated root), and P_discriminant_zeros_analytical returns only pressures at which it vanishes.", "quantifier": "all T, P and parameters", "why_tests_cant": "polynomial identity; argument handling must hold for T different from the object's own T", "anchors": ["thermo/eos.py: GCEOS.discriminant, P_discriminant_zeros_analytical, VDW.P_discriminant_zeros_analytical"]}
{"id": "C38", "title": "Mixing-rule evaluators agree and have exact derivatives", "statement": "All evaluators of the van der Waals mixing rule return the double sum over components, agree with one another, and their temperature derivatives are the derivatives of that sum.", "quantifier": "every number of components, composition (including zeros) and interaction matrix", "why_tests_cant": "loops skip the upper triangle and zero entries; identities over arbitrary N", "anchors": ["thermo/eos_mix_methods.py: a_alpha_and_derivatives, a_alpha_and_derivatives_full, a_alpha_quadratic_terms, a_alpha_and_derivatives_quadratic_terms, a_alpha_aijs_composition_independent"]}
{"id": "C39", "title": "Row sums of the mixing rule are complete for absent components", "statement": "The per-component attraction sums handed to the fugacity routines equal sum_j z_j a_ij for every component, also for components with zero mole fraction.", "quantifier": "every composition including zeros", "why_tests_cant": "only shows when some but not all components are absent and depends on their position", "anchors": ["thermo/eos_mix_methods.py: a_alpha_and_derivatives_quadratic_terms, a_alpha_quadratic_terms, a_alpha_and_derivatives_full"]}
{"id": "C40", "title": "Component fugacity coefficients sum to the mixture value", "statement": "For every cubic mixture routine sum z_i ln phi_i equals the mixture ln phi of the phase, i.e. fugacity coefficients are consistent partial molar properties.", "quantifier": "every number of components, composition, parameters and volume root", "why_tests_cant": "identity over arbitrary N and all parameters, including non-zero binary interaction parameters", "anchors": ["thermo/eos_mix_methods.py: PR_lnphis, SRK_lnphis, VDW_lnphis, eos_mix_lnphis_general, G_dep_lnphi_d_helper", "thermo/eos.py: eos_lnphi"]}
{"id": "C41", "title": "Composition derivatives of mixture parameters are exact", "statement": "The dzs / dns first, second and third derivative routines for b, delta, epsilon and a_alpha are the derivatives of the mixture parameters with respect to mole fractions / mole numbers.", "quantifier": "every number of components, composition and parameters", "why_tests_cant": "multivariate calculus for any N", "anchors": ["thermo/eos_mix_methods.py: eos_mix_db_dns, eos_mix_da_alpha_dns, PR_ddelta_dns, PR_depsilon_dns, PR_d2delta_dninjs, PR_d2epsilon_dninjs, PR_d3epsilon_dninjnks, RK_d3delta_dninjnks, PR_translated_*, SRK_translated_*, eos_mix_dV_dzs"]}
{"id": "C42", "title": "Clearing specifications removes every specification of that kind", "statement": "After clear_state_specs no state specification remains, after clear_composition_specs no composition specification remains and after clear_flow_spec no flow specification remains, while specifications of other kinds are untouched.", "quantifier": "every stream object and every history that produced it", "why_tests_cant": "the lists of cleared names are written by hand next to a much longer list of names; a test clears the names its author thought of", "anchors": ["thermo/stream.py: StreamArgs.clear_state_specs, clear_composition_spec, clear_flow_spec"]}
{"id": "C43", "title": "Constructor rejects contradictory specifications", "statement": "StreamArgs(...) raises when it is given two composition specifications, two flow specifications, or three state specifications; it never silently keeps a contradictory set.", "quantifier": "every combination of constructor arguments", "why_tests_cant": "there are thousands of pairs and triples of arguments, and the constructor counts them in separate hand-written lists", "anchors": ["thermo/stream.py: StreamArgs.__init__"]}
{"id": "C44", "title": "reconcile_flows completes a component list from a total", "statement": "When exactly one entry of a component flow list is unknown and the total is given, reconcile_flows fills that entry so that the list sums to the total; a complete list that contradicts the total is rejected; with two or more unknown entries nothing is invented.", "quantifier": "all component lists of any length with any pattern of unknown entries and any totals", "why_tests_cant": "the statement ranges over all patterns of missing entries and all lengths", "anchors": ["thermo/stream.py: StreamArgs.reconcile_flows"]}
{"id": "C45", "title": "mole_balance reports progress only if it made progress", "statement": "When mole_balance returns True at least one flow that was unknown before is known afterwards, so iterating unit operations until no call reports progress terminates.", "quantifier": "all numbers of streams, components and patterns of unknown flows", "why_tests_cant": "progress is tracked by a flag set before the write is attempted; only some patterns of missing data expose it", "anchors": ["thermo/stream.py: mole_balance"]}
{"id": "C46", "title": "A JSON document can be loaded more than once", "statement": "Calling from_json twice on the same dictionary produced by as_json gives two equal objects: loading does not change the document it is given.", "quantifier": "every document that loads once", "why_tests_cant": "a test loads each document once; the effect on the argument shows only on the second use of every document", "anchors": ["thermo/serialize.py: JsonOptEncodable.from_json"]}
{"id": "C47", "title": "Presence test and lookup of interaction parameters agree", "statement": "has_ip_specific is True exactly when get_ip_specific returns a stored value; when it is False the documented default is returned.", "quantifier": "every table, every list of CAS numbers and every parameter name", "why_tests_cant": "two functions look the same thing up by separate code; agreement must hold on every table", "anchors": ["thermo/interaction_parameters.py: InteractionParameterDB.get_ip_specific, has_ip_specific"]}
{"id": "C48", "title": "Memo of the last mixture evaluation is unobservable", "statement": "Calling a MixtureProperty at (T, P, zs, ws) gives the value of a fresh evaluation at those arguments whatever was evaluated before, although the last conditions and value are kept.", "quantifier": "every sequence of calls and every evaluation function", "why_tests_cant": "the memo is compared with the arguments by equality of a list with a tuple; staleness depends on the history of calls", "anchors": ["thermo/utils/mixture_property.py: MixtureProperty.__call__"]}
{"id": "C49", "title": "Mixing rules are bounded, symmetric and exact for pure components", "statement": "The linear and logarithmic mole/mass fraction mixing rules return the pure value for a pure component, lie between the smallest and the largest pure value, do not depend on the order of the components, and the excess correlation adds exactly the excess term.", "quantifier": "every number of components, every composition summing to one and every set of (positive, for logarithmic) pure values", "why_tests_cant": "tests use a few mixtures of a few components", "anchors": ["thermo/utils/mixture_property.py: MixtureProperty.calculate"]}
{"id": "C50", "title": "Excess correlation of a mixture property uses every pair of components", "statement": "The Redlich-Kister excess term of a mixture property is the sum over all pairs of components of the series of that pair.", "quantifier": "every number of components and of temperature coefficients", "why_tests_cant": "the code passes the number of temperature coefficients as number of components; the two agree on the tested binary case", "anchors": ["thermo/utils/mixture_property.py: MixtureProperty._calculate_corr_mixture"]}
{"id": "C51", "title": "Automatically named tables do not overwrite existing ones", "statement": "add_tabular_data and add_tabular_data_P without a name store the table under a name not in use before.", "quantifier": "every table dictionary and every sequence of additions", "why_tests_cant": "needs several additions with mixed names; each test adds one table", "anchors": ["thermo/utils/t_dependent_property.py: TDependentProperty.add_tabular_data", "thermo/utils/tp_dependent_property.py: TPDependentProperty.add_tabular_data_P"]}
{"id": "C52", "title": "Integral of a piecewise method is the integral of its values", "statement": "calculate_integral of a piecewise method between any two temperatures equals the integral of the function calculate evaluates, including when the range spans several transitions or the limits are reversed; likewise for the integral over temperature.", "quantifier": "every number of pieces, every transition temperatures and every pair of limits", "why_tests_cant": "the loop accumulates over a variable number of pieces; tests use one or two fixed tables", "anchors": ["thermo/utils/t_dependent_property.py: TDependentProperty.calculate_integral, calculate_integral_over_T"]}
{"id": "C53", "title": "Prioritised fragmentation is greedy in priority", "statement": "In the first attempt of smarts_fragment_priority a match of a group is left unassigned only if it overlaps an assigned match of a group of no lower priority (ties broken by group id), or it would be the whole molecule with the wrong number of hydrogens.", "quantifier": "every molecule match table and every catalogue", "why_tests_cant": "depends on the interplay of sorting and overlap over every catalogue; tests check final counts for given molecules", "anchors": ["thermo/group_contribution/group_contribution_base.py: run_match, smarts_fragment_priority"]}
{"id": "C54", "title": "Flory-Huggins and Hansen derivatives are exact", "statement": "At a normalised composition the first, second and third composition derivatives and the temperature derivatives exposed by the Flory-Huggins model, and the gradient exposed by the Hansen model, are those of their excess Gibbs energies, and the activity coefficients and their mole-number derivatives follow from them.", "quantifier": "every number of components, normalised composition, temperature and parameters with positive volumes", "why_tests_cant": "tests compare stored numbers and finite differences at a few compositions; third derivatives are compared at one", "anchors": ["thermo/regular_solution.py: flory_huggins_GE", "thermo/regular_solution.py: flory_huggins_d3GE_dxixjxks", "thermo/regular_solution.py: hansen_Aijs_His"]}
{"id": "C56", "title": "Second-order, density and compressibility derivatives are exact", "statement": "The second derivatives of volume, temperature and pressure, the density derivatives, the expansion and compressibility coefficients, and the derivatives of the compressibility factor exposed by a solved equation of state are the derivatives along curves of states that keep the named variable fixed.", "quantifier": "every state above the largest pole with nonzero pressure derivatives, every three times differentiable attraction term, every curve of states", "why_tests_cant": "tests compare numerical differences at single states", "anchors": ["thermo/eos.py: GCEOS.d2V_dT2_l, d2V_dP2_l, d2T_dP2_l, d2T_dV2_l, d2V_dPdT_l, d2T_dPdV_l, d2P_dTdV_l", "thermo/eos.py: GCEOS.drho_dP_l, d2rho_dP2_l, dZ_dT_l, dZ_dP_l, beta_l, kappa_l"]}
{"id": "C57", "title": "Derivatives of departures, fugacity and fugacity coefficient are exact", "statement": "The first and second derivatives of H_dep and S_dep by temperature, pressure and volume, with pressure or volume or temperature held fixed, and the derivatives of fugacity and phi, are those of the departure functions along the corresponding curves of states, and the isobaric ones agree with the heat capacity departure.", "quantifier": "every state above the largest pole with nonzero pressure derivatives, every three times differentiable attraction term, every curve of states", "why_tests_cant": "closed forms of up to thirty terms checked at single states only", "anchors": ["thermo/eos.py: GCEOS.dH_dep_dT_l ... d2S_dep_dTdP_l", "thermo/eos.py: GCEOS.dfugacity_dT_l, dfugacity_dP_l, dphi_dT_l, dphi_dP_l, Cp_minus_Cv_l"]}
{"id": "C58", "title": "Saturation slopes and heats of vaporisation are those of the saturation curve", "statement": "The unpolished dPsat_dT is the derivative of the unpolished Psat; the polished dPsat_dT is the slope of every curve on which both phases have equal pressure and fugacity; dphi_sat_dT is the derivative of phi_sat along that curve; Hvap equals the difference of the departure enthalpies of the phases.", "quantifier": "every temperature, every attraction function and coefficient lists, every differentiable saturation curve of every two-constant cubic equation", "why_tests_cant": "tests compare with stored numbers or with numerical derivatives at a few temperatures of a few substances", "anchors": ["thermo/eos.py: GCEOS.Psat, dPsat_dT, phi_sat, dphi_sat_dT, Hvap"]}
{"id": "C55", "title": "Mixture fugacity coefficients are mole number derivatives of n ln(phi)", "statement": "At constant temperature and pressure, the logarithmic fugacity coefficients returned by PR_lnphis, SRK_lnphis, RK, the translated equations and the general routine are the partial derivatives of n*ln(phi) with respect to each mole number along the volume branch, and eos_mix_dV_dzs is the derivative of that volume; VDW_lnphis only without interaction parameters, PR_lnphis only with nonzero attraction.", "quantifier": "every number of components, composition summing to one, symmetric interaction matrix, temperature, pressure and regular volume branch", "why_tests_cant": "implicit differentiation over a continuum of states for any number of components", "anchors": ["thermo/eos_mix_methods.py: eos_mix_dV_dzs 744-781, G_dep_lnphi_d_helper 784-833, PR_lnphis 1284-1316, SRK_lnphis 1318-1336, VDW_lnphis 1338-1349, eos_mix_lnphis_general 1351-1368, *_lnphis_fastest 1374-1479"]}
{"id": "C59", "title": "The volume used for fugacity coefficients is the right root", "statement": "eos_mix_a_alpha_volume uses the least physical root for liquids, the greatest for gases, and the one of the two with lower Gibbs energy when the phase is open, whenever the first root of the solver exceeds the covolume; otherwise the liquid choice can return an unphysical root although a physical one exists.", "quantifier": "all root triples, covolumes and Gibbs energy functions", "why_tests_cant": "all orderings of three real roots relative to the covolume", "anchors": ["thermo/eos_mix_methods.py: eos_mix_a_alpha_volume 835-874"]}
{"id": "C60", "title": "Ion balancing returns a neutral composition and changes only what it says", "statement": "Whenever balance_ions returns, the composition sums to one, has one mole fraction per ion and is neutral (exactly, or unchanged and within 1e-7); ions stay non-negative; the single-ion methods change only that ion in the requested direction, the dominant methods change only one ion of the right group with the largest charge share, the proportional methods scale only one group by one factor on the right side of one; concentrations in mg/L give the same result as the mole fractions of one litre of solution. The default method does not raise if the deficient group holds an ion with positive amount.", "quantifier": "all lists of anions and cations with charges of the right sign, all mole fractions or concentrations, all thirteen methods, all selected ions", "why_tests_cant": "any number of ions, any composition and 13 methods with insertion of new ions into index-aligned lists", "anchors": ["thermo/electrochem.py: ion_balance_adjust_wrapper 1452-1491, ion_balance_adjust_one 1494-1503, ion_balance_dominant 1506-1530, ion_balance_proportional 1533-1566, balance_ions 1569-1791"]}
{"id": "C61", "title": "Derivative methods of Phase are the partial derivatives they are named after", "statement": "Given pressure derivatives in temperature and volume and the enthalpy and entropy derivatives supplied by a subclass, every derived method of Phase (inverse and second derivatives of T, P, V; Z, density, expansion and compressibility derivatives; G, U, A derivatives; the Jacobian quotient derivs_jacobian; the generated density and constant-property methods) is the derivative of the named quantity with respect to the named variable along every path on which the held quantity is stationary.", "quantifier": "all differentiable pressure, enthalpy and entropy functions, all states with nonzero pressure derivatives, all differentiable paths", "why_tests_cant": "about a hundred identities over arbitrary equations of state and all states", "anchors": ["thermo/phases/phase.py: Phase derivative methods 2300-5100"]}
{"id": "C62", "title": "Heat capacities, speed of sound and isentropic exponents of Phase are thermodynamically right", "statement": "When the supplied enthalpy and entropy derivatives obey the fundamental relations, dH = TdS + VdP and the three others hold for G, U, A; Cv is the constant-volume derivative of U and T times that of S; Joule_Thomson is the isenthalpic derivative; speed_of_sound squared is the isentropic derivative of pressure by density; the three isentropic exponents describe isentropic changes; dCv_dT_P, dCv_dP_T, dspeed_of_sound_dT_P and dspeed_of_sound_dP_T are derivatives of Cv and speed_of_sound.", "quantifier": "all states and all phases keeping their promises", "why_tests_cant": "relations between derivatives over a continuum of states and equations of state", "anchors": ["thermo/phases/phase.py: Cv, speed_of_sound 3255, isentropic exponents, dCv_dT_P, dspeed_of_sound_dT_P 5020-5087"]}
{"id": "C63", "title": "IdealGas returns consistent values and derivatives", "statement": "State changes of IdealGas obey PV = RT; its shortcut methods equal the base class results; its first derivatives and pressure derivatives are right. The mixed second derivatives d2P_dTdP, d2P_dVdP, d2P_dVdT_TP, d2P_dT2_PV are derivatives too.", "quantifier": "all mixtures, temperatures, volumes and heat capacity functions", "why_tests_cant": "all heat capacity functions and states", "anchors": ["thermo/phases/ideal_gas.py: 268-753"]}
{"id": "C64", "title": "Phases from cubic equations of state are thermodynamically consistent", "statement": "CEOSGas and CEOSLiquid read all attributes from one root; at a physical root their enthalpy, entropy, heat capacity and all supplied first and second derivatives are mutually consistent partial derivatives, so that C61 and C62 apply.", "quantifier": "all cubic equations of state with differentiable attraction, all physical states, all ideal gas heat capacity functions, any number of components", "why_tests_cant": "continuum of states and parameters", "anchors": ["thermo/phases/ceos.py: 593-1166", "thermo/phases/phase.py: IdealGasDeparturePhase 5921-6130"]}
{"id": "C65", "title": "Fugacities, their derivatives and the fugacity-based consistency checks", "statement": "The temperature, pressure and mole number derivatives of fugacity coefficients and fugacities returned by Phase are the derivatives of the returned values; log fugacities are logarithms of the fugacities; the six checks that recompute H, S, V and the departures from fugacity coefficients return zero for every consistent phase and zero only when both values agree; comparing phase sets by G_min_criteria orders them as their Gibbs energies do for equal feed.", "quantifier": "all phases, states with positive pressure, compositions, number of components", "why_tests_cant": "continuum of states and compositions; relations between functions, not values", "anchors": ["thermo/phases/phase.py: 866-1380", "thermo/phases/phase.py: G_min_criteria 869"]}
{"id": "C66", "title": "Chemical potentials and formation properties", "statement": "The chemical potentials of a phase are the partial molar values of its reactive Gibbs energy, add up to it, and equal the pure reference potential plus RT times the logarithm of the fugacity over the reference pressure; formation properties of a mixture depend on the composition only and G, U and A of formation differ from H of formation by the defining relations.", "quantifier": "all phases with differentiable H and S, compositions, formation data", "why_tests_cant": "continuum of compositions and states", "anchors": ["thermo/phases/phase.py: 2120-2420"]}
{"id": "C67", "title": "The virial gas phase is consistent", "statement": "All pressure, enthalpy, entropy and departure derivatives of VirialGas are the partial derivatives they are named after; departures vanish at infinite volume; dH = T dS + V dP; volume and Gibbs departure have the reported composition derivatives at constant temperature and pressure and the fugacity coefficients are partial molar values; the residual solved for temperature has the reported derivative.", "quantifier": "all differentiable second and third virial coefficients, all states with positive compressibility factor, all compositions", "why_tests_cant": "continuum of states; the tests compare Cp only with the ideal gas, where constant volume and constant pressure derivatives of the enthalpy agree", "anchors": ["thermo/phases/virial_phase.py: VirialGas 899-2748", "thermo/phases/phase.py: IdealGasDeparturePhase 5921-6130"]}
{"id": "C68", "title": "Bulk properties are the properties of the phases held together", "statement": "Volume, enthalpy, entropy, heat capacity and their pressure and temperature derivatives of a multi-phase bulk are the mole-fraction weighted sums over the phases; the volume-weighted compressibility and expansion coefficients are those of the total volume; the bulk Gibbs energy has derivatives -S and V; the derivative option computes Cv consistent with its pressure derivatives and bounded as thermodynamics demands; for one phase all definitions agree; the perturbation formulas and both speed of sound models converge to their derivatives. The default mole-weighted dP_dT, dP_dV, compressibility and expansion coefficients are NOT the frozen-phase derivatives (counterexample).", "quantifier": "all lists of phases and phase fractions, all temperatures and pressures", "why_tests_cant": "continuum of states; tests compare single numbers with themselves", "anchors": ["thermo/bulk.py: Bulk 979-1624"]}
{"id": "C69", "title": "Phase fractions of an equilibrium state", "statement": "The states of matter fractions, mass, volume and reference volume fractions of an EquilibriumState partition one, are consistent with the per phase fractions and material balances, the liquid bulk has the composition of the liquids; quality is the gas mass fraction. Reading one fraction does not change what another returns: this is false, the two volume fraction methods share one cache attribute; quality counts solids as liquid.", "quantifier": "all equilibrium states (gas or not, any number of liquids and solids), all orders of reads", "why_tests_cant": "all orders of cached reads; all phase sets", "anchors": ["thermo/equilibrium.py: 263-709"]}
{"id": "C70", "title": "Flows of phases and bulks of a stream", "statement": "Molar, mass, volumetric and energy flows of the phases of an EquilibriumStream are the products of the stream flow with the respective fraction and property, and sum to the flow of the stream. For the liquid bulk of several liquids next to a gas this fails: volumes and enthalpies are scaled by the liquid fraction and the mass flow is that of the whole stream.", "quantifier": "all equilibrium states and flow rates", "why_tests_cant": "continuum of states; tests have no gas next to two liquids for these methods", "anchors": ["thermo/phases/phase.py: 5200-5490", "thermo/equilibrium.py: 413-440", "thermo/bulk.py: 650-689"]}
{"id": "C71", "title": "Mixing rules for viscosity and other transport properties of a bulk", "statement": "Every weighted mixing rule (linear, log, power form, minimum, maximum) returns a value between the smallest and largest phase value; as do the two-phase viscosity correlations; a bulk without gas, and a gas-liquid state, are bounded by its phases. Exceptions: liquid bulk next to a gas, states with solids, a log rule for negative dP_dV.", "quantifier": "all mixing methods, bases, exponents, weights summing to one and positive phase values", "why_tests_cant": "continuum of weights and values; all combinations of options", "anchors": ["thermo/bulk.py: 748-950"]}
{"id": "C72", "title": "Composition reports of an equilibrium state", "statement": "Atom contents and fractions of a composition count every atom once with the right weight, fractions sum to one, and atoms are conserved between the phases and the bulk; water-free compositions contain no water, sum to one, keep proportions and commute with conversion to mass fractions, and fail only for pure water; reported volume fractions sum to one; lightest, heaviest and water phase are the extremal liquids. The hydrogen to carbon ratio and the humidity ratio asked of a phase return those of the whole state (counterexamples).", "quantifier": "all formulas, compositions, phase sets, number of components", "why_tests_cant": "all mixtures and phase sets; tests never ask a phase of a multi-phase state", "anchors": ["thermo/equilibrium.py: 781-865", "thermo/equilibrium.py: 948-973", "thermo/equilibrium.py: 2174-2428"]}
{"id": "C73", "title": "Ideal-gas and departure properties of a bulk", "statement": "Property departures of a bulk are the property minus the ideal-gas property at the overall composition. True of the enthalpy; for entropy and Gibbs energy false unless all phases have the overall composition: the departure differs by R times the mean relative entropy of the phase compositions, and the state reports an ideal-gas entropy of a part (liquid bulk) too large by R times its relative entropy.", "quantifier": "all phase sets, compositions, heat capacity integrals", "why_tests_cant": "a relation between methods for all multi-phase states", "anchors": ["thermo/equilibrium.py: 1489-1526", "thermo/equilibrium.py: 1700-1748", "thermo/bulk.py: 1675-1712", "thermo/phases/phase.py: 1911-1927"]}
{"id": "C74", "title": "Identification of gas, liquids and solids", "statement": "identity_phase_states puts every phase it is given into exactly one class, forced phases into their class, picks as gas the one with the highest vapour score, and the scores have the sign their documentation gives. Proved for phases without forced gases; refuted: the scores are paired with the wrong gases when one is forced, two forced gases raise, an unknown force drops the phase, the Wilson score has the wrong sign for a pure component, and the trace score is never above one.", "quantifier": "all phase lists, scores, forced phases, compositions", "why_tests_cant": "combinatorial in the number, order and forcing of the phases", "anchors": ["thermo/phase_identification.py: 100-420", "thermo/phase_identification.py: 590-760"]}
{"id": "C75", "title": "Sorting keeps phases with their fractions", "statement": "identify_sort_phases returns the same phases, liquids and solids ordered by the chosen property (the water-rich phase first or last), each with its own phase fraction, so that every balance over the phases is kept. Refuted: equal keys raise TypeError, sorting by isothermal compressibility sorts by expansion, and calling without fractions raises.", "quantifier": "all phase lists, fractions, settings, property values", "why_tests_cant": "permutation property over all lists and settings", "anchors": ["thermo/phase_identification.py: 860-962", "thermo/phase_identification.py: 1027-1063"]}
{"id": "C76", "title": "State properties of Helmholtz-energy phases", "statement": "For a phase described by a reduced Helmholtz energy (IAPWS95, DryAirLemmon) entropy and pressure are minus the derivatives of RTA by temperature and volume, and every derivative method of HelmholtzEOS (pressure to second order, enthalpy, entropy, heat capacities) is the partial derivative it is named after; overridden methods agree with the base class.", "quantifier": "all reduced energies, all states off the spinodal", "why_tests_cant": "two dozen hand-derived formulas over a continuum of states and arbitrary fluid functions", "anchors": ["thermo/phases/helmholtz_eos.py: 63-140", "thermo/phases/helmholtz_eos.py: 230-550"]}
{"id": "C77", "title": "Fugacity, virial coefficients and departures of Helmholtz-energy phases", "statement": "ln phi is the Gibbs energy above the ideal gas at the same T and P over RT, its six derivatives are exact and satisfy the Gibbs-Helmholtz relation; B and C are the coefficients of the density expansion of Z and their temperature derivatives are exact; H_dep is the departure enthalpy. Refuted: A() returns the energy divided by RT, S_dep is taken at equal density (off by R ln Z) so G_dep contradicts ln phi, and d3B_virial_dT3 raises for water.", "quantifier": "all reduced energies, all states with positive pressure", "why_tests_cant": "limits and identities over a continuum of states", "anchors": ["thermo/phases/helmholtz_eos.py: 66-72", "thermo/phases/helmholtz_eos.py: 142-248", "thermo/phases/helmholtz_eos.py: 319-331", "thermo/phases/helmholtz_eos.py: 552-656"]}
{"id": "C78", "title": "State properties of Gibbs-energy phases", "statement": "For a phase described by its Gibbs energy (GibbsEOS) the energies satisfy their definitions, dG = -S dT + V dP, and every derivative method between pressure, volume, temperature and entropy is the partial derivative it is named after.", "quantifier": "all Gibbs energies, all states", "why_tests_cant": "identities over a continuum of states and all subclasses", "anchors": ["thermo/phases/gibbs_eos.py: 30-112"]}
{"id": "C79", "title": "Derivatives of the ice model", "statement": "The first and second derivatives of the Gibbs energy that IAPWS06 computes by hand-written complex formulas are the derivatives of the Gibbs energy it computes, at every temperature and pressure, and the precomputed literals in these formulas are the required products to fifteen digits.", "quantifier": "all temperatures and pressures, all constants with non-real t1, t2", "why_tests_cant": "complex logarithms over a continuum; branch cuts", "anchors": ["thermo/phases/iapws_phase.py: 674-700", "thermo/phases/iapws_phase.py: 747-844"]}
{"id": "C80", "title": "The industrial water formulation as a phase", "statement": "IAPWS97 objects supply molar volume with exact derivatives. Enthalpy, entropy, Gibbs energy and heat capacity should be on one molar basis and all methods should return numbers. Refuted: H and S are per kilogram while Cp is per mole, G is divided by RT, U raises, Cv returns None, V is shadowed on objects made from a volume, region 3 fails, and to_TP_zs returns None after changing the receiver.", "quantifier": "all regions, states, ways of construction", "why_tests_cant": "the class has no tests of these methods; basis errors are invisible to self-consistent checks", "anchors": ["thermo/phases/iapws_phase.py: 204-650"]}
{"id": "C81", "title": "Grayson-Streed and Chao-Seader liquids", "statement": "Fugacity coefficients are positive, ln phi = ln gamma + ln nu, hydrogen and methane alone use special coefficients, and nu varies continuously with temperature. Refuted for Grayson-Streed: nu jumps at the critical temperature of every component with an acentric factor at every pressure; and to(T=...) alone returns None.", "quantifier": "all components, temperatures, pressures", "why_tests_cant": "continuity at a point; tests sample away from the critical temperature", "anchors": ["thermo/phases/petroleum.py: 72-166"]}
{"id": "C82", "title": "Dispatch of a combined phase", "statement": "A property of a CombinedPhase is answered by the phase named for it, else by the phase of its group, else it is an error. Refuted: with the default arguments every property raises TypeError, the Gibbs energy never can be computed as T is not stored, and two names of one derivative may be answered by different phases.", "quantifier": "all configurations and property names", "why_tests_cant": "all configurations of optional arguments", "anchors": ["thermo/phases/combined.py: 28-122"]}
{"id": "C83", "title": "Fugacity coefficients of an activity coefficient liquid and their derivatives", "statement": "Poynting factors are the exponential of the volume term, and every method that returns a temperature or pressure derivative of the Poynting factors or of the fugacity coefficients returns the derivative of the corresponding value, for each choice of Poynting factors and fugacity coefficients at saturation.", "quantifier": "all components, states, option combinations", "why_tests_cant": "derivatives at all states; tests compare a few numerical differences", "anchors": ["thermo/phases/gibbs_excess.py: 1493-2010"]}
{"id": "C84", "title": "Caloric properties of an activity coefficient liquid agree with its fugacities", "statement": "Enthalpy, entropy and Gibbs energy departures are those implied by the fugacity coefficients, Cp and the other derivative methods are derivatives of H and S, and dG/dP is the volume. Refuted: with Hvap based enthalpies Cp and dS_dP are not derivatives and G does not match the fugacities; the volume is not dG/dP.", "quantifier": "all components, states, option combinations", "why_tests_cant": "consistency between separately coded methods over all option combinations", "anchors": ["thermo/phases/gibbs_excess.py: 2310-3145"]}
{"id": "C85", "title": "Options, changes of state and stored values of an activity coefficient liquid", "statement": "A named basis selects what is used; a phase moved to another state has that state, its activity model is at it, and after any sequence of moves and calls each call returns what a new phase would compute. Refuted: caloric_basis is ignored, misspelled names are accepted, a solid drops its activity model, polynomial vapor pressures raise AttributeError, to(T, V) leaves T unset, volumes go stale with Henry's law components, and a failed call leaves a short list behind.", "quantifier": "all option values, all sequences of moves and calls", "why_tests_cant": "all executions and option combinations", "anchors": ["thermo/phases/gibbs_excess.py: 340-707", "thermo/phases/gibbs_excess.py: 3390-3404"]}
{"id": "C86", "title": "Pure component data of an activity coefficient liquid", "statement": "Polynomial volumes are differentiable with the returned derivatives, Henry's law constants replace vapor pressures consistently in value, logarithm and derivative, and methods taking a state agree with those that use the state of the phase. Refuted: second derivative at the limits of the fit, derivative of fugacity coefficients above Tc, volumes from equations of state, the composition phis_at uses, and zero entries of the Henry's law matrix.", "quantifier": "all fits, temperatures, compositions", "why_tests_cant": "behaviour at single points and above limits", "anchors": ["thermo/phases/gibbs_excess.py: 845-1360", "thermo/phases/gibbs_excess.py: 1755-1845"]}
{"id": "C87", "title": "Pressure derivatives and the Tait correction", "statement": "The Tait enthalpy integral vanishes at the vapor pressure and its pressure derivative is V - T dV/dT of the Tait volume. Pressure derivatives satisfy dP_dT = -dP_dV dV_dT. The second is refuted for incompressible liquids, and with use_Tait these methods raise AttributeError.", "quantifier": "all coefficients, temperatures, pressures", "why_tests_cant": "an identity of a machine generated expression at all states", "anchors": ["thermo/phases/gibbs_excess.py: 3147-3352"]}
{"id": "C88", "title": "A flash uses exactly the specifications it was given", "statement": "Flash.flash converts mass and density specifications to molar ones consistently, passes its checks exactly for meaningful values, and for two given specifications calls the algorithm for those two (21 pairs), iterating on variables that are neither specified nor equal. A specification that was not given is never used. Refuted: conflicting molar and mass values and more than two specifications are not refused, and the temperature limit is that of the most restrictive phase.", "quantifier": "all combinations of specifications, all values", "why_tests_cant": "1024 combinations of specifications with real values", "anchors": ["thermo/flash/flash_base.py: 158-504"]}
{"id": "C89", "title": "Phase boundary searches, grids and distinct liquids", "statement": "A phase boundary is searched at the one specified variable by varying another, by an algorithm meant for the kind of boundary; grid entries are flashes at their pair of values; every liquid gets a phase of its own model. Refuted: alternatives after a failed algorithm are not tried, a third list of a grid is ignored, and with equal liquids before a different one the table of distinct liquids points outside of it.", "quantifier": "all specifications, algorithms, lists of values, lists of liquids", "why_tests_cant": "all lists of liquid models, including repeated ones", "anchors": ["thermo/flash/flash_base.py: 514-618", "thermo/flash/flash_base.py: 742-864", "thermo/flash/flash_vln.py: 240-262"]}
{"id": "C90", "title": "Converged sequential substitution is an equilibrium with material balance", "statement": "Two phase sequential substitution returns mole fractions that make up the feed with the returned vapor fraction and are not identical, and after more than one iteration fugacities agree within the tolerance for every component. With several phases, fractions and ratios make up the feed and fugacities agree. Refuted: after a single iteration the test is made on the guesses, and with several phases the returned phases have the compositions before the last step.", "quantifier": "all fugacity models, feeds, guesses, tolerances, iteration limits", "why_tests_cant": "all fugacity functions and all iteration histories", "anchors": ["thermo/flash/flash_utils.py: 153-498"]}
{"id": "C91", "title": "Newton flashes solve the right equations with the right derivatives", "statement": "The equations of the Newton flashes (two phases at T and P, with a specification, dew point, several phases) vanish only at compositions that make up the feed, have mole fractions summing to one and equal fugacities, and meet the specification; the matrices supplied are those of their derivatives; the transformed variables keep flows positive. Refuted: with several phases a zero may have negative flows, the row of a specification uses derivatives of the phases given at the start, the dew point matrix is wrong for absent components, and one transformation does not start at the guess.", "quantifier": "all fugacity models, feeds, iterates, numbers of components and phases", "why_tests_cant": "matrices must equal derivatives of the equations at all iterates for all fugacity models", "anchors": ["thermo/flash/flash_utils.py: 677-1366", "thermo/flash/flash_utils.py: 1368-1444", "thermo/flash/flash_utils.py: 1644-1687", "thermo/flash/flash_utils.py: 1775-1958"]}
{"id": "C92", "title": "Stability tests find instability exactly where a trial phase lowers the Gibbs energy", "statement": "A converged stability trial has fugacities in one common ratio to those of the feed, its tangent plane distance is minus the logarithm of its sum, a negative distance means that splitting off the trial phase lowers the Gibbs energy, and the feed is called stable exactly if no trial taken into account says otherwise; repeated results are removed. Refuted: a trial with negative distance may be taken as stable, positive ones within a tolerance as unstable, and the options for lowest Gibbs energy and uncertain results return the wrong trial or fail.", "quantifier": "all fugacity models, feeds, guesses, tolerances, lists of trials, options", "why_tests_cant": "all fugacity functions and all sequences of trial results", "anchors": ["thermo/flash/flash_utils.py: 3914-4086", "thermo/flash/flash_utils.py: 4525-4539", "thermo/flash/flash_vl.py: 526-652"]}
{"id": "C93", "title": "Saturation, dew and bubble points are equilibria", "statement": "At a zero of the functions solved for saturation of one component gas and liquid have equal Gibbs energy, and derivatives passed to solvers are right. Dew and bubble points after Michelsen and Mollerup return mole fractions that sum to one, use the derivative of their error, and try only positive values. For K values independent of composition there is exactly one pressure for every vapor fraction, between the dew and bubble pressures calculated, where the phases make up the feed. Refuted: with several liquids only the first is used, below the triple point melting is not considered, convergence of the composition is not tested so fugacities may differ by ten percent, and after a failure the same value is tried again.", "quantifier": "all phases, feeds, guesses, step limits, numbers of iterations", "why_tests_cant": "all fugacity functions, including ones that fail, and all iteration histories", "anchors": ["thermo/flash/flash_utils.py: 1967-2584", "thermo/flash/flash_utils.py: 3220-3576"]}
{"id": "C94", "title": "Flashes of one component return the stable phase", "statement": "At two of temperature, pressure and volume the phase returned has the least Gibbs energy of those considered. At pressure and enthalpy, pressure and entropy, volume and internal energy, volume and entropy the quantity compared is least for the thermodynamically stable state, and the choice returns a solution with the least value; two phases are returned only if they meet the specification with a fraction between zero and one and have a lower value. At specified vapor fraction the slope of the saturation pressure and the derivative of the property are right, intervals contain a solution, and guesses are inside them. Refuted: at the least temperature of a gas the gas is ignored, at specified volume Gibbs instead of Helmholtz energy is compared and two phases are never returned, the shortcut for activity coefficient liquids ignores the saturation fugacity coefficient, pressure with internal energy and temperature with entropy can prefer an unstable phase, equilibria with a solid are never returned, and the vapor fraction with a function as target is wrong.", "quantifier": "all phases, numbers of liquids and solids, specifications, concave energies, grids", "why_tests_cant": "all energy functions of phases and all orders and numbers of phases, not those of single substances", "anchors": ["thermo/flash/flash_pure_vls.py: 340-468", "thermo/flash/flash_pure_vls.py: 598-962", "thermo/flash/flash_pure_vls.py: 1013-1046", "thermo/flash/flash_pure_vls.py: 1106-1256"]}
{"id": "C95", "title": "Flashes of mixtures return balanced phases of least Gibbs energy", "statement": "A result of a flash with two phases makes up the feed with fractions between zero and one that sum to one, whichever phase is the gas; a feed found stable is returned as the phase of lower Gibbs energy. At given vapor fraction the liquid with least Gibbs energy is chosen. With K values independent of composition a fraction beyond zero or one means that the other phase cannot form. With at most three components or phases the result has at most the Gibbs energy of the first solution, and with two phases the least of all found. Refuted: a better solution of the double check is discarded if no second phase was found before, a stable two phase solution is not compared with one phase, the repeated substitution and further liquids can give negative fractions, failures to converge are not caught, and bounds of temperature are used for pressure and volume.", "quantifier": "all compositions, fractions, energies, results of stability tests and substitution, numbers of phases", "why_tests_cant": "all combinations of outcomes of stability tests and iterations, including rare failures", "anchors": ["thermo/flash/flash_vl.py: 655-680", "thermo/flash/flash_vl.py: 735-822", "thermo/flash/flash_vl.py: 903-1020", "thermo/flash/flash_vln.py: 203-237", "thermo/flash/flash_vln.py: 281-619"]}
{"id": "C96", "title": "Phase boundaries on mixing, brackets and wet bulb states are right", "statement": "As much as possible of an added mixture is removed from the existing one, without negative amounts. Brackets of an amount or a variable have one value without and one with the phase, on the side where the phase vanishes, and if no bracket is found the values tried are all of one kind. Checks are met by exactly the phases they name. At a solution of the wet bulb equation enthalpy and material are conserved, and the gas tested has the guessed fraction of water. The criterion of the cricondentherm vanishes on the dew curve where temperature has zero slope, that of the cricondenbar on the bubble curve where pressure has zero slope. Refuted: a mixture removed from itself is an exception, a result without the phase is returned as solution, the fraction followed is chosen from the wrong mixture, a mass fraction required of a phase is ignored, values with the phase nearer to the boundary are never used, the last attempt tests the side with the wrong value, the direct wet bulb solution is wrong for moist gas, and the criterion of the cricondenbar is wrong on the dew curve.", "quantifier": "all compositions, amounts, checks, guesses, enthalpies, fugacity coefficients", "why_tests_cant": "all outcomes of flashes along the search and all fugacity coefficient models, not single envelopes", "anchors": ["thermo/flash/flash_utils.py: 4547-4751", "thermo/flash/flash_utils.py: 4827-4917", "thermo/flash/flash_utils.py: 4978-5143", "thermo/flash/flash_utils.py: 5264-5459"]}
{"id": "C97", "title": "The UNIFAC model is consistent with itself", "statement": "In all versions the first three temperature derivatives of interaction terms, of group activity coefficients, of residual parts and of the excess Gibbs energy are derivatives of each other. Group area fractions are not negative and sum to one. Sums restricted to the groups of a component give the same as sums over all groups. The activity coefficient of a pure component is one. The function UNIFAC_gammas and the class give the same activity coefficients. Missing interactions have no effect. Refuted: with a table of the other form the function silently ignores all interactions, pairs with parameters are reported as missing, and models with different groups have the same hash.", "quantifier": "all group counts, areas, parameters, temperatures and compositions, all six versions", "why_tests_cant": "derivatives to third order over all parameters and versions; tests compare single mixtures", "anchors": ["thermo/unifac.py: 3661-4045", "thermo/unifac.py: 4048-4150", "thermo/unifac.py: 4214-4393", "thermo/unifac.py: 4492-4748", "thermo/unifac.py: 4781-4938", "thermo/unifac.py: 5441-5570", "thermo/unifac.py: 5744-5764"]}
{"id": "C98", "title": "Composition derivatives of the UNIFAC model are exact and satisfy Gibbs-Duhem", "statement": "In all versions the composition derivatives of volume, area and group fractions, of group activity coefficients, of the combinatorial part up to the third order, of the residual part and of the excess Gibbs energy are derivatives of each other, mixed derivatives agree in both orders, and the changes of the logarithms of activity coefficients weighted with the mole fractions cancel. The activity coefficients are those that follow from the excess Gibbs energy through the general method of the base class. Derivatives of activity coefficients with respect to mole fractions and to amounts are exact.", "quantifier": "all group counts, areas, sizes, parameters, temperatures, compositions and pairs or triples of components, all versions", "why_tests_cant": "higher derivatives for every component tuple and version; tests compare numerical derivatives of single mixtures", "anchors": ["thermo/unifac.py: 4163-4333", "thermo/unifac.py: 4355-4490", "thermo/unifac.py: 4750-4870", "thermo/unifac.py: 4940-5157", "thermo/unifac.py: 7905-8156", "thermo/unifac.py: 8303-8369", "thermo/unifac.py: 8489-8808"]}
{"id": "C99", "title": "Group estimates are sums over all groups and correctly typed", "statement": "Joback estimates are linear in the counts, missing exactly when a counted group lacks the value, and independent of the order of the groups; every group of the table has the values needed. The estimated critical temperature, pressure, heat capacity and viscosity follow the documented formulas. The Diky, Fedors, Wilson-Jasperson and Bondi sums and their flags follow the documented formulas; the Bondi volume and area of n-alkanes are linear in the chain length. Refuted: long n-alkanes get negative or too low critical temperatures, an atom count without molecular weight raises an error, a valid estimate is flagged as missing groups, and a Bondi group without area is left out silently.", "quantifier": "all assignments of groups with any counts, all temperatures", "why_tests_cant": "Tests evaluate some molecules; the claims are about all assignments of counts and long chains.", "anchors": ["thermo/group_contribution/joback.py: 394-1300", "thermo/group_contribution/fedors.py: 47-170", "thermo/group_contribution/wilson_jasperson.py: 157-330", "thermo/group_contribution/bondi.py: 757-900"]}
{"id": "C100", "title": "PPR78 interaction parameters are symmetric and reproduce the excess function", "statement": "After completion the interaction tables have an entry for every pair: the given one, that of the reversed pair, or zero, and given entries are unchanged; both shipped tables become symmetric with zero for equal groups. The interaction parameter satisfies the defining relation with the energy of the groups, exists exactly under stated conditions, does not depend on the order of the components or on multiples of the counts, and is zero for equal fluids. The matrix is symmetric with zero diagonal. With the matrix the van der Waals mixing rule equals the van Laar form of the excess function for any number of components. The constants satisfy the critical conditions. Refuted: the documented formula has a product where a power is needed, and pairs without fitted parameters are not reported.", "quantifier": "all tables, components, temperatures, compositions", "why_tests_cant": "Tests compare some pairs with published values; symmetry, the completion of any table and the identity of the mixing rule are claims about all of them.", "anchors": ["thermo/group_contribution/ppr78.py: 736-768", "thermo/group_contribution/ppr78.py: 770-901", "thermo/group_contribution/ppr78.py: 903-970"]}
{"id": "C101", "title": "Balance checks, tangent plane distances and phase rules mean what they say", "statement": "allclose_variable is true exactly if for each limit at most that fraction of elements differs. identify_phase follows its documented rules, and a liquid stays one under higher pressure. phase_select_property returns the property of the phase. The matrix of second mole number derivatives is that of the total property. The tangent plane distance is zero for the phase itself and at equilibrium, its weighted sum is the change of Gibbs energy on splitting, and it is positive for other compositions of ideal mixtures; the function of Stateva and Tsvetkov vanishes exactly at stationary points. The component check passes exactly when flows of the same components agree, is symmetric, is not changed by splitting a stream and bounds the error of the total; kinetic energy is that of the mass flow. Refuted: surplus limits, zero vapor pressures, elevations and missing areas are silently ignored; comparison depends on the order; the phase from the boiling point can contradict the vapor pressure; zero flows and all reactions with new species are rejected, tolerances do not reach the mass balance.", "quantifier": "all arrays, tolerances, data, compositions, numbers of components, phases and streams", "why_tests_cant": "Tests evaluate single cases; stability and balances are statements about all compositions and all sets of streams.", "anchors": ["thermo/utils/functional.py: 42-88", "thermo/utils/functional.py: 90-146", "thermo/utils/functional.py: 148-227", "thermo/utils/functional.py: 229-244", "thermo/utils/functional.py: 262-337", "thermo/utils/functional.py: 339-407", "thermo/utils/functional.py: 409-522", "thermo/utils/functional.py: 524-576"]}
{"id": "C102", "title": "Trial compositions of stability tests and their names", "statement": "Every composition tried by a stability test is a composition: not negative and adding to one. With ordinary K values there are four trials from them (one more if an aqueous phase is expected), one nearly pure in every component, and the random ones asked for; the first four are given names from which they can be remade. The list and the generator of guesses agree. Variables of the unconstrained search stand for the guess, any of their values gives a composition; fractions of the constrained search add to one. Refuted: nearly pure trials carry the name of the next component, the last one a name that raises IndexError; K values of zero and aqueous trials shift names; from 32 components on random trials are squared in number and repeat; a number of random guesses is taken as number of components; the generator raises IndexError when a kind is switched off; the constrained search can give negative fractions.", "quantifier": "all numbers of components, compositions, K values, options, random numbers", "why_tests_cant": "Tests evaluate few mixtures and options; the claims are about all component counts and about the correspondence between two independently written enumerations.", "anchors": ["thermo/property_package.py: 279-328", "thermo/property_package.py: 331-354", "thermo/property_package.py: 356-398", "thermo/property_package.py: 400-486", "thermo/property_package.py: 488-542", "thermo/flash/flash_vl.py: 608", "thermo/flash/flash_vl.py: 649"]}
{"id": "C103", "title": "Flashes of the ideal property package", "statement": "A Rachford-Rice flash gives compositions that add to one, are in the ratios given and hold together the feed; it is unique, and its bounds hold for all flashes, also negative ones. Dew pressure is not above bubble pressure. Two phases are reported at a temperature and pressure exactly if there are two phases in equilibrium by the law of Raoult, and those reported are the only ones; a gas is reported exactly if no liquid can form. Flashes at a vapor fraction have that vapor fraction and are given back by a flash at the temperature and pressure found; vapor fraction falls with pressure. The wrapper keeps phase, compositions and vapor fraction consistent. Refuted: bisection can never succeed for two components, as the lower bound is the solution; brackets for nearly pure mixtures do not contain the solution; with temperature, pressure and vapor fraction given the vapor fraction reported contradicts the phase.", "quantifier": "all feeds, vapor pressures, pressures, vapor fractions, numbers of components", "why_tests_cant": "Tests flash single points; existence, uniqueness and equivalence with equilibrium hold for all feeds and pressures.", "anchors": ["thermo/property_package.py: 58-91", "thermo/property_package.py: 552", "thermo/property_package.py: 592-626", "thermo/property_package.py: 994-1009", "thermo/property_package.py: 1015-1032", "thermo/property_package.py: 1037-1049"]}
{"id": "C104", "title": "Enthalpy, entropy and Gibbs energy of the ideal property package", "statement": "At dew points enthalpy and entropy are those of the gas, at bubble points the entropy is that of the liquid. On the saturation line of a pure substance gas and liquid differ by the enthalpy of vaporization and have the same Gibbs energy. Gibbs energies of gas and liquid are sums of chemical potentials, partial properties are chemical potentials and pure enthalpies; derivatives of gas enthalpy and entropy are those of the heat capacity. Both routes of enthalpy differ only by a constant if the data are consistent. At 298.15 K reactive Gibbs energy adds Gibbs energies of formation. Refuted: the enthalpy of two phases is not that of its phases by a pressure term and jumps at the bubble point; the entropy of two phases always exceeds that of its phases (composition entropy of mixing them), so Gibbs energy is below the sum of chemical potentials; by default equilibria do not have equal chemical potentials; copies lose formation properties.", "quantifier": "all data, temperatures, pressures, compositions, numbers of components", "why_tests_cant": "Tests compare single numbers with stored values; additivity and consistency are relations between all states.", "anchors": ["thermo/property_package.py: 573-575", "thermo/property_package.py: 887-904", "thermo/property_package.py: 1079-1087", "thermo/property_package.py: 1128-1146", "thermo/property_package.py: 1148-1185", "thermo/property_package.py: 1230-1261", "thermo/property_package.py: 1263-1295", "thermo/property_package.py: 1365-1401"]}
{"id": "C105", "title": "Specifications of an equation of state object and states derived from it", "statement": "An object made from two of temperature, pressure and volume satisfies the pressure equation with the values given, a volume that gives no positive pressure and fewer than two specifications are refused. The specifications an object reports recreate it. `to` with two arguments gives a state with these values, and for objects made from temperature and pressure the same as the constructor. The more stable phase has the lower Gibbs energy. The attraction recovered from a volume reproduces the pressure; the error solved for the attraction at a vapor pressure vanishes exactly for equal fugacities. Derivatives of departures along the saturation line are those of the saturated phases. Refuted: with all three specifications the constructor replaces the temperature and `to` drops the volume; `to_TP` at the own temperature and pressure of an object made from a volume returns the unstable volume.", "quantifier": "all parameters, attraction functions and specifications", "why_tests_cant": "Tests compare a few round trips of stable states; the claims are about every specification and every attraction function, and the refuted ones arise only where three volumes exist.", "anchors": ["thermo/eos.py:971", "thermo/eos.py:1112", "thermo/eos.py:3418", "thermo/eos.py:3538", "thermo/eos.py:3644", "thermo/eos.py:3831"]}
{"id": "C106", "title": "Stored attraction terms of a mixture and states derived from it", "statement": "A mixture object made at a state has the attraction term, temperature derivatives and row sums of its temperature and composition; an object derived by `to_TP_zs_fast` has those of the new state, whatever terms are copied from an object whose stored terms are its own. The fugacities of the phase with the lowest Gibbs energy are returned. A subset of components keeps proportions and adds to one. Refuted: after any evaluation at another temperature (vapor pressure, saturation, critical point) derived states at the own temperature get the attraction of the other temperature; logarithms of fugacity coefficients not yet computed are returned as fugacities; with one phase computed the phase of higher Gibbs energy is returned; the composition of `_dphi_dn` does not add to one; a slice of an array mixture changes the mixture; `Psat` ignores `polish`; `to_TP_zs` returns an object solved for the other phase.", "quantifier": "all numbers of components, attraction functions, interaction parameters, compositions, temperatures", "why_tests_cant": "Tests derive states from fresh objects; the stored terms depend on the history of calls on an object, and agreement must hold for every history and composition.", "anchors": ["thermo/eos_mix.py:376", "thermo/eos_mix.py:596", "thermo/eos_mix.py:972", "thermo/eos_mix.py:1474", "thermo/eos_mix.py:1501", "thermo/eos_mix.py:1532"]}
{"id": "C107", "title": "Critical point, stability and substitution of mixture objects", "statement": "The two errors of the mechanical critical point vanish exactly where the three volumes are equal, and the matrix used is their derivative. A stability trial that ends with another phase label has found a stationary point of the tangent plane distance; a mixture declared stable has no second phase in either trial, and one declared unstable is unstable if both labels differ and the limit of the totals is far enough from one. Zeros of the bubble point function are bubble points. What sequential substitution returns makes up the feed and differs. Refuted: mixtures are declared unstable without a second phase and stable although unstable if the labels agree; trials that have not converged are not reported; the dew point iteration is less exact with a smaller tolerance; the exception is lost if all guesses fail; the objects returned have the compositions of the step before.", "quantifier": "all numbers of components, fugacity functions, labels, compositions, tolerances, numbers of iterations", "why_tests_cant": "Tests flash a few mixtures; the decision depends on labels, totals and tolerances of arbitrary equations of state.", "anchors": ["thermo/eos_mix.py:1243", "thermo/eos_mix.py:1404", "thermo/eos_mix.py:1957", "thermo/eos_mix.py:2170", "thermo/eos_mix.py:2243", "thermo/eos_mix.py:2331", "thermo/eos_mix.py:2359"]}
{"id": "C108", "title": "Formation properties at a temperature and absolute entropies", "statement": "The enthalpy of formation changes with temperature by the change of the heat capacity on formation from the elements in the phases they have there (Kirchhoff), the entropy by that over the temperature; the Gibbs energy is that of both, has minus the entropy as derivative, obeys van 't Hoff's law and is continuous where an element changes phase. At the reference temperature the given values are returned. The reaction used does not depend on earlier calls. Absolute entropies of liquid and gas are path integrals, and conversion between them is invertible and agrees with them. Refuted: for compounds of bromine and mercury the given values are not returned at 298.15 K (5285 J/mol for HBr); the cache is keyed by a hash only; without the cache the function always fails; the entropy of a solid is that at its melting point; transitions of solids are counted twice or above the temperature; a missing enthalpy of formation of the gas is stored under another name and never found.", "quantifier": "all continuous heat capacities, transitions, reactions, temperatures, histories of calls, hash functions", "why_tests_cant": "Tests compare with tables at listed temperatures within up to 30 percent, which hides an offset by the enthalpy of fusion; derivative relations, continuity and the cache need all temperatures and histories.", "anchors": ["thermo/chemical_utils.py:33", "thermo/chemical_utils.py:97", "thermo/chemical_utils.py:150", "thermo/chemical_utils.py:208", "thermo/chemical_utils.py:270", "thermo/chemical.py:1253", "thermo/phases/phase.py:4051"]}
{"id": "C109", "title": "Enthalpy and entropy of a Chemical by phase and reference", "statement": "After set_ref the enthalpy differs from the reference value by the difference of one function of phase and temperature (heat capacities, fusion, vaporization) for all nine pairs of phase and reference phase; its temperature derivative is the heat capacity of the phase; phases differ by the enthalpies of transition. With departures and a liquid reference at 101325 Pa liquid and gas have equal Gibbs energies at the boiling point. Attributes are those of the state asked for. Refuted: the entropy of a liquid from a gas reference has the enthalpy of vaporization at the wrong temperature; gas entropies from a solid reference do not depend on pressure; liquid references at other pressures and gas references for liquids leave out departures; without a melting point gas enthalpies are not available; enthalpy, entropy and Gibbs energy of the state before remain if the new state fails; a refused call or a changed reference leaves properties of another state that further calls do not correct.", "quantifier": "all heat capacities, transitions, departures, references, states, histories of calls", "why_tests_cant": "Tests check values of a few chemicals at one reference; consistency between references, derivatives and histories is not a matter of examples.", "anchors": ["thermo/chemical.py:795", "thermo/chemical.py:1316", "thermo/chemical.py:1396", "thermo/chemical.py:1429", "thermo/chemical.py:1449", "thermo/chemical.py:1469", "thermo/chemical.py:1529", "thermo/chemical.py:1550"]}
{"id": "C110", "title": "Composition, flash results and two-phase properties of a Mixture", "statement": "Arguments accepted give identifiers and one composition of the same length. Mole, mass and volume fractions of any positive sum give consistent mole and mass fractions of sum one; rebuilding from either gives the same mixture. After a successful flash the attributes are the package's, mass properties are molar ones per mass, the quality is the mass fraction of vapor and the phases' molecular weights and mass fractions average to the mixture's. The density of two phases is mass over volume, combustion enthalpies per mass and per mole agree, element fractions sum to one. Refuted: contradicting arguments are rejected; a failed flash leaves a consistent state; the equation of state belongs to the mixture; molar density of two phases; bulk properties of two phases; SGg, Zl_STP, Zg_STP, isobaric expansion, nugs and repeated properties().", "quantifier": "all identifiers, compositions, molecular weights, package answers, earlier states, sequences of assignments, volumes and vapor fractions", "why_tests_cant": "Tests check single mixtures, mostly of one phase, one object at a time; consistency of all fractions and flashes, shared class state and failed flashes range over all inputs and call sequences.", "anchors": ["thermo/mixture.py:67-175", "thermo/mixture.py:550", "thermo/mixture.py:576-649", "thermo/mixture.py:854-868", "thermo/mixture.py:949-1075", "thermo/mixture.py:1118-1142", "thermo/mixture.py:1328-1375", "thermo/mixture.py:2095-2108", "thermo/mixture.py:2756-2772", "thermo/mixture.py:2896-2945", "thermo/mixture.py:3002-3037", "thermo/mixture.py:3195-3269", "thermo/mixture.py:3379-3411"]}
{"id": "C111", "title": "Properties of aqueous electrolytes", "statement": "The viscosity of water falls with temperature, its density has its maximum between 3.98 and 3.99 C. Solutions: the logarithm of viscosity, the specific volume and the heat capacity are averages of those of water and solutes with mass fractions, density lies between theirs, and without solutes all are those of water; the fraction of water used is the one given. Thermal conductivity, electric conductivity, ionic strength and ion product of water are the documented equations. The mixture objects offer the electrolyte methods exactly where the coefficients exist, and accept no others then. Refuted: the volume object looks at viscosity coefficients; thermal_conductivity_Magomedov does not load its table; the upper temperature limit of mixture objects is the largest.", "quantifier": "all temperatures, compositions, coefficients, densities, tables and call sequences", "why_tests_cant": "Tests check single values of salts in the table after the tables have been loaded; monotonicity, bounds and availability range over all temperatures, compositions, coefficients and call orders.", "anchors": ["thermo/electrochem.py:149-192", "thermo/electrochem.py:197-966", "thermo/electrochem.py:1056-1441", "thermo/volume.py:1134-1185", "thermo/viscosity.py:1160-1268", "thermo/heat_capacity.py:1473-1552", "thermo/thermal_conductivity.py:698-741"]}
{"id": "C112", "title": "Methods a property object offers and what they need", "statement": "A method listed as available by a property object of a pure compound can be calculated exactly if a listed set of arguments, which the object does not test for, is present; the list is complete and minimal, and empty for vapor pressure, sublimation pressure, gas volume, solid volume, liquid and gas viscosity, gas conductivity, gas and solid heat capacity and permittivity. The default is the first ranked available method and exists whenever one is available. More arguments never remove a method. Without loading data the tables have no influence. Limits exist for every method that rests on arguments, are not empty for plausible arguments, end at the critical temperature for saturation properties, and the correlations stay positive up to limits set at their zeros. Refuted: the default can be calculated whenever some method can; zero values count as given; load_data=False for liquid viscosity; exported lists of heat capacities are complete; the range of ALIBAKHSHI; ALEEM stays positive.", "quantifier": "all classes, argument sets, table contents, methods and temperatures", "why_tests_cant": "Tests build objects for known chemicals with every argument; which subset of some twenty arguments leaves a listed method without data ranges over millions of combinations.", "anchors": ["thermo/vapor_pressure.py:406-518", "thermo/vapor_pressure.py:674-722", "thermo/phase_change.py:315-451", "thermo/phase_change.py:651-731", "thermo/volume.py:485-702", "thermo/volume.py:892-956", "thermo/volume.py:1397-1474", "thermo/volume.py:1787-1825", "thermo/viscosity.py:475-677", "thermo/viscosity.py:900-1004", "thermo/thermal_conductivity.py:388-556", "thermo/thermal_conductivity.py:1020-1193", "thermo/interface.py:330-458", "thermo/heat_capacity.py:339-492", "thermo/heat_capacity.py:837-1034", "thermo/heat_capacity.py:1268-1341", "thermo/permittivity.py:171-183"]}
{"id": "C113", "title": "Enthalpies of vaporisation and sublimation and two-point vapor pressures", "statement": "Methods with a value at one temperature reproduce it there; scaled to other temperatures the enthalpy of vaporisation is positive below the critical temperature, zero at it, falls with temperature and does not depend on intermediate steps. The enthalpy of sublimation is the base value at the base temperature and its derivative is the difference of the heat capacities of gas and solid; the two methods differ by a constant. Sublimation pressure passes through the triple point and the two-parameter vapor pressure through boiling and critical point, both rising. The limits found for the PPDS9 viscosity equation have slopes of the same sign and are melting and critical point when viscosity falls at both. Refuted: validity of the 298 K methods above the critical temperature (complex numbers); the window of five kelvin against the recorded limits; Clapeyron at its upper limit and without Zg; heat capacities of mixed kinds; re-raised exceptions; PPDS9 limits exist, are ordered, and viscosity falls in them.", "quantifier": "all temperatures, constants, heat capacity functions, slopes and solvers", "why_tests_cant": "Tests evaluate a few compounds at a few temperatures; monotonicity, path independence and Kirchhoff's law are about all temperatures and all functions, and the failing combinations never occur in the tests.", "anchors": ["thermo/phase_change.py:315-368", "thermo/phase_change.py:403-508", "thermo/phase_change.py:651-759", "thermo/vapor_pressure.py:495-518", "thermo/vapor_pressure.py:716-722", "thermo/viscosity.py:144-212"]}
{"id": "C114", "title": "Molar volume objects: low-temperature extension, compressed liquids, Tait data, virial gases and mixtures", "statement": "The quadratic that extends a volume fit below its lowest temperature continues it there, never falls between absolute zero and that temperature, and is taken from the first of 25 trial points at which the fit does not fall; it is smooth when that is the lowest temperature. The density of inorganic liquids is the tabulated one at the melting point and linear from there. The compressed liquid volume is the saturated one up to the vapor pressure, continuous there and falling above. Tait lists hold a polynomial, its two derivatives and its values and slopes at both ends. Virial volumes have the compressibility factor 1 + BP/RT. Mixture volumes are averages between those of the components and exist when all components have one, always if missing ones are taken as ideal; earlier calls do not change an answer. Refuted: the extension is smooth and positive, exists for linear fits; compressed and virial volumes are positive; the saturation test of the equation of state for gases; validity where a supercritical value is found; tables over pressure; shared equation of state; exported names.", "quantifier": "all fits, temperatures, pressures, coefficient lists, compositions and call histories", "why_tests_cant": "Tests evaluate single compounds at single points; a fit that falls at its lower end, a volume far outside the range and a polynomial of any degree are statements about all of them.", "anchors": ["thermo/volume.py:440-465", "thermo/volume.py:491-506", "thermo/volume.py:690-694", "thermo/volume.py:745-778", "thermo/volume.py:892-991", "thermo/volume.py:1197-1232", "thermo/volume.py:1397-1528", "thermo/volume.py:1625-1676"]}
{"id": "C115", "title": "Second and third composition derivatives of volume and pressure", "statement": "For a cubic equation with arbitrary composition dependent parameters: the second derivatives of the molar volume at constant temperature and pressure are those of every continuous family of regular states; the first and second mole number derivatives of the pressure at constant total volume are right, in particular with the parameter derivatives the code computes for Peng-Robinson mixtures; the composition derivatives of the five pressure derivatives and of the ten derivatives of volume and temperature are the derivatives of the stored ones; the mixing term has the derivatives returned; mole number derivatives of volume and compressibility factor follow from those with independent mole fractions. Refuted: the third derivatives of the pressure, where line 3939 takes the derivative of epsilon by the second mole number instead of the third; right when those agree.", "quantifier": "all mixtures, parameters, compositions, volumes and derivative indices", "why_tests_cant": "The formulas are long outputs of a computer algebra system, compared with finite differences for one mixture at one state; a swapped index agrees with symmetric or constant parameters.", "anchors": ["thermo/eos_mix.py:3312-3435", "thermo/eos_mix.py:3531-3605", "thermo/eos_mix.py:3765-3970", "thermo/eos_mix.py:4976-5019", "thermo/eos_mix.py:5065-5130", "thermo/eos_mix.py:5163-5306"]}
{"id": "C116", "title": "Second derivatives of departures, fugacities and their pressure and temperature derivatives", "statement": "For a cubic equation with two distinct poles and arbitrary composition dependent parameters: the second composition derivatives of Gibbs energy departure, logarithmic fugacity coefficient and Helmholtz energy departure at constant temperature and pressure are those of every continuous family of regular states, the volume following the composition; first derivatives of enthalpy, entropy, energy and Helmholtz energy departures likewise; the first and second mole number derivatives of the Helmholtz energy departure at constant total volume are right, the pressure following the composition; the mole number derivatives of logarithmic fugacity coefficients, fugacities and logarithmic fugacities are those of the partial quantities; the pressure and temperature derivatives of the component fugacity coefficients are derivatives of the fugacity coefficients of C55. Refuted: the Helmholtz energy functions raise for every van der Waals mixture.", "quantifier": "all mixtures, parameters, compositions, volumes, temperatures, pressures and derivative indices", "why_tests_cant": "The formulas are long outputs of a computer algebra system with powers up to 25/2, compared with finite differences for one mixture at one state.", "anchors": ["thermo/eos_mix.py:3607-3763", "thermo/eos_mix.py:3977-4030", "thermo/eos_mix.py:4197-4931", "thermo/eos_mix.py:5383-5393", "thermo/eos_mix.py:5432-5666"]}
{"id": "C117", "title": "Closed-form derivatives of fugacity coefficients", "statement": "For Peng-Robinson, Soave-Redlich-Kwong and van der Waals mixtures the closed-form temperature and pressure derivatives of the component fugacity coefficients are the derivatives of what fugacity_coefficients returns, along every curve of compressibility factors, attractions and attraction rows; the closed-form composition derivatives of the Peng-Robinson mixture are the derivatives along every path of compositions on which the compressibility factor solves the equation of state, and satisfy the Gibbs-Duhem relation; the general composition derivative is the derivative of the partial quantity. Refuted: the translated Peng-Robinson classes inherit the untranslated composition derivatives (the override has the wrong name), so for two components differing only in their translation the code reports fugacity coefficients which depend on composition although they do not.", "quantifier": "all mixtures, numbers of components, temperatures, pressures, compositions and paths", "why_tests_cant": "The closed forms are compared with finite differences for one mixture at one state; the translated classes are tested for the general method under another name.", "anchors": ["thermo/eos_mix.py:5668-5694", "thermo/eos_mix.py:7115-7259", "thermo/eos_mix.py:7401-7558", "thermo/eos_mix.py:7892-7896", "thermo/eos_mix.py:8809-8939", "thermo/eos_mix.py:10230-10345"]}
{"id": "C118", "title": "Virial coefficients of mixtures", "statement": "Interaction virial coefficients are symmetric and equal the pure component coefficients on the diagonal, so a mixture of which one component is present has that component's coefficients under both mixing rules. First, second and third composition derivatives, temperature derivatives and mole number derivatives of the mixture coefficients are derivatives of the values reported. After any sequence of state changes and queries, starting from a coefficients object with anything cached, the coefficients reported are those of the gas's own temperature and composition, and states set from temperature and volume or pressure satisfy the virial equation. The documented setting without cross parameters must have an effect (it has none).", "quantifier": "all correlations, constants, interaction parameters, temperatures, compositions, numbers of components, histories of operations", "why_tests_cant": "Tests compare one or two mixtures with stored numbers after a fixed sequence of calls; they cannot cover every order of cached and fresh evaluations, every model name or all compositions, and they never select the Zeros cross model.", "anchors": ["thermo/phases/virial_phase.py:359-895", "thermo/phases/virial_phase.py:978-1014", "thermo/phases/virial_phase.py:1847-2204", "thermo/phases/virial_phase.py:2206-2732"]}
{"id": "C119", "title": "Constants packages keep each component's data", "statement": "A constants package holds one value of every property for each component. Adding packages puts the components of the first before those of the second in every property and is associative; taking a subset, in any order and with repetitions, moves every property of a component together, subsets compose, and the parts of a sum are recovered by subsets. Replacing properties changes only those named. Looking up an identifier gives a component that has it. A package survives its JSON text. Constants derived from identifiers obey their definitions (mass values, densities, critical compressibility, standard enthalpies, entropies of formation) and all data looked up reach the package. Violated: atom fractions are dropped by subsets and replacement, lengths are not checked, ceiling limits lose their type in JSON, exposure limits never reach the package, lookup raises other errors than documented.", "quantifier": "all packages, property values, index lists, slices, keyword arguments, identifiers, component data", "why_tests_cant": "Tests build a few packages and compare a few attributes; they cannot show for every property, every index list and every pair of packages that no attribute is lost, and the losses found are in attributes the tests do not look at.", "anchors": ["thermo/chemical_package.py:508-913", "thermo/chemical_package.py:1027-1285", "thermo/chemical_package.py:122-453"]}
{"id": "C120", "title": "Correlation packages build consistent objects", "statement": "A correlations package holds for each pure property one object per component; objects handed over are kept, objects it builds refer to its own objects for the same component and the property their argument names, and use the user's data for the component however the package is made. With skip_missing nothing is built. Addition concatenates the lists and adds the constants; a subset keeps the components' own objects. Violated: the gas thermal conductivity is given the liquid viscosity, user data are ignored for ten properties, packages made with skip_missing cannot be added, subset(None) raises.", "quantifier": "all constants packages, all sets of lists handed over, numbers of components, index lists", "why_tests_cant": "Tests check a few values of packages made in one way; which object is stored as an argument of another object for every property is visible only in the construction code, and the wrong one still returns numbers.", "anchors": ["thermo/chemical_package.py:1715-1899", "thermo/chemical_package.py:1647-1712", "thermo/chemical_package.py:161-490"]}
{"id": "C121", "title": "Flashes of a given phase return a phase that fits the specification", "statement": "TPV_solve_HSGUA_1P solves for T, P or V at one fixed variable and one specified H, S, G, U or A. Whatever the solver does, the error returned is the property of the phase returned minus the specified value, and the phase has the fixed variable. Newton's method gets the derivative that matches specification, iteration variable and fixed variable. An interval chosen beside the phase transition brackets a solution and contains the guess. Violated: the phase need not be at the value returned; a failed first attempt without bounds ends in UnboundLocalError; without a lower bound solutions below the transition are called not bounded; enthalpy-model guesses are never reached; guesses with fixed T and unknown V, or fixed V and unknown T, always fail; a specification of zero asks for tolerance zero.", "quantifier": "all phases, specifications, bounds, guesses and solver histories", "why_tests_cant": "Tests run the solver on sample phases where it converges; the claim concerns every history of evaluations and failures of the solver and every location of the phase transition relative to the bounds.", "anchors": ["thermo/flash/flash_utils.py:2588-2890", "thermo/flash/flash_utils.py:2892-2965", "thermo/flash/flash_utils.py:2967-3169"]}
{"id": "C122", "title": "Objects are equal exactly if they were built from the same data", "statement": "Comparing two objects of the library (equations of state, excess Gibbs energy models, virial models, phases, flashers, packages, property objects) is an equivalence relation. Equations of state, activity models and phases have equal model hashes exactly if they have the same class and the same value of every attribute their class lists, these lists cover every model parameter of the constructors, is_same_model gives the same answer whether it decides by identity or by hash, evaluating a pure component property does not change its hash, and taking hashes does not change the object.", "quantifier": "all objects, all attribute values, all lists of attributes, all histories of assignments and hashes, all constructors of the classes named", "why_tests_cant": "Tests compare a handful of objects with copies; they cannot show that no two different models collide, which parameters a hash omits, that identity and hash decisions agree for all heaps, or that a memo goes stale.", "anchors": ["thermo/eos.py:906-967", "thermo/activity.py:333-378", "thermo/phases/phase.py:244-360", "thermo/phases/virial_phase.py:297-357", "thermo/flash/flash_base.py:112-134", "thermo/chemical_package.py:649-661", "thermo/utils/t_dependent_property.py:1558-1577", "thermo/utils/mixture_property.py:88-94"]}
{"id": "C123", "title": "Polynomial and Chebyshev fits have true derivatives and mean the same as a fit and as a correlation", "statement": "For each of the twelve polynomial and Chebyshev fits the derivative returned at every order with a formula is the derivative of the order before it, the stored integral coefficients integrate the fit, the fit maps its temperature limits to -1 and 1, and the transforms of the exponential polynomial are the logarithm and its derivatives. The same coefficients given as a correlation give the same function, the same derivatives, the same integrals and the same extrapolations.", "quantifier": "all twelve forms, all coefficient lists of any length, all limits and critical temperatures, all temperatures below the critical one, all orders of derivative, all extrapolations", "why_tests_cant": "Tests compare a few orders of a few fits with finite differences at one temperature; they cannot cover coefficient lists of any length, the identity of the two representations of a form, or the combinations of form, order and extrapolation that raise.", "anchors": ["thermo/utils/t_dependent_property.py:2622-2911", "thermo/utils/t_dependent_property.py:2953-3020", "thermo/utils/t_dependent_property.py:3482-3587", "thermo/utils/t_dependent_property.py:3888-4083", "thermo/utils/t_dependent_property.py:4140-4189", "thermo/utils/t_dependent_property.py:4466-4523", "thermo/utils/t_dependent_property.py:1749-1774"]}
{"id": "C124", "title": "A new property object uses the method the user asked for", "statement": "The constructor of a temperature dependent property leaves an active method that is one of its methods, and none only if nothing ranked is available; a method asked for by keyword is active, a correlation given by the user is active and holds the user's data, the caller's dictionaries are unchanged, and representations (repr, as_poly_fit, JSON) rebuild an object with the same active method.", "quantifier": "every set of loaded methods, correlation keywords in any order, data from files, tables, piecewise methods, fits, extra methods, rankings and allotrope names", "why_tests_cant": "The active method depends on the interplay of twelve fits, all correlation keywords, data files, allotropes and rankings; the failing combinations involve two sources of data for the same keyword.", "anchors": ["thermo/utils/t_dependent_property.py:4877-5077", "thermo/utils/t_dependent_property.py:266-282", "thermo/utils/t_dependent_property.py:1594-1683", "thermo/utils/t_dependent_property.py:1826-1862", "thermo/utils/t_dependent_property.py:2912-2951", "thermo/utils/t_dependent_property.py:3589-3810"]}
{"id": "C125", "title": "Activity models hold the interaction parameters they were given", "statement": "NRTL, Wilson and UNIQUAC built from coefficient arrays by pair, from one tuple or from single matrices hold exactly those coefficients, missing ones being zero; two sources at once are refused; flags and the list of missing pairs reflect the zero coefficients; the representation rebuilds the model; a model moved to a new temperature and composition never shows values of the old one; parameters of the DDBST give the documented Wilson parameter.", "quantifier": "every number of components, coefficients, subset of matrices left out, and sequence of property reads and new states", "why_tests_cant": "Tests use one way of giving coefficients with the right sizes; two sources, short tuples, wrong sizes, coefficients e and f of the DDBST and arbitrary orders of reads and moves are not tried.", "anchors": ["thermo/nrtl.py:607-876", "thermo/wilson.py:606-938", "thermo/uniquac.py:664-807"]}
{"id": "C126", "title": "A stream shows the flows it was built with", "statement": "EquilibriumStream accepts exactly one composition and one flow rate; mole, mass, liquid and gas volume flows by component, and totals, given to it are those it shows; its flows agree with each other; an energy given is the enthalpy of its state times its mole flow; the arguments made from it rebuild it, and its list of specifications names all of them.", "quantifier": "every number of components, every combination of the thirteen compositions and flow rates, enthalpies, energies and reference conditions", "why_tests_cant": "There are hundreds of combinations of composition, flow rate, energy and reference conditions; only a few are tested, and errors show as silently different flow rates.", "anchors": ["thermo/stream.py:2595-2959", "thermo/stream.py:1782-1788", "thermo/flash/flash_base.py:293-306"]}
{"id": "C127", "title": "Sums, differences and states of legacy streams", "statement": "The sum of two Stream objects has the sum of their flows by component and in total; a difference has the difference of the flows up to rounding; a stream shows the phase flows of its current state; an energy given is the energy of the stream; specifications are listed by their names; building a stream does not change how other mixtures behave.", "quantifier": "every pair of streams with any components in any order, every flow, every sequence of constructions and new states", "why_tests_cant": "Tests add and subtract a few streams; streams with equal totals, components without flow, phase changes after construction and failed constructions are not tried.", "anchors": ["thermo/stream.py:2092-2436"]}
{"id": "C128", "title": "Minimisation of the Gibbs energy keeps the material balance and finds equal fugacities", "statement": "In minimize_gibbs_NP_transformed the flows of all phases add up to the feed for all variables; with translated variables all flows are positive, fractions add up to the feed and compositions to one; guessed flows are recovered from their variables; the objective is, up to a constant and a factor, the Gibbs energy; at a minimum of two phases every component has equal fugacities; the point returned has the lowest objective of all evaluated. The flash that bounded dew and bubble points return lies on the boundary side.", "quantifier": "every number of components and phases, feed, variables, fugacity coefficient functions and sequence of evaluated points", "why_tests_cant": "Tests can minimise a few mixtures; that no variables whatever violate the balance, and that a minimum means equal fugacities, needs the transformation and the derivative.", "anchors": ["thermo/flash/flash_utils.py:1368-1618", "thermo/flash/flash_utils.py:1767-1772"]}
{"id": "C129", "title": "The PSRK mixing rule reproduces the excess Gibbs model and takes it at the right state", "statement": "The attraction parameter of PSRK makes the excess Helmholtz energy of the Soave-Redlich-Kwong equation at the packing 1.1 equal to the excess Gibbs energy of the model; a pure component keeps its own parameter; da_alpha_dT and d2a_alpha_dT2 are the derivatives. Whatever state the model given is in, and however a temperature is iterated, parameters and excess Gibbs energy are taken at the temperature and composition of the object; to_TP_zs_fast does so at any temperature; volume translation does not change the parameter.", "quantifier": "every number of components, temperature, composition, excess Gibbs model, state of the model given and sequence of temperatures tried", "why_tests_cant": "Tests evaluate one binary mixture at a few states; that the rule is the zero pressure reference for every model, and that no sequence of evaluations leaves a stale model, needs a proof over all of them.", "anchors": ["thermo/eos_mix.py:5819-5959", "thermo/eos_mix.py:9812-9875", "thermo/eos_mix.py:519-551"]}
{"id": "C130", "title": "Methods of mixture properties are available, complete and valid", "statement": "In every mixture property class each method offered is ranked and has a branch in calculate and finds its data complete for the components; the default is the first excess correlation listed, else the first ranked method offered, and always exists; available methods are valid; temperature limits lie within the ranges of all components; pure values are corrected for pressure component by component; for the linear rule partial properties are the pure values and numerical derivatives mix linearly; repr builds the object again.", "quantifier": "every class, list of identifiers and constants, data tables, excess correlations and method keyword, any number of components", "why_tests_cant": "Tests build a few mixtures with complete data; which combinations of missing lists, identifiers and table rows leave an object with a default method that cannot be evaluated needs all of them.", "anchors": ["thermo/utils/mixture_property.py:99-295", "thermo/utils/mixture_property.py:559-567", "thermo/volume.py:1104-1232", "thermo/viscosity.py:1149-1266", "thermo/thermal_conductivity.py:688-786", "thermo/interface.py:555-619"]}
{"id": "C131", "title": "Mass basis, concentrations and flows of phases agree with the molar ones and add up", "statement": "Mass fractions add up to one; properties per mass times the mass of a mole are the molar properties and obey the same relations between energies; density derivatives and speed of sound per mass follow from the molar ones; concentrations and partial pressures add up; flows of moles, mass, volume and energy of the phases of a result add up to those of the result and of each bulk phase; the consistency checks vanish exactly for properties consistent with the fugacity coefficients; activity coefficients of pure components are one and infinite dilution values exist; stored lists are computed once; every phase of a result can become a state of its own.", "quantifier": "every number of components, composition, molecular weights, phases, phase fractions and flows", "why_tests_cant": "Tests compare a few mass based values with molar ones; that the flows of any set of phases add up, and that a bulk of some of the phases breaks this, needs every split.", "anchors": ["thermo/phases/phase.py:4494-4924", "thermo/phases/phase.py:5140-5898", "thermo/phases/phase.py:616-844", "thermo/phases/phase.py:3694-3759", "thermo/bulk.py:651-720", "thermo/equilibrium.py:284-332"]}
{"id": "C132", "title": "Derivatives, transforms and inversion of a property belong to the property", "statement": "T_dependent_property_derivative is the derivative of T_dependent_property at every temperature, including the limits of the method; values, derivatives, integrals and transforms of the extrapolation use the same side and obey in_range; failures give None unless the object is strict; transforms are those of the extrapolated property; solve_property returns a temperature with the property asked for and starts its search at temperatures where the property exists; valid_methods lists the selected method first and otherwise the ranked available methods.", "quantifier": "every method, limits, extrapolation on either side, temperature, order, in_range and list of methods", "why_tests_cant": "Tests sample temperatures inside and outside the range; behaviour exactly at the limits, for every extrapolation and in_range, needs all of them.", "anchors": ["thermo/utils/t_dependent_property.py:2561-2592", "thermo/utils/t_dependent_property.py:3043-3273", "thermo/utils/t_dependent_property.py:3812-3859", "thermo/utils/t_dependent_property.py:4085-4138", "thermo/utils/t_dependent_property.py:4556-4875"]}
{"id": "C133", "title": "A cubic equation of state of a mixture has the parameters of its components", "statement": "For every class of cubic equation of state of a mixture the attraction parameters and covolumes of the components are those of the critical point and equal those of the pure class, also with default and given translations and alpha coefficients; the mixture covolume and translation are sums over components and the equation is the untranslated one at the shifted volume; a mixture of one component is the pure equation; an object moved to another state or composition, stored and reloaded, or restricted to some components keeps its parameters; covolumes are positive; too few specifications give a ValueError.", "quantifier": "every class, number of components, critical constants, acentric factors, compositions, keyword arguments and states", "why_tests_cant": "Tests build a few mixtures of each class and compare numbers; that two independently written sets of constructors, copying methods and stored keyword arguments agree needs all arguments.", "anchors": ["thermo/eos_mix.py:391-441", "thermo/eos_mix.py:519-851", "thermo/eos_mix.py:6263-6297", "thermo/eos_mix.py:6864-6918", "thermo/eos_mix.py:7903-7980", "thermo/eos_mix.py:8478-8565", "thermo/eos_mix.py:9450-9537", "thermo/eos_mix.py:10572-10653", "thermo/eos_mix.py:11374-11436", "thermo/eos.py:7482-7494", "thermo/eos.py:8626-8653", "thermo/eos.py:10597-10620"]}
{"id": "C134", "title": "Flashes of property packages at given enthalpy or entropy", "statement": "A flash of a property package at pressure and enthalpy, pressure and entropy or temperature and entropy that reports success holds a state with the given pressure or temperature whose enthalpy or entropy is the requested one, inside the bounds; requests between the ends of the bounds are answered, also inside the vaporization jump of a pure component; requests outside are refused with the fitting message; insufficient inputs are refused; after a failure no result of an earlier flash is left.", "quantifier": "every package, composition, combination of inputs, requested value and bracketing solver that meets its contract", "why_tests_cant": "Tests flash a handful of states of a few mixtures; jumps of the properties, unset names after solver failures and ignored inputs only show for requests no test makes.", "anchors": ["thermo/property_package.py:630-684", "thermo/property_package.py:689-758", "thermo/property_package.py:761-827", "thermo/property_package.py:829-886"]}
{"id": "C135", "title": "UNIFAC objects: construction from groups, stored results, copies", "statement": "Whatever methods were called on a UNIFAC object and however it was copied to other temperatures and compositions, each method returns the value which belongs to the state of the object and never one stored for another state. A model built from groups has volumes and areas that are the sums over its matrix of counts, rows of counts, areas and interactions of the same groups, and does not depend on the order in which groups are written.", "quantifier": "all sequences of method calls and copies, all temperatures and compositions, all versions, all functions the methods may compute, all dictionaries of groups and tables", "why_tests_cant": "There are 72 stored results and unboundedly many histories; a stored result that is handed on wrongly or not handed on shows only after particular sequences of calls and copies.", "anchors": ["thermo/unifac.py:4006-4020", "thermo/unifac.py:5314-5742", "thermo/unifac.py:5767-8808"]}
{"id": "C136", "title": "Generated getters and averages of equilibrium states", "statement": "Element mass fractions sum to one (for molecular weights consistent with the formulas), elements are conserved by mass between phases and bulk, and molar, count and mass flows of elements agree; the per-element getters return the dictionary entry or zero whatever has been cached; partial pressures sum to the pressure and component weights to the molecular weight; pseudo-critical averages are bounded by the components and recombine; heating values and Wobbe indices on molar, mass and volume basis agree; K-values are consistent and equal fugacity coefficient ratios at equilibrium; every name in the generated getter tables resolves. False for eight names (molar_water_content, B_from_Z, n, m, ns, ms unusable on an EquilibriumState, Q and Qls not callable), nu(phase) is overwritten, value(name, phase) indexes any list by the position of the phase and hides exceptions, and SG averages densities by mass so that it exceeds the density of the same state's reference volume.", "quantifier": "all formulas, compositions, phase sets, flow rates, cache states, reference conditions, all names of the tables", "why_tests_cant": "continuum of compositions; hundreds of generated names of which tests call a few", "anchors": ["thermo/equilibrium.py: 761-779", "thermo/equilibrium.py: 837-928", "thermo/equilibrium.py: 1021-1149", "thermo/equilibrium.py: 1976-2172", "thermo/equilibrium.py: 2437-2787", "thermo/equilibrium.py: 3183-3239", "thermo/equilibrium.py: 3277-3655", "thermo/phases/phase.py: 362-390"]}
{"id": "C137", "title": "Ideal gas heat capacity from reduced Helmholtz energies", "statement": "The first, second and third tau-derivative functions of the ideal-gas reduced Helmholtz energy are the derivatives of the preceding one wherever the logarithms are defined; the enthalpy function is an antiderivative of the heat capacity, so that HeatCapacityGas.calculate_integral with the CoolProp method is the integral of calculate; the heat capacity equals its explicit Einstein-function form and lies between R(1+a) and R(1+a+sum n); a generalized term with c=1, d=-1 is a Planck-Einstein term. The entropy function keeps the density constant: it is not an antiderivative of Cp/T, but with R ln T added it is, contrary to its docstring. Converting the JSON description gives the energy it describes when no kind of entry is repeated; repeated Planck-Einstein or power entries are lost, a generalized entry before a FunctionT entry loses its exponents, the lists of a FunctionT entry are doubled, and two generalized entries change the JSON data. CoolProp is never asked for a saturated state above the critical temperature.", "quantifier": "for all coefficient lists, all temperatures where the energy is defined, all integration intervals, and all JSON descriptions (as lists of entries over a heap of list objects)", "why_tests_cant": "The derivative identities hold for every number of terms and every coefficient; tests compare a few fluids at a few temperatures. The aliasing defects need repeated entries, which no test fluid has.", "anchors": ["thermo/coolprop.py:257-347", "thermo/coolprop.py:350-421", "thermo/coolprop.py:424-577", "thermo/coolprop.py:579-678", "thermo/heat_capacity.py:408-436", "thermo/heat_capacity.py:483-487", "thermo/heat_capacity.py:523-527"]}
{"id": "C138", "title": "Phases at other states and the CoolProp state cache", "statement": "Given any two of temperature, pressure and volume, `to` of the ideal gas, dry air, IAPWS-95 water and the virial gas returns a phase with exactly these two and the third from its equation of state, and raises ValueError given fewer; reduced temperature and density agree with the new state, and a phase from temperature and volume is the phase from temperature and its pressure. The cache of CoolProp states shared by all phases keeps at most the maximum number of states, is exactly least-recently-used, and a phase fetching its state by its key always gets an object in the state of that key, whatever other calls intervened. Negative results: cubic phases and ice accept a lone temperature and return a phase without pressure, CoolProp raises UnboundLocalError; DryAirLemmon() is at 298.15 Pa; a held library object is changed by later calls; whether a state is refused depends on how full the cache is; each construction empties the cache; the key written by from_AS has the density of another phase.", "quantifier": "all equations of state with the stated inverses, all temperatures, pressures and volumes, all sequences of cache calls, all libraries (which updates are accepted)", "why_tests_cant": "The state of the cache depends on the whole history of calls by unrelated phases; tests use few states and never fill the cache.", "anchors": ["thermo/phases/ideal_gas.py:284-309", "thermo/phases/air_phase.py:75-130", "thermo/phases/iapws_phase.py:88-137", "thermo/phases/iapws_phase.py:714-744", "thermo/phases/ceos.py:245-286", "thermo/phases/virial_phase.py:1882-1922", "thermo/phases/coolprop_phase.py:37-331"]}
{"id": "C139", "title": "Solver drivers for temperature and saturation of cubic equations", "statement": "With solvers that return roots, the generic solve_T returns a temperature with the given pressure or raises, never None; without a choice it returns of two found solutions the one nearest 298.15 K, and with a choice, two solutions in range and a converging secant it returns the higher one for the gas and the lower one for the liquid. Psat is the critical pressure at the critical temperature, the correlation without polishing, raises when polished above the critical temperature and otherwise polishes the guess or the correlation; if Newton's method raises, a returned pressure has both phases with fugacities equal within tolerance, and a single sign change between 1e-40 Pa and the critical pressure is found; the guarded Newton step keeps the pressure positive. The first part of Tsat returns a temperature whose saturation pressure is the given one to 1e-9, and does return if the pressure lies between the saturation pressures at 0.2 Tc and Tc. Negative results: if the secant fails the choice between gas and liquid temperature is ignored; the retry of the secant is given the residual of another guess; results of Newton's method in Psat and Tsat are returned unchecked, the one check comparing an error with the pressure for equality.", "quantifier": "all residual functions, guesses, pressures and solver behaviours within the stated contracts", "why_tests_cant": "Which fallback is taken depends on where the numerical solvers fail; tests see only fluids and states where the first attempt works.", "anchors": ["thermo/eos.py:1630-1776", "thermo/eos.py:2731-2868", "thermo/eos.py:2917-3088"]}
{"id": "C140", "title": "Direct fugacity coefficients, humid air and phases as states", "statement": "The fast path for fugacity coefficients at a new composition uses for every equation of state and activity model the equation of that model with arguments that fit, and results of two calls do not overwrite each other; fugacities of activity models are x gamma Psat phisat Poynting; humid air has the second and third virial coefficient of the mixture of air and water; a state made from a phase contains exactly this phase (or the phases of the bulk with their fractions) as its assigned kind; the first guess of the mechanical critical point lies between the critical points. Counter-examples proved: PSRK, Flory-Huggins and Hansen, aliased result lists of activity models, the third virial coefficient of humid air.", "quantifier": "all models and versions, all compositions, all real coefficients, all phases", "why_tests_cant": "The dispatch is by integer ids spread over two modules; aliasing and the missing power of the mole fraction show only for particular sequences of calls and mixtures.", "anchors": ["thermo/phases/phase_utils.py:68-121", "thermo/phases/ceos.py:300-331", "thermo/phases/air_phase.py:178-234", "thermo/phases/phase.py:5651-5690", "thermo/phases/phase.py:4133-4156", "thermo/phases/gibbs_excess.py:709-722"]}
{"id": "C141", "title": "Flashes of mixtures at given energy or vapor fraction: guesses, drivers and convergence", "statement": "The starting models of an energy flash are evaluated at a point with both given variables, their residual vanishes exactly at the target of every specification, and a single phase is assumed only when the Rachford-Rice equation excludes two; results at given vapor fraction add up to the feed with that fraction; a converged substitution with an outer variable has fugacities, property and balance within its tolerances. Counter-examples proved: temperature-volume pairs, the ignored choice of solution and specification function, fractions between zero and one, unstable results, damped steps, trivial first passes, temperatures used as fractions.", "quantifier": "all variables and specifications, all compositions, all lists of algorithms and results", "why_tests_cant": "Which algorithm provides the result, and whether a name is bound, depends on the failures of others; tests see the default order on a few mixtures only.", "anchors": ["thermo/flash/flash_utils.py:4176-4492", "thermo/flash/flash_utils.py:3578-3804", "thermo/flash/flash_vl.py:364-524", "thermo/flash/flash_vl.py:824-899"]}
{"id": "C142", "title": "Derived constants of chemicals, user databases and averages of mixtures", "statement": "Values per kilogram of a chemical are its molar values over the molar mass; Gibbs energy and entropy of formation are those of the compound less those of the elements in their stable forms; for a gas at standard conditions the values of the stable phase and of the gas agree; a missing enthalpy of formation of a liquid is that of the gas less the enthalpy of vaporization; critical constants and densities fit together; the databases of the user are searched in the order given and a context restores those loaded before; averages of mixtures lie between the values of the components and are unknown if one is. Counter-examples proved: the molar enthalpy of formation of the gas and all derived from it stays unknown although the value per kilogram is set, the enthalpy of combustion of derived enthalpies is missing, solids never have an entropy or Gibbs energy, the molar entropy of vaporization is computed per kilogram, the volume at the triple point is that at the melting point, contexts that do not restore, unreadable files that lose the databases, the compiled database that cannot be written and confuses surface tension with a volume.", "quantifier": "all data known or missing, all phases, all elements, all lists of databases and bodies of contexts", "why_tests_cant": "Tests read constants of well-known chemicals for which all data are tabulated; orders of derivation matter only where some are missing.", "anchors": ["thermo/chemical.py:963-1008", "thermo/chemical.py:1045-1311", "thermo/chemical.py:202-254", "thermo/database.py:37-143", "thermo/mixture.py:817-883"]}
{"id": "C143", "title": "Making flash objects, saturation of one component, grids", "statement": "A flash object for one component lists its phases once, gas first, and allows vapor fractions exactly with gas and liquid; its special cases are recognised exactly for one gas and one liquid of the same kind without solids and exclude each other, so that saturation at given temperature and pressure uses the same code; the object covers the temperatures all its phases allow and accepts exactly phases of one kind that belong to its constants or none; saturated states have the temperature or pressure asked for and the saturation pressure of their model, cubic and IAPWS phases raise above the critical point, and the two saturation flashes invert each other; points of grids go from limit to limit in geometric progression, and results on grids are in the order of the variables named. Counter-examples proved: activity liquids without gas or with a virial gas cannot be used, two ideal gases are taken for a cubic pair, refused objects leave phases bound to their constants, messages for missing phases are never raised, activity liquids with their own vapor pressure do not invert and have no critical point, melting is searched from a million kelvin, realistic grids of helium begin at zero, volume grids fail without cubic phases or go below a co-volume, grids named in the other order are transposed, solid fractions are not passed on.", "quantifier": "all lists and classes of phases, all vapor pressure models and their inverses, all limits and numbers of points, all pairs of variables", "why_tests_cant": "Tests make objects of a few usual combinations of phases and look at single saturation points of one model; which combinations raise, which special case is chosen and whether two flashes agree are statements over all combinations and models.", "anchors": ["thermo/flash/flash_pure_vls.py:264-337", "thermo/flash/flash_pure_vls.py:470-591", "thermo/flash/flash_base.py:622-740", "thermo/flash/flash_base.py:859-888", "thermo/flash/flash_base.py:1039-1152", "thermo/flash/flash_base.py:1931-1976", "thermo/flash/flash_vl.py:331-354"]}
{"id": "C144", "title": "Counting rings, bonds and groups of molecules", "statement": "For every molecular graph, attachments of rings are the pairs of rings with a common atom and the rings counted as attached are those with a common atom, or where allowed a bond, with another ring, never exactly one; a ring is found by its atoms exactly if it has these atoms and no others; conjugated systems are the pairs of different carbon double bonds with a single bond between them, each once, and their number is that of such single bonds; methylene rings are those condensed with an aromatic ring and otherwise made of aromatic atoms and CH2 groups; every single bond at an acid or amide group is counted once; the corrections enter Bondi's assignment with their counts and change no other group; the groups of one molecule do not depend on the other molecules and names of groups are unambiguous; a molecule is organic if listed, or if not listed as inorganic with allowed atoms and a matching pattern; the polar parameters of Tsonopoulos are those of the documentation. Counter-examples proved: spiro rings count although they share no wall, a requested count of zero finds nothing, the same chiral tags are read as cis and as trans, a single free ring is not counted, the list of inorganic molecules given is ignored, parameters depend on how the SMILES is spelled, and the parameter of halides is below -60000.", "quantifier": "all molecular graphs with any rings, bonds, tags and symbols, all assignments, lists of molecules and dictionaries of counts", "why_tests_cant": "Tests count a few dozen molecules; that a count is the number of all bonds or rings with a property, independent of the order of atoms, is a statement about all graphs.", "anchors": ["thermo/functional_groups.py:2662-2729", "thermo/functional_groups.py:2754-2850", "thermo/functional_groups.py:2880-2998", "thermo/functional_groups.py:3168-3201", "thermo/group_contribution/bondi.py:481-755", "thermo/group_contribution/ppr78.py:972-1042"]}
{"id": "C145", "title": "Fitting: folds, criteria, selection and consistent attraction functions", "statement": "For all data, the folds used for cross-validation contain every point exactly once, with its own value, and differ in size by at most one, and every training set is everything outside its fold; with enough points the information criteria prefer fewer parameters and smaller errors; transformed functions evaluate the property at the original argument; without a criterion the polynomial chosen has the smallest extreme error if it also has the smallest standard deviation, otherwise the smallest mean error, and with a criterion the first that meets it; a fit chosen automatically is one of those made, with at most as many coefficients as there are points; the constrained objective fits the same attraction function as the plain one and uses its first three derivatives; parameters that pass the check of Twu's function give a positive, decreasing, convex function with third derivative not positive at all temperatures and, if the exponential decreases, parameters that fail it do not; penalties vanish exactly for valid parameters with right signs; the best of several minimizations passes its check and has the least deviation. Counter-examples proved: the seed has no effect, the criteria prefer more parameters than points, statistics mirror reversed ranges, a point at zero hides its error, starting values are used in reverse order, too few points raise, the number of coefficients is off by one, the constant attraction function is rejected, and a first pass without accepted fit raises.", "quantifier": "all data, numbers of folds and parameters, functions, statistics, real parameters of Twu's function and temperatures, results of the minimizers", "why_tests_cant": "Tests fit a few data sets; that a check of three inequalities implies signs of derivatives at all temperatures, and is implied by them, is a statement about all real parameters.", "anchors": ["thermo/fitting.py:67-126", "thermo/fitting.py:149-463", "thermo/fitting.py:481-687"]}
{"id": "C146", "title": "Fitting a correlation to data and choosing the number of its parameters", "statement": "For every correlation, each evaluation in a fit passes the given values, the values of the fit at their own names and 0 for the rest, whatever the evaluations before, and this order holds for all models of the table; the columns of the Jacobian that remain are those of the fitted parameters; parameters are fitted in their order, never given ones, always required ones, optional ones only while there are more points than parameters; a fit is refused exactly if a required argument is neither given nor fitted; given values come back unchanged and, if other arguments default to 0, the result is the function that was fitted; candidates of a selection are growing prefixes of the optional parameters; a criterion takes the smallest value and of these the fewest parameters, both criteria take the one with fewer parameters unless the deviation is reduced to a third, and cross-validation never takes more than both where it asks for fewer; fits start at the guess with the smallest error, tries follow the order of errors, return a try within the tolerance or the best of all and raise exactly if none converged; bounds contain the guesses if there are more than three. Counter-examples proved: the base of Antoine's equation and Watson's exponent are 0 in a fit and not later, counted parameters are not those adjusted, five parameters are preferred on four points, no candidates or an unknown criterion raise after all fits, two parameters are taken although both criteria take one, three points select the smallest error, the guess of the user is dropped, bounds of the user hold for one fit only and limits leak to later fits.", "quantifier": "all argument orders, given values, earlier evaluations, numbers of points and margins, lists of candidates with any criteria, guesses and outcomes of minimizers", "why_tests_cant": "Tests fit a few models with fixed data; that values reach their own arguments and that a choice is minimal among all candidates or tries are statements about all lists.", "anchors": ["thermo/utils/t_dependent_property.py:334-441", "thermo/utils/t_dependent_property.py:508", "thermo/utils/t_dependent_property.py:699-1517", "thermo/utils/t_dependent_property.py:2201-2498", "thermo/fitting.py:692-874"]}
{"id": "C147", "title": "Results of the volume solvers", "statement": "The volumes returned for a temperature and pressure are those at which the equation of state has that pressure: with an exact first volume all others are returned unless there are none, polishing keeps exact volumes, the first volume comes from a converged iteration or from a case with one volume, and refinement of closed-form volumes by Newton's method keeps exact ones and accepts volumes only as documented by its tolerances.", "quantifier": "all parameters, pressures, iterations and first volumes", "why_tests_cant": "loops with early exits, zero padding and nested fallbacks depend on continuous parameters", "anchors": ["thermo/eos_volume.py: volume_solutions_halley, volume_solution_polish, volume_solutions_NR, volume_solutions_NR_low_P, high_alpha_one_root, horner_and_der_as_error"]}
{"id": "C148", "title": "Heat capacities in pieces, their limits and exported arguments", "statement": "A heat capacity given by several temperature ranges is accepted when its ranges do not overlap, each temperature within the limits of the method is evaluated with a piece covering it when the pieces meet, pieces taken from the database are not printed as the user's, and an object rebuilt from the arguments exported for its current method reads the same data. The code breaks this for gas and solid data stored in another order, for nested pieces, for gaps, for a sixth piece, for Joback data without a melting point, for a piecewise method over a table, and for the limits printed with several methods.", "quantifier": "for all lists of pieces with rational limits, all temperatures, all sets of methods and parameters", "why_tests_cant": "Tests look at a few chemicals of the database; the order, gaps and number of pieces and the combination of kinds of methods are unbounded.", "anchors": ["thermo/heat_capacity.py:341-366", "thermo/heat_capacity.py:838-877", "thermo/heat_capacity.py:921-965", "thermo/heat_capacity.py:1269-1284", "thermo/utils/t_dependent_property.py:1600-1782", "thermo/utils/t_dependent_property.py:3026-3062", "thermo/utils/t_dependent_property.py:3611-3630"]}
{"id": "C149", "title": "Regression of binary interaction parameters", "statement": "The residuals handed to the least squares solver are model minus data in the order of the data, they vanish exactly when the activity model with the fitted parameters reproduces the data, the derivatives handed over are those of the fitted parameters also when parameters are shared or fixed, and the starting points do not depend on the numbering of the components. The code breaks the claim that the fitted parameters are those of the model for values below the clamps, that regular solution parameters are determined by data, and that other fitting methods than the default work.", "quantifier": "for all data sets of compositions and activity coefficients, all parameters and starting points", "why_tests_cant": "Tests fit a few systems and compare numbers from an iterative solver; whether zero residuals mean a reproduced model is a statement over all data and parameters.", "anchors": ["thermo/wilson.py:1658-1723", "thermo/nrtl.py:1752-1856", "thermo/uniquac.py:1763-1838", "thermo/regular_solution.py:959-1043", "thermo/activity.py:1074-1089"]}
{"id": "C150", "title": "Arrays of vectorized objects survive saving and loading", "statement": "Saving a vectorized object and loading it back gives the same fields: arrays_to_lists leaves nothing that JSON cannot hold, naive_lists_to_arrays restores arrays of every number of axes and tuples of arrays with their values and element types, lists of referenced objects are restored as objects, and the option that drops recalculable fields applies to all written objects.", "quantifier": "every nesting of dictionaries, tuples, lists and arrays, every element, every list of object names, every graph of nested objects", "why_tests_cant": "nestings and element types are unbounded and the conversion looks at values rather than at what was saved, so that any untested mixture of types, shapes or references may change silently", "anchors": ["thermo/serialize.py:77-121", "thermo/serialize.py:254-262", "thermo/serialize.py:313-324", "thermo/serialize.py:344-379"]}
{"id": "C151", "title": "Data sheets and legal lists show what their labels say", "statement": "Each column of a data sheet shows the property its label names for each temperature of an even range within the limits; tables of constants and of streams have one row for each chemical or component and lose no quantity; the legal status combines the status of each list; loading can be repeated until all files are read; the economic status answers according to the data and is not changed by callers.", "quantifier": "all chemicals, limits and numbers of points, all lists of names and streams, all contents and readability of the files", "why_tests_cant": "tests look at a few chemicals with known constants; swapped columns, units, name collisions, partial loads and shared lists show only for other data or on a later call", "anchors": ["thermo/datasheet.py:39-317", "thermo/law.py:48-360"]}
{"id": "C152", "title": "Pressure correlations and exported polynomial fits do what they are named for", "statement": "A correlation for pressures given to a property object is stored and can be selected for pressures without changing the method for temperatures; the method for pressures in use is always an available one, chosen by keyword, last table or rank; the transformations of each polynomial form undo each other, so that an exact polynomial stands for the method it was fitted to; an export of fits returns and writes one record per method and substance whose greatest error bounds all errors.", "quantifier": "all property objects, correlations, tables, ranks and keywords; all critical temperatures, temperatures and functions; all classes with any methods, substances, forced and greatest numbers of coefficients", "why_tests_cant": "Construction depends on the combination of keywords, and the transformations and error bounds hold over continua of temperatures and values; tests try a few chemicals with default keywords.", "anchors": ["thermo/utils/tp_dependent_property.py:92-182", "thermo/utils/t_dependent_property.py:2003-2166", "thermo/volume.py:163-185"]}
{"id": "C153", "title": "Larger groups go before the groups they contain", "statement": "The priority of a group is the weighted sum of its atoms and bonds, so that a group which contains another one is tried before it; a priority given explicitly is kept; a molecule that cannot be read is reported as a failure.", "quantifier": "all groups with any counts of atoms and bonds, all explicit priorities, all catalogues", "why_tests_cant": "The order of all pairs of possible groups is involved; tests fragment particular molecules, in most of which other checks hide a wrong order.", "anchors": ["thermo/group_contribution/group_contribution_base.py:30-62", "thermo/group_contribution/group_contribution_base.py:220-229", "thermo/unifac.py:203-206"]}
{"id": "C154", "title": "The printed form of an object recreates it", "statement": "Running the text of `repr(obj)` gives an object with the same constructor arguments: nothing printed is unknown to the constructor, texts are quoted, what is not printed is at its default, and the printed text is a well-formed call.", "quantifier": "all objects of the phase, equilibrium, flash, stream, settings, activity and package classes with any set or unset attributes; all delimiters and lists of printed parts", "why_tests_cant": "Tests evaluate the printed form of a few objects with common arguments; the arguments left out of the text, or printed without quotes, are those not set in tests.", "anchors": ["thermo/phases/ideal_gas.py:93-155", "thermo/phases/ceos.py:108-163", "thermo/phases/virial_phase.py:978-1043", "thermo/phases/gibbs_excess.py:259-322", "thermo/phases/gibbs_excess.py:3370-3405", "thermo/phases/helmholtz_eos.py:34-61", "thermo/equilibrium.py:252-267", "thermo/flash/flash_pure_vls.py:249-260", "thermo/stream.py:1280-1287", "thermo/bulk.py:437-460", "thermo/chemical_package.py:816-829", "thermo/chemical_package.py:1584-1603"]}
{"id": "C155", "title": "Phases know the result they are in", "statement": "The fraction, kind and flow a phase reports are those of the result it belongs to, after any sequence of flashes, streams made of existing flashes and questions to phases; the flows of the phases of a stream add up to its flow.", "quantifier": "all sequences of making results and streams from any phases and asking phases for flows; all fractions and flows", "why_tests_cant": "The wrong answers depend on which phases were asked before another stream is made from the same flash; tests make streams of equal flows or ask once.", "anchors": ["thermo/equilibrium.py:275-343", "thermo/stream.py:2755-2766", "thermo/phases/phase.py:5201-5242", "thermo/phases/phase.py:5358-5404", "thermo/phases/phase.py:5651-5665"]}
{"id": "C156", "title": "Henry's law from parameters to constants", "statement": "However the parameters of Henry's law are given to a liquid phase, as one argument or as matrices, the logarithms of the constants follow the documented formula; the constants are weighted means over the solvents and lie between those of the solvents, and their first and second temperature derivatives, and those of the vapor pressures they replace, are derivatives; a failed call leaves nothing behind.", "quantifier": "all numbers of components, parameters, compositions, choices of solutes, both rules, all temperatures near which the same solvents count", "why_tests_cant": "Tests use a few solutes in one or two solvents and separate matrices, and compare derivatives at single temperatures; the documented joint form and repeated calls after a failure are not tried.", "anchors": ["thermo/phases/gibbs_excess.py:342-352", "thermo/phases/gibbs_excess.py:499-552", "thermo/phases/gibbs_excess.py:725-925", "thermo/phases/gibbs_excess.py:972-1048", "thermo/phases/gibbs_excess.py:1177-1233"]}
{"id": "C157", "title": "Tables return their data", "statement": "An object with a table of data over temperature, or over temperature and pressure, returns the data at the points of the table, and the straight line between neighbouring points where it interpolates linearly; tables added without a name do not replace each other.", "quantifier": "all numbers of points, increasing temperatures and pressures, values, transformations of a class, splines that pass through their points", "why_tests_cant": "Tests use tables of more than four temperatures, or two, and grids of three by three within extrapolation; the branch taken depends on the number of points and on the direction of the transformation.", "anchors": ["thermo/utils/t_dependent_property.py:3400-3474", "thermo/utils/t_dependent_property.py:3772-3810", "thermo/utils/tp_dependent_property.py:342-514", "thermo/vapor_pressure.py:318-334", "thermo/viscosity.py:384-406"]}
{"id": "C158", "title": "Lists and arrays give the same mixture", "statement": "A mixture equation of state has the same parameters whether critical constants and compositions are lists or numpy arrays, can be made from either, and the array forms of the derivatives of the covolume and of the attraction, including the third temperature derivative, are derivatives of the mixing rule.", "quantifier": "all numbers of components, critical constants, compositions, all choices of container for each argument, all interaction parameters and attractions with derivatives", "why_tests_cant": "Tests compare a few classes with all arguments as arrays; the choice of branch depends on a different argument in different classes, and reductions of numpy in place of elementwise limits fail only in one branch.", "anchors": ["thermo/eos_mix.py:287-288", "thermo/eos_mix.py:1150-1187", "thermo/eos_mix.py:1474-1497", "thermo/eos_mix.py:2745-2840", "thermo/eos_mix.py:6518-6556", "thermo/eos_mix.py:6864-7041", "thermo/eos_mix.py:8478-8545", "thermo/eos_mix.py:8666-8704", "thermo/eos_mix.py:9479-9484"]}
{"id": "C159", "title": "Flashes of one component at a vapor fraction and an energy find the requested solution", "statement": "The interval of temperature searched contains a temperature at which the mixture of saturated phases has the specified property, if the nodes of the grid lie on a continuous curve and extrema come with the values there; a solution on the grid is found, and with the requests high and low it is the one of highest and of lowest temperature. The result is at the temperature the solver returned and its saturation pressure, has the specified vapor fraction, and its property differs from the specified one by the reported error. The grid is made once.", "quantifier": "For all grids, properties, specified values, requests, evaluations of the solvers, and saturated phases.", "why_tests_cant": "The interval depends on how the nodes lie relative to the extrema of the property, so a test with one fluid and one grid says nothing about the others; the value used at an extremum is the one of the last evaluation of a solver, which differs from the one at the temperature returned only for some functions.", "anchors": ["thermo/flash/flash_pure_vls.py:1048-1079", "thermo/flash/flash_pure_vls.py:1106-1256", "thermo/flash/flash_pure_vls.py:1258-1291", "thermo/flash/flash_pure_vls.py:1293-1327", "thermo/flash/flash_base.py:443-451"]}
{"id": "C160", "title": "Mechanical critical properties of a phase belong to one critical state", "statement": "The mechanical critical temperature, pressure, volume and compressibility of a phase belong to one state in which pressure has neither slope nor curvature over volume, in whatever order they are asked for. The guesses from which the state is sought are the same for phases and for mixture equations of state. The properties of a bulk lie between those of its phases and are consistent with each other.", "quantifier": "for all compositions and critical constants, missing ones included, all sequences of calls, all answers of the iteration, all cubic equations of state and all sets of phases", "why_tests_cant": "Tests compute the point of a few mixtures; that the stored numbers belong to one state for any order of calls and any answer, and that an exact answer makes all volumes equal, are statements about all calls and all equations.", "anchors": ["thermo/phases/phase.py:4133-4233", "thermo/phases/ceos.py:383-392", "thermo/eos_mix.py:802-819", "thermo/bulk.py:1626-1672"]}
{"id": "C161", "title": "Transitions found by searches over guesses are transitions", "statement": "Temperatures and pressures that a cubic equation of state reports as transitions between one and three volumes are zeros of the discriminant at that temperature and pressure, or an exception is raised. A guess given by the user is used. Pressures reported for the phase identification parameter make it one.", "quantifier": "for all cubic equations of state, all temperatures and pressures, all guesses and all answers of the iterations", "why_tests_cant": "Tests run the searches for a few fluids for which an early guess succeeds; which answer is returned when guesses fail or are refused, and which function is solved, depend on all outcomes of the iterations.", "anchors": ["thermo/eos.py:4251-4370", "thermo/eos.py:4431-4450", "thermo/eos.py:4486-4505", "thermo/eos.py:4551-4586", "thermo/phases/ceos.py:403-407"]}
{"id": "C162", "title": "Transport properties of a phase belong to one state of matter", "statement": "Viscosity, thermal conductivity and surface tension of a phase come from the correlations for the state of matter the phase is in, do not depend on which of them was asked for before, and the Prandtl number is the kinematic viscosity over the thermal diffusivity; mass fractions are non-negative and add up to one.", "quantifier": "all phase classes with correlations, all marks and equations of state, all sequences of calls, all values of the correlations, all compositions and molecular weights", "why_tests_cant": "Tests ask a few phases for each property once; they do not call the methods before and after a phase becomes part of an equilibrium state, nor cross classes with marks.", "anchors": ["thermo/phases/phase.py:2653-2667", "thermo/phases/phase.py:5091-5198", "thermo/phases/ceos.py:345-381", "thermo/phases/ideal_gas.py:756-772", "thermo/phases/gibbs_excess.py:3356-3378", "thermo/equilibrium.py:284-325"]}
{"id": "C163", "title": "Parameter databases return the value of the first table that has one", "statement": "get_parameter_automatic and get_ip_automatic return the value of the first table containing one; a vector of parameters has one entry per component in the order asked for, with the documented default where nothing is stored; a table that passes validate_table has every necessary parameter of every stored key, and lookups return it.", "quantifier": "all databases with distinct table names, all tables, components and parameter names, all orders of the components", "why_tests_cant": "Tests ask for components that the first table contains; what happens for a component only in a later table, or in a valid table with an unsorted key, depends on the content of all tables together.", "anchors": ["thermo/interaction_parameters.py:119-144", "thermo/interaction_parameters.py:217-267", "thermo/interaction_parameters.py:403-546"]}
{"id": "C164", "title": "A solid with allotropes has the methods of each and one that joins them", "statement": "An object for a solid with allotropes has every method of the data files for each allotrope under the name of the method followed by that of the allotrope, with its own data; none of these is selected by default; a method joins them at the transition temperatures, from the lower limit of the first to the upper limit of the last; the loaded data is not changed, and a second object is the same as the first.", "quantifier": "all contents of the data files, all sets of allotropes in any order, all transition temperatures, all dictionaries of the caller, repeated construction", "why_tests_cant": "Tests construct a few elements with the bundled files; the result depends on how many methods each allotrope has, on the order in which they are listed, and on the objects constructed before, through dictionaries shared with the loaded data.", "anchors": ["thermo/utils/t_dependent_property.py:4922-4965", "thermo/utils/t_dependent_property.py:4983-4987", "thermo/utils/t_dependent_property.py:3611-3630"]}
