# Formal model of thermo: design

The project under study is `CalebBell/thermo` (sources in `/repo`, read as text, never run).
The model is a Lean 4 library in `lean/Verif/`; `lake build` in `lean/` checks everything.

## 1. Approach

* Each module models a part of the code, function by function. Every definition carries a comment
  citing the file and lines it models and, where it simplifies, says so.
* State machines (stream specifications, caches) are a state record, an operation type, a `step`
  function returning either a new state or an error, and theorems by induction over operation lists.
* Exceptions are values (`Except`/`Option`), mirrored branch by branch.
* Floating point numbers are idealised: counts, labels and logic are exact; numeric code is modelled
  over `ℚ`, an arbitrary field, or `ℝ` with Mathlib's `exp`, `log`, `sqrt`, derivatives and limits.
* Loops over components are modelled as sums over `Fin N` / `Finset`, or as explicit folds over
  `List.range N` when the loop structure itself (skipped triangles, `continue`) is what matters; in the latter case a
  lemma proves the fold equals the sum.
* Specifications are written separately from the model: `HasDerivAt`, plain double sums, component
  sums, disjointness, list predicates.
* When the code does not have the property, the model keeps the code as is; the negation is proved
  with a concrete witness, and the strongest positive statement found is kept under a name ending in `_partial`.

## 2. Trusted base

* Lean 4.33.0 kernel and the Mathlib library that comes with it.
* Axioms: only `propext`, `Classical.choice`, `Quot.sound`. No further axioms, no `sorry`, no `native_decide`, no `bv_decide`.
* The transcription of Python into Lean (by hand; each definition cites its source lines).
* Idealisation of floats as exact numbers (no rounding, overflow, NaN); Python `dict` as insertion
  ordered association list or finite function.
* Functions imported from other packages (`chemicals`, `fluids`) are not in `/repo`; they are modelled
  from their documented formula, stated in the comment where used (for example
  `dxs_to_dn_partials`, `horner`, `roots_cubic`).

Section 4 lists exactly which code is modelled and which is not.

## 3. Plan per property

| id | module | model | proof |
|----|--------|-------|-------|
| C01 | StreamArgs | specification record, all setters with their guards, `state_specified`, `specified_state_vars` | induction over setter histories; counterexample for `energy`, `H_reactive`; `_partial` for histories without them |
| C02 | StreamArgs | composition and flow setters | invariant by induction |
| C03 | StreamArgs | constructor dictionary and `copy` | round trip for all names but one; negation for `H_reactive` |
| C04 | StreamFlash | `flash_state` memo with its key | invariant: the memo entry equals a fresh flash; negation for the omitted field |
| C05, C06 | MoleBalance | `mole_balance` over lists of optional flows | case analysis on the branches; conservation as equality of sums; negation for one branch |
| C07 | EnergyBalance | `energy_balance` | as above |
| C08 | Serialize | object graph, encoder with id table, decoder | isomorphism of reachable graphs |
| C09 | InteractionDB | key normalisation, tables as association lists, matrix loops | equality with lookup spec |
| C10, C11 | TDep | cache, decision logic | invariant, decision table |
| C12, C13, C14 | Extrapolate | closed-form extrapolations | `HasDerivAt`, interval integrals |
| C15 | TPDep | cache with two memo keys | invariant, negation |
| C16 | MixtureProp | guard logic | decision table, negation |
| C17 | GroupString | string builder and parser | round trip by induction |
| C18, C19 | GroupFragment | matching loops over finite sets | invariants by induction; negation |
| C20 | RedlichKister | sums over `Fin N` and lists | algebra |
| C21 | InteractionExp | parameter functions | `HasDerivAt` |
| C22, C23 | GibbsExcess | identities from an arbitrary differentiable `GE` | calculus |
| C24 | Wilson | loops as sums over `Fin N` | `HasDerivAt` |
| C25 | NRTL | same | `HasDerivAt` |
| C26 | RegularSolution, UNIQUAC | same | `HasDerivAt` |
| C27, C28 | CubicRoots | coefficients and closed-form roots | field arithmetic |
| C29, C30 | RootSelect | `set_from_PT` over lists of complex roots | induction on the list; negation |
| C31, C32 | EosDeparture | pressure and departure formulas | `HasDerivAt`, `Tendsto` |
| C33 | Alpha, AlphaFns, Twu | every alpha function, value and first two derivatives | `HasDerivAt`; negation for `TWU_a_alpha_common` below Tr = 0.005 and at Tc, Almeida and Mathias-Copeman at Tc, PRSV third derivative |
| C34, C35 | SolveT, SolveTRK | closed forms, the cubic of Redlich-Kwong over complex numbers | field arithmetic, `sqrt`, arguments of complex powers |
| C36 | Translation | constants of translated equations | `ring` |
| C37 | Discriminant | discriminant polynomial | `ring`, negation |
| C38, C39 | MixRule | loops as folds | fold = sum; negation |
| C40 | LnPhi | per-component formulas | sums |
| C41 | MixDerivs | parameter derivatives | `HasDerivAt` along composition lines |
| C42 | StreamArgs | the `clear_*` methods | case analysis; negation for one name |
| C43 | StreamArgs, Reconcile | constructor checks | case analysis; negation for `Ql`, `Qg` |
| C44 | Reconcile | `reconcile_flows` | sums over lists |
| C45 | MoleBalance | return value of `mole_balance` | case analysis; negation |
| C46 | Json | `from_json` and its effect on its argument | negation: the second load raises for every document |
| C47 | InteractionDB | `has_ip_specific`, `get_ip_specific` | case analysis |
| C48 | Mixture | `MixtureProperty.__call__` | state invariant (the stored key never matches) |
| C49 | Mixture | linear / logarithmic mixing | convexity of sums, permutation of sums |
| C50 | Mixture | `redlich_kister_excess_inner` call | equality under `N = N_T`; negations otherwise |
| C51 | AutoName | automatic table names | injectivity of decimal strings; negations |
| C52 | Integrals | piecewise `calculate`, `calculate_integral(_over_T)` | induction over pieces, interval integrals |
| C53 | Fragment | `run_match`, sorting by priority | loop invariant over the sorted catalogue |
| C54 | RegularSolution | `flory_huggins_*`, `hansen_Aijs_His` | partial derivatives; gradient off the simplex shown to differ |
| C56 | DerivProps | derivative properties of a solved state | chain rule along curves of states |
| C57 | DerivProps | departure and fugacity derivative properties | chain rule along curves of states |
| C58 | Saturation | Psat correlation, dPsat_dT, dphi_sat_dT, Hvap, phi_sat of translated classes | chain rule along the coexistence curve, intermediate value theorem for the example |
| C55 | LnPhi | lnphi routines, volume derivative | implicit function theorem, `PD` of n ln(phi); failures for VDW with kij and PR without attraction |
| C59 | LnPhi | root choice | `IsLeast`/`IsGreatest` of the physical roots |
| C60 | IonBalance | `balance_ions` and its helpers over lists | list algebra, case analysis on methods; failures for negative water, absent or zero groups and two documentation claims |
| C61 | Phases/Phase | all derivative methods of `Phase` computed from supplied ones | `Part`: derivative along every stationary curve; Jacobian determinants |
| C62 | Phases/Phase | Cv, Joule-Thomson, speed of sound, isentropic exponents and their derivatives | differentials of H, U, S; chain rule through the square root |
| C63 | Phases/IdealGas | the ideal gas phase | instance of C61/C62; the four mixed pressure derivatives are zero in the code, so `dCv_*` and `dspeed_of_sound_*` are wrong at every state |
| C64 | Phases/CeosPhase | `CEOSGas`/`CEOSLiquid` and `IdealGasDeparturePhase` | instance of C61/C62 through C56 and C57 |
| C65 | Phases/Fugacity | fugacities, derivatives, consistency checks, `G_min_criteria` | product and chain rules on `PD`; Gibbs-Helmholtz along lines of constant pressure |
| C66 | Phases/Fugacity | reactive properties, chemical potential, formation properties | C23 partial molar conversion; U and A of formation vary with the state |
| C67 | Phases/Virial | `VirialGas` | totals of the departures; `Cp` is shown to be the derivative at constant volume, corrected phase is an instance of C61/C62; implicit differentiation for composition |
| C68 | Equilibrium/Bulk | `Bulk` properties and derivatives | phases as functions of T and P; sums of HasDerivAt; convexity for Cv; mole-weighted defaults refuted |
| C69 | Equilibrium/State | phase fractions, caches, quality, liquid bulk | sums over slices of the phase list; cache as a state variable; two refutations |
| C70 | Equilibrium/State | flow properties of phases and bulks | sums over phases; exact scale factors of the liquid bulk proved |
| C71 | Equilibrium/Mixing | mixing methods of `BulkSettings`, `_property_mixing_rule`, two-phase viscosity | generalised means bounded by min and max; four refutations |
| C72 | Equilibrium/Reports | atom and water reports, choice of phases | dictionary loops by list induction; two refutations |
| C73 | Equilibrium/Reports | ideal-gas entropy and departures of a bulk | exact error as a relative entropy; Gibbs inequality gives its sign |
| C74 | Equilibrium/PhaseId | scores and classification of phases | list filters; five refutations |
| C75 | Equilibrium/PhaseId | `sort_phases`, `identify_sort_phases` | permutation of pairs; three refutations |
| C76 | Phases/Helmholtz | `HelmholtzEOS`: properties and derivatives | chain rule from (T, V) to reduced variables |
| C77 | Phases/Helmholtz | `lnphis`, virial coefficients, departures | exact relations; three refutations |
| C78 | Phases/Gibbs | `GibbsEOS` | partial derivatives in (T, P) |
| C79 | Phases/Gibbs | `IAPWS06._set_core` | complex differentiation; rational arithmetic for the literals |
| C80 | Phases/Special | `IAPWS97` | chain rule in (T, P); three refutations |
| C81 | Phases/Special | `GraysonStreed`, `ChaoSeader` | continuity; two refutations |
| C82 | Phases/Special | `CombinedPhase` | case analysis; two refutations |
| C83 | Phases/ExcessLiquid | Poynting factors, fugacity coefficients of `GibbsExcessLiquid` | derivative calculus |
| C84 | Phases/ExcessLiquid | H, S, Cp, G, V of `GibbsExcessLiquid` | derivative calculus; four refutations |
| C85 | Phases/ExcessState | `__init__`, `to`, `transfer_data`, `GibbsExcessSolid` | invariant over executions; seven refutations |
| C86 | Phases/ExcessState | volume fits, phi_sat, Henry's law | derivative calculus; five refutations |
| C87 | Phases/ExcessState | incompressible derivatives, `dH_dP_integrals_Tait` | derivative calculus; two refutations |
| C88 | Flash/Dispatch | `Flash.flash` | case analysis over all combinations; three refutations |
| C89 | Flash/Dispatch | phase boundaries, `grid_flash`, `unique_liquid` tables | induction on lists; three refutations |
| C90 | Flash/Substitution | `sequential_substitution_2P`, its functional form, `sequential_substitution_NP` | induction on iterations; two refutations |
| C91 | Flash/Newton | equations and matrices of Newton flashes, transformed variables | partial, refutations |
| C92 | Flash/Stability | stability trials, tangent plane distance, verdicts, repeated results | partial, refutations |
| C93 | Flash/SatPoints | saturation of one component, Michelsen-Mollerup dew and bubble points, ideal K values | partial, refutations |
| C94 | Flash/Pure | flashes of one component: phase returned, criteria, one or two phases, vapor fraction brackets | partial, refutations |
| C95 | Flash/MultiPhase | results of flashes of mixtures with two and more phases, bounds, hot starts | partial, refutations |
| C96 | Flash/Mixing | phase boundaries on mixing, brackets, checks, wet bulb, extrema of envelopes | partial, refutations |
| C97 | Activity/Unifac | interaction terms, group and component activity coefficients, temperature derivatives, limits, the function and the class | `HasDerivAt`, finite sums; refutations |
| C98 | Activity/UnifacComp | composition and mixed derivatives of fractions, groups, combinatorial and residual parts, excess Gibbs energy | partial derivatives, finite sums; Gibbs-Duhem |
| C99 | Groups/Estimates | Joback table and estimates, Diky, Fedors, Wilson-Jasperson, Bondi sums | sums over lists; witnesses on alkanes |
| C100 | Groups/PPR78 | completion of the interaction tables, the tables, the parameter and its matrix | invariant of the nested loops; finite sums; kernel evaluation of the tables |
| C101 | Functional/Checks | array comparison, phase rules, tangent plane distances, balance checks | sums over lists and components; Gibbs inequality |
| C102 | Flash/Trials | trial compositions, their order, number and names | lists; normalization; `getElem?` |
| C103 | Package/Ideal | Rachford-Rice, dew and bubble pressures, flashes of ideal mixtures | monotone error, intermediate values |
| C104 | Package/Caloric | enthalpy, entropy, Gibbs energy, partial properties of ideal mixtures | convexity of t log t; derivatives of sums |
| C105 | `Eos.ObjectState` | specifications of an object, `to`, attraction from volume and vapor pressure, departures along saturation | equational, chain rule |
| C106 | `Eos.MixState` | stored attraction terms, `to_TP_zs_fast`, lowest Gibbs energy, subsets | invariant over calls |
| C107 | Eos/MixEquil | mechanical critical point, Michelsen stability test, substitution, bubble and dew functions of mixture objects | cubic with triple root; loops with fuel over an arbitrary fugacity function; counterexamples |
| C108 | Chem/Formation | formation properties over temperature, absolute entropies, their conversion, cache of reactions | integrals of continuous heat capacities, fundamental theorem, continuity across phase changes, invariant of the cache |
| C109 | Chem/RefState | set_ref, calc_H, calc_S, excess properties, set_thermo and memo of Chemical | path function of phase and temperature; case analysis over phases; state machine |
| C110 | Chem/MixtureObj | `Mixture`: composition arguments, fractions, stored flash results, shared equation of state, properties of two phases | property objects are arbitrary functions, the package is its answer |
| C111 | Chem/Electrolyte | electrolyte correlations of `electrochem.py` and their use in mixture objects | real analysis (derivatives, logarithms), averages, lists of table rows |
| C112 | TDep/Offered | `load_all_methods` against `calculate` in all classes of pure compounds, temperature limits | tables of branches, decision over finite tables, general lemmas |
| C113 | TDep/PhaseChange | `EnthalpyVaporization`, `EnthalpySublimation`, Clapeyron-type pressures, `determine_PPDS9_limits` | real powers, interval integrals, case analysis |
| C114 | TDep/VolumeObj | `VolumeLiquid`, `VolumeGas`, `VolumeSupercriticalLiquid` and their mixtures beyond method choice | quadratics, real logarithms, induction on coefficient lists, sums |
| C115 | Eos/MixSecond | second and third composition derivatives of volume and pressure | jets of rational functions, implicit function theorem, product and quotient rules |
| C116 | Eos/MixDeparture | second derivatives of departure functions and fugacities | curves with two derivatives of the attraction integral, then rational identities in its value |
| C117 | Eos/MixClosed | closed-form derivatives of fugacity coefficients | one differentiation rule for the closed form, then rational identities; witness with two components differing in translation only |
| C118 | `Phases/VirialMix` | coefficients, mixing, caches of the virial gas | state machine over all histories; partial derivatives of quadratic and cubic forms; cube root |
| C119 | Chem/ConstantsPackage | `ChemicalConstantsPackage` and derived constants | attributes as lists of optional values by name; construction, addition, subset, replacement, lookup, JSON as total functions |
| C120 | Chem/CorrelationsPackage | `PropertyCorrelationsPackage` | sequential construction from a table of references; objects as terms with named references |
| C121 | Flash/OnePhase | `TPV_solve_HSGUA_1P`, its guesses and driver | solvers as adversaries, invariant of the stored phase, intermediate values; refutations |
| C122 | `Util/Identity.lean` | `__eq__`, `__hash__`, `model_hash`, `state_hash`, `is_same_model` of all classes; constructor arguments of all equations of state, activity models and phases | hashes are represented by the hashed data (perfect hash); values are an arbitrary type; memo as a state machine |
| C123 | `TDep/Fits.lean` | setters, values, derivatives, integral coefficients and conversion of the twelve fits and of the correlations of the same forms | a fit is an outer function of a polynomial of a scaled inner function; functions of `fluids.numerics` are their formula; `chebder` is transcribed and proved |
| C124 | TDep/Construct | construction of temperature dependent properties: data files, correlations, tables, fits, choice of the active method, representations | fold invariants over the stages of the constructor; refutations by concrete arguments |
| C125 | Activity/ModelObjects | constructors, representations, missing pairs and new states of NRTL, Wilson, UNIQUAC; conversion of DDBST parameters | list lemmas over all coefficient functions; state invariant over operations; exponent identity; concrete refutations |
| C126 | Stream/Flows | construction of `EquilibriumStream`: composition, mole flow, energy, flows shown, conversion back to arguments | uniqueness of the source from the counts, then algebra of sums; concrete refutations |
| C127 | Stream/Legacy | `Stream`: sums, differences, phase flows, energies, names of specifications, automatic flashes | sums over lists and finite sets; case analysis; concrete refutations |
| C128 | Flash/GibbsMin | minimisation of the Gibbs energy of several phases; result of bounded dew and bubble points | induction over phases, derivative at a local minimum, fold invariant; concrete refutations |
| C129 | Eos/PSRK | the PSRK mixing rule, its temperature derivatives and the state of its excess Gibbs model | logarithm identities, HasDerivAt, state invariants; refutations: same temperature fast copies, translation |
| C130 | TDep/MixMethods | construction of mixture properties, methods offered by the eleven classes, validity, limits, pure values, partial properties | case analysis over classes, fold invariants, linear sums; concrete refutations |
| C131 | Phases/MassFlows | mass basis, concentrations, flows of phases and bulk phases, consistency checks, infinite dilution, phases as states | sums over components and phases, derivative of a quotient, case analysis; concrete refutations |
| C132 | TDep/Derivatives | derivative, transforms and inversion of a property at and outside the limits, in_range, valid methods | gluing of one-sided derivatives, case analysis over sides; concrete refutations |
| C133 | Eos.MixConstruct | constructors of the mixture classes and of their pure classes, copying, rebuilding, reloading and subsets | parameters as functions of one component, equality of the two families by cases over the class, sums for the mixture |
| C134 | Package.CaloricFlash | outcome of the bounded flashes and of the object after it | contract of the bracketing solver, case analysis, intermediate value theorem; witnesses with jumps |
| C135 | Activity.UnifacObject | results stored by UNIFAC objects, copies at other states, construction from groups | induction over histories, table of reads checked by cases |
| C136 | Equilibrium/Getters | generated getters, element and component reports, averages, heating values, K-values | dictionaries as lists; classes as lists of bindings, resolved by name |
| C137 | TDep/HelmholtzGas | ideal-gas Helmholtz energies, their derivatives and integrals, conversion of JSON coefficients, choice of library call | loops as sums; list objects as positions in a heap |
| C138 | `Phases/States` | `to` of the phase classes, CoolProp state cache | records of optional values; heap and ordered dictionary, invariant over call sequences |
| C139 | `Eos/SatDrivers` | generic solve_T, polished Psat, Tsat | solvers as partial functions with stated contracts |
| C140 | `Phases.Direct` | dispatch of direct fugacity coefficients, buffers, humid air virial coefficients, phases as states, mechanical critical guess | case analysis over class tables, finite sums, averages |
| C141 | `Flash.MixDrivers` | starting models of energy flashes, choice of solutions, vapor fraction drivers, substitution with an outer variable | case analysis, convexity of x log x, induction over algorithms, sums of squares |
| C142 | `Chem/Derived` | derived constants of `Chemical`, user databases, compiled database, averages of `Mixture` | record of optional values passed through the steps of construction, state machine of loaded databases |
| C143 | `Flash.Setup` | special cases of flash objects, checks of phases, saturation of one component, grids | case analysis over classes, induction over lists, exact logarithms; concrete refutations |
| C144 | `Groups.Counts` | counts of rings and bonds, corrections of Bondi, groups of several molecules, organic molecules, Tsonopoulos parameters | counts as cardinalities of sets, bijections; concrete molecules as counter-examples |
| C145 | `TDep/Fitting` | fits: folds, criteria, selection, checks of attraction functions | list induction, discriminant of the cubic, derivatives |
| C146 | `TDep/FitModel` | fits of correlations: arguments, fitted parameters, model selection, tries | list induction, table by `decide` |
| C147 | `Eos/VolumeResult` | results of the Halley and Newton volume solvers, polishing, low pressures | factorisation of the cubic, inversion of loops, witnesses |
| C148 | `TDep/CpPieces` | heat capacities given in pieces: order, names, limits, gaps; Joback limits; `as_method_kwargs` | acceptance, covering and round trip for all lists of pieces; seven refutations |
| C149 | `Activity/Regress` | regression drivers of binary parameters: residuals, derivatives, starting points | exact fits characterised for four models; chain rule for shared parameters; three refutations |
| C150 | `Serialize/Arrays` | `arrays_to_lists`, `naive_lists_to_arrays`, the conversion and the replacement of names in `from_json`, `option` of `as_json` | when a value can be written (iff); dictionaries of primitive values and arrays of any number of axes round trip; tuples of arrays of different lengths round trip; single references and dictionaries of references are restored; fails: lists of arrays are not converted, lists become arrays, mixed elements change type, arrays without elements change type, tuples of equal lengths become matrices, uneven nestings raise, lists of objects in vectorized objects become arrays of names, the option does not reach nested objects |
| C151 | `Chem/Sheets` | `tabulate_solid`, `tabulate_liq`, `tabulate_gas`, `tabulate_constants`, `tabulate_streams`, `legal_status`, `load_law_data`, `economic_status`, bands of ECHA | columns, spacing and limits of temperatures, rows by name, totals of streams, combined status, flags, loading, bands; fails: Joule-Thomson coefficient of the gas for liquids, heat of formation per mass labelled per mole, zero limit, missing melting point, equal names or CAS numbers, files missing in the middle of loading, OECD answer for every chemical, shared list of bands |
| C152 | `TDep/Exports` | pressure correlations in the constructor, forms of polynomial fits, export of fits, Tait function of COSTALD | fit and its statistics are arguments; Chebyshev approximation not modelled |
| C153 | `Groups/Priority` | priorities from atoms and bonds, given priorities, unreadable molecules | matches are inputs, as for C18 |
| C154 | `Util/Repr.lean` | `__repr__` and constructor parameters of phases, `EquilibriumState`, `FlashPureVLS`, `StreamArgs`, `BulkSettings`, activity models, packages; `_make_str` | classes as lists of parameters and print modes; running a bare word is an exception; texts as lists of characters |
| C155 | `Equilibrium/Ownership.lean` | `EquilibriumState.__init__`, `EquilibriumStream` with `existing_flash`, `Phase.beta`, `beta_mass`, `n`, `m` and stored flows | heap of phase objects and results; operations as a state machine |
| C156 | `Phases.HenryLaw` | Henry's law parameters, constants, derivatives and stored lists | parameters for all inputs; derivatives with the solvents fixed near the temperature; refutations for the documented joint form, solvents without parameters and calls repeated after a failure |
| C157 | `TDep/Tables` | tables over temperature and pressure, linear interpolation with its binary search | loop invariant of the search, sorted lists, witnesses |
| C158 | `Eos/Containers` | list and array branches of mixture constructors, array forms of derivatives, third derivative of the attraction | cases on containers, derivatives of double sums, witnesses |
| C159 | `Flash.VaporFraction` | interval, extremum, search and result at a vapor fraction and an energy | nodes as a list, solvers as their evaluations, intermediate values |
| C160 | `Phases/CriticalPoint` | mechanical critical point of phases and bulks | stored attributes as a state machine, exact solutions of the cubic equation |
| C161 | `Eos/Transitions` | searches for transitions of cubic equations of state | loop over guesses with the variable it leaves, exact zeros as contract of the iterations |
| C162 | `Phases/Transport` | which correlations a phase uses for transport properties, stored values, derived numbers | stored attributes as a state machine, marks by equilibrium states |
| C163 | `Data/Databases` | choice of a table, defaults, vectors and validation in the parameter databases | tables as partial functions, database as a list; rows of the bundled files as counterexamples |
| C164 | `TDep/Allotropes` | methods of allotropes, their names, the joining method, dictionaries shared with the loaded data | dictionaries as lists, database as a function; sharing by rewriting the database after every allotrope |

No property of the list was found inexpressible; what is idealised is said in section 2.

## 4. What is modelled and what is not

* `COVERAGE.md` (generated) lists every modelled definition with the source lines it transcribes and its simplifications.
* `FINDINGS.md` (generated) lists every proved disagreement between the code and the expected property, and every
  partial theorem.
* `AXIOMS.md` (generated) lists the axioms of every theorem of `MANIFEST.json`; only the three standard ones occur.

Modelled, by file of `/repo/thermo`:

| file | modelled | not modelled |
|------|----------|--------------|
| `stream.py` | `StreamArgs` specifications, flow resolution, memo of `flash`, `mole_balance`, `energy_balance`, `reconcile_flows`, construction of `EquilibriumStream` (C126), sums, differences and states of `Stream` (C127) | the composition of `Stream` by volumes, its conversion of names |
| `serialize.py`, JSON of objects | object graphs, encoder, decoder, conversion between arrays and nested lists (C150) | binary buffers, the text format, the `orjson` variants |
| `interaction_parameters.py` | tables, keys, matrices, automatic choice of tables, scalar parameters, validation (C163) | files on disk |
| `utils/t_dependent_property.py`, `tp_dependent_property.py`, `mixture_property.py` | call logic, caches, extrapolation, integrals, automatic names, polynomial and Chebyshev fits (C123), construction and representations (C124), methods of allotropes and their joining (C164), methods of mixture properties (C130), derivatives, transforms and inversion (C132), fits of correlations and model selection (C146), pressure correlations and exported polynomial fits (C152), tables (C157) | minimizers, plotting, the individual correlations of `chemicals` |
| `vapor_pressure.py`, `phase_change.py`, `volume.py`, `viscosity.py`, `thermal_conductivity.py`, `interface.py`, `heat_capacity.py`, `permittivity.py` | available methods, their inputs, ranking and temperature limits (C112), enthalpies of phase change (C113), extension, compression, Tait data and mixing of volumes (C114) | the correlations of `chemicals`, data tables, fits in files |
| `group_contribution/group_contribution_base.py` | fragmentation, group strings, priorities (C153) | RDKit, the catalogues |
| `group_contribution/joback.py`, `fedors.py`, `wilson_jasperson.py`, `bondi.py`, `ppr78.py` | the Joback table, all estimates from counts, interaction tables and parameters of PPR78, counts of rings and bonds, groups of several molecules (C144) | matching of structures by RDKit |
| `functional_groups.py` | rings attached to rings, rings by atoms, conjugated bonds, organic molecules, parameters of Tsonopoulos (C144) | patterns and their matching by RDKit, `is_hydrocarbon` and the other recognisers, radionuclides |
| `redlich_kister.py`, `activity.py`, `wilson.py`, `nrtl.py`, `regular_solution.py`, `uniquac.py` | energies, derivatives, activity coefficients, parameter functions, constructors, representations and new states (C125), drivers of the regression (C149) | the least squares solver |
| `eos.py`, `eos_volume.py`, `eos_alpha_functions.py` | coefficients, closed-form roots, root selection, departures, derivative properties, attraction functions, closed-form temperature solutions, discriminants, translations, saturation correlations, specifications and derived states of objects, results, polishing and Newton refinement of the volume solvers (C147), searches for transitions (C161) | convergence of the iterative solvers, mpmath, plotting |
| `eos_mix.py`, `eos_mix_methods.py` | mixing rules, row sums, parameter derivatives, list and array branches (C158), second and third derivatives of volume and pressure (C115), second derivatives of departures and fugacities (C116), closed-form derivatives of fugacity coefficients (C117), fugacity coefficients, stored terms and derived states of objects, the PSRK rule (C129), mechanical critical point, stability test, substitution | Newton solvers, third order composition derivatives of departures |
| `electrochem.py` | `balance_ions`, correlations of electrolytes, ion product, table loading (C60, C111) | coefficient tables, IAPWS-95, the Chebyshev fit |
| `phases/phase.py`, `ideal_gas.py`, `ceos.py`, `virial_phase.py` | derivative methods, departures, fugacities, checks, virial coefficients of mixtures and their caches (C118), mass basis, concentrations, flows, consistency checks (C131), direct fugacity coefficients, phases as states, first guess of the mechanical critical point (C140), the point itself and its storage (C160), choice and storage of transport properties (C162) | the mixture correlations inside a phase, pseudo-critical properties |
| `bulk.py`, `equilibrium.py` | bulk sums, mixing rules, fractions, flows, composition reports, departures, generated getters, heating values and Wobbe indices, K-values, phases shared between results and their stored flows (C155) | getters of constants, correlations and derivatives, pure-component property lists |
| `phases/helmholtz_eos.py`, `gibbs_eos.py`, `iapws_phase.py`, `petroleum.py`, `combined.py` | properties and derivatives, virial coefficients, the ice model, dispatch | transport properties, the reduced energies of `chemicals`, coefficient values |
| `phases/gibbs_excess.py` | options, state changes, stored values, pure component data, Henry's law parameters and constants, fugacity coefficients, caloric properties, Tait integral | numpy variants, export of properties, the correlations of `chemicals` |
| `phases/coolprop_phase.py`, `air_phase.py` | changes of state, the cache of library states (C138), virial coefficients of humid air (C140) | the library, cached values, transport properties |
| `flash/flash_base.py`, `flash_utils.py`, `flash_vl.py`, `flash_vln.py`, `flash_pure_vls.py` | specifications, dispatch, grids, distinct liquids, sequential substitution, Newton equations and matrices, stability trials, saturation, dew and bubble points, flashes of one component, results with two and more phases, brackets of phase boundaries, wet bulb, minimisation of the Gibbs energy, flashes of a given phase with their guesses, drivers of flashes of mixtures at given energy or vapor fraction (C141), making flash objects, saturation of one component and grids of properties (C143), vapor fraction with an energy of one component (C159) | accelerated substitution, CoolProp and IAPWS95 branches, plots |
| `coolprop.py` | ideal-gas energies, their derivatives and integrals, conversion of coefficients, choice of the library call (C137) | the library, files, coefficient values |
| `fitting.py` | folds, criteria, transformed functions, statistics, selection of polynomials, checks and penalties of attraction functions, the best of several minimizations (C145), starting points, tries and bounds (C146) | minimizers, `ChebTools`, `numpy.polynomial` |
| `utils/functional.py` | all but `has_matplotlib` | `assert_close`, `mix_multiple_component_flows`, `trunc_log` by contract |
| `unifac.py` | functions and class of the UNIFAC model (3661-5157, methods 5767-8808), construction from groups and copies at other states (4006-4020, 5314-5742) | group tables, assignment data, numpy variants |
| `property_package.py` | Rachford-Rice, `StabilityTester`, wrapper and flashes of `Ideal`, caloric properties of `IdealCaloric`, flashes at given enthalpy or entropy | `d_VF_dT` (calls the solver with an argument it does not take: always `TypeError`), plots |
| `chemical_package.py` | the constants package, constants derived from identifiers, construction, references, addition and subsets of the correlations package (C119, C120), printed forms (C154) | data tables of `chemicals`, polynomial export |
| printed forms (`__repr__`) of phases, states, flashes, streams, settings and packages | what is printed, what the constructor takes, which objects come back (C154) | the text of single values, `nan`, arrays |
| equality and hashes of all classes | `__eq__`, `__hash__`, `model_hash`, `state_hash`, `is_same_model` (C122) | `hash_any_primitive` (taken as perfect), `exact_hash` |
| `chemical_utils.py` | all | failures of heat capacity integrals, `standard_formation_reaction` of `chemicals` |
| `datasheet.py`, `law.py` | tables by temperature, of constants and of streams, legal and economic status, loading (C151) | contents of the data files, pandas itself |
| `chemical.py` | reference states, enthalpy and entropy, `set_thermo`, `calculate`, derived constants and user databases (C142) | data tables, identification, transport properties |
| `database.py` | the rows written and read (C142) | files |
| `mixture.py` | 67-175, 550, 576-649, 854-868, 949-1075, 1118-1176, 1328-1375, 2095-2108, 2756-2772, 2896-2945, 3002-3037, 3195-3269, 3379-3411 (C110), averages and pure equations of state 782-883 (C142) | tables of pure values, property objects, transport groups |

Not modelled anywhere: floating point rounding, most numpy vectorised variants (C158 compares the constructors of mixtures), numba
compilation, plotting, wall-clock behaviour, and convergence of iterative solvers.
