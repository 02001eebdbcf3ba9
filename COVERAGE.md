# Modelled definitions

Generated by `tools/coverage.py` from the docstrings: definition, cited source (file as named in the module header unless given) and simplifications.

## Verif/Activity/GibbsExcess.lean

Excess Gibbs energy models: common identities (`thermo/activity.py` 83-142, 454-990)

| definition | source |
|---|---|
| `HE` | `HE` (473). |
| `dHE_dT` | `dHE_dT` (492), also `CpE` (494). |
| `SE` | `SE` (595). |
| `dSE_dT` | `dSE_dT` (638-639). |
| `dHE_dxs` | `gibbs_excess_dHE_dxs` (95-100). |
| `dSE_dxs` | `dSE_dxs` (668-670). |
| `gammas` | `gibbs_excess_gammas` (83-93) with gas constant `R`; also `gammas` (876-881) up to the overflow guard of `trunc_exp`. |
| `lngammas` | `lngammas` (923-930). |
| `dgammas_dns` | `gibbs_excess_dgammas_dns` (103-124). |
| `dgammas_dT` | `gibbs_excess_dgammas_dT` (126-142). |

## Verif/Activity/InteractionExp.lean

Exponential interaction parameters (`thermo/activity.py` 144-260)

| definition | source |
|---|---|
| `lam` | `interaction_exp` (144-181). |
| `dlam` | `dinteraction_exp_dT` (184-204) given the matrix of parameters. |
| `d2lam` | `d2interaction_exp_dT2` (206-227). |
| `d3lam` | `d3interaction_exp_dT3` (229-260). |

## Verif/Activity/ModelObjects.lean

Objects of the activity coefficient models: coefficients, representation, new states (C125)

| definition | source |
|---|---|
| `slice` | `[[i[k] for i in l] for l in tau_coeffs]` (`nrtl.py` 647-652). |
| `sizesOk` | The checks of the sizes against each other (`nrtl.py` 635-643, `wilson.py` 770-778, `uniquac.py` 695-703): number of rows, length of the first row. |
| `scanRow` | The scan of a row for a nonzero coefficient, which stops at the first (`nrtl.py` 717-720). |
| `scan` | The scan of a matrix (`nrtl.py` 714-723, `wilson.py` 833-843). |
| `flags` | The flags of the first `n` matrices (`nrtl.py` 711-723). |
| `allZero` | All coefficients `alpha_ds`, read without stopping (`nrtl.py` 726-733). |
| `nrtl` | `NRTL.__init__` (`nrtl.py` 607-733). |
| `padded` | The matrices from six optional ones, missing ones being zero (`wilson.py` 801-825, `uniquac.py` 728-752). |
| `wilson` | `Wilson.__init__` (`wilson.py` 758-843). |
| `uniquac` | `UNIQUAC.__init__` (`uniquac.py` 670-752). |
| `nrtlRepr` | `NRTL.__repr__` (`nrtl.py` 737-746): the matrices of tau that are not zero, that of alpha, and its temperature dependence if there is one. |
| `wilsonRepr` | `Wilson.__repr__` (`wilson.py` 847-854). |
| `uniquacRepr` | `UNIQUAC.__repr__` (`uniquac.py` 664-668). |
| `missing` | `missing_interaction_parameters` of NRTL and Wilson (`nrtl.py` 848-876, `wilson.py` 912-938), and with one matrix of `RegularSolution` (`regular_solution.py` 669-677). |
| `handed` | The values that `to_T_xs` hands on at the same temperature (`nrtl.py` 781-817; `wilson.py` 890-909, `uniquac.py` 790-806 with their names). |
| `toTxs` | `to_T_xs` (`nrtl.py` 749-820, `wilson.py` 856-910, `uniquac.py` 754-807). |
| `fromDDBST` | `Wilson.from_DDBST` (`wilson.py` 667-675) as the coefficients of one pair, `Rg` being one without the conversion of units. |
| `ddbst` | The documented meaning of the parameters (`wilson.py` 610-616). |

## Verif/Activity/NRTL.lean

The NRTL model (`thermo/nrtl.py` 66-464, 1858-2141)

| definition | source |
|---|---|
| `taus` | `nrtl_taus` (103-125). |
| `dtaus_dT` | `nrtl_dtaus_dT` (127-146). |
| `d2taus_dT2` | `nrtl_d2taus_dT2` (148-169). |
| `d3taus_dT3` | `nrtl_d3taus_dT3` (171-191). |
| `alphas` | `nrtl_alphas` (193-204); when all `d` are zero the code uses `c` itself (1052-1053). |
| `Gs` | `nrtl_Gs` (206-217). |
| `dGs_dT` | `nrtl_dGs_dT` (219-233). |
| `d2Gs_dT2` | `nrtl_d2Gs_dT2` (235-252). |
| `d3Gs_dT3` | `nrtl_d3Gs_dT3` (254-277). |
| `xjG` | `nrtl_xj_Gs_jis` (301-310), and the first sum of `nrtl_xj_Gs_jis_and_Gs_taus_jis` (285-291). |
| `xjGtau` | `nrtl_xj_Gs_taus_jis` (312-321), and the second sum of `nrtl_xj_Gs_jis_and_Gs_taus_jis` (293-298), whose transposed product is `taus[j][i]*Gs[j][i]` (1253-1270). |
| `inv` | `xj_Gs_jis_inv` (1339). |
| `GE` | `nrtl_GE` (323-328). |
| `dGE_dT` | `nrtl_dGE_dT` (330-336). |
| `d2GE_dT2` | `nrtl_d2GE_dT2` (338-382). |
| `dGE_dxs` | `nrtl_dGE_dxs` (384-395). |
| `d2GE_dxixjs` | `nrtl_d2GE_dxixjs` (397-425). |
| `d2GE_dTdxs` | `nrtl_d2GE_dTdxs` (427-464). |
| `gammas` | `nrtl_gammas` (77-100). |
| `gammasFromArgs` | `nrtl_gammas_from_args` (66-75). |
| `NRTLgammas` | `NRTL_gammas` (2104-2141). |
| `clampTau` | `MIN_TAU_NRTL`, `MIN_ALPHA_NRTL` (1858-1859) and the clamps (1915-1922, 1962-1969). |
| `binary` | `NRTL_gammas_binaries` (1930-1957) for one data point with first mole fraction `x0`. |
| `binaryJac` | `NRTL_gammas_binaries_jac` (1978-2025) for one data point: the row of each activity coefficient, columns `tau12, tau21, alpha12, alpha21`. |

## Verif/Activity/RedlichKister.lean

Redlich–Kister excess properties (`thermo/redlich_kister.py`)

| definition | source |
|---|---|
| `innerLoop` | The loop over `k` in redlich_kister.py 98-103: returns `(inner, factor)`. |
| `excess` | `redlich_kister_excess_inner(N, N_terms, a_tensor, xs)` (58-106). |
| `reverse` | `redlich_kister_reverse` (49-55): every second coefficient changes sign. |
| `lookup` | The dictionary built from `zip(indexes, data)` (153): a later entry replaces an earlier one. |
| `build` | `redlich_kister_build_structure` for one-dimensional data (108-176), entry `[i][j]`. |
| `excessBinary` | `redlich_kister_excess_inner_binary` (247-278). |
| `Tcoeff` | One coefficient of `redlich_kister_T_dependence` (212-241) from its `N_T` temperature parameters; `none`: the function raises. `L` is `log(T)`. |
| `flatCoeff` | The `ai` of `redlich_kister_excess_binary` (291-302) from the flat coefficient list. |
| `excessBinaryFlat` | `redlich_kister_excess_binary(coefficients, x0, T, N_T, N_terms)` (280-305). |
| `reshape` | `redlich_kister_fitting_to_use` (307-314): the flat list reshaped. |

## Verif/Activity/Regress.lean

C149 — regression of binary interaction parameters

| definition | source |
|---|---|
| `flatten` | `xs_working.extend(xsi)` and `gammas_working.extend(gammasi)` over all data points (wilson.py 1681-1686, nrtl.py 1788-1793, uniquac.py 1783-1790, regular_solution.py 992-997). |
| `work` | The loops of the `*_gammas_binaries` functions: `pts = len(xs)//2`, reading `xs[2i]` and writing `calc[2i]`, `calc[2i+1]` (wilson.py 286-296). |
| `wilson` | wilson.py 1692-1693. |
| `nrtl` | nrtl.py 1815-1816, and 1800-1802 with `alpha12 = alpha21`. |
| `tauClamp` | uniquac.py 1822-1838 with the clamp 1824-1827. |
| `regular` | regular_solution.py 1011-1012; each data point has its temperature. |
| `nrtlSymRow` | `jac_wrapped_for_leastsq` of a symmetric NRTL fit (nrtl.py 1804-1812): `none` fits the common `alpha`, `some` keeps it. |
| `regularSymRow` | `jac_wrapped_for_leastsq` of a symmetric regular solution fit (regular_solution.py 1007-1008). |
| `doubled` | The loop over the starting points of the Wilson and UNIQUAC models (wilson.py 1721-1723, uniquac.py 1812-1814): each is followed up by the exchanged one. |
| `doubledNe` | The same for the regular solution (regular_solution.py 1039-1042): only when the two differ. |
| `quadrupled` | NRTL (nrtl.py 1848-1855): `((tau12, tau21), (alpha12, alpha21))` with either or both pairs exchanged. |
| `Kind.params` | Number of fitted parameters (wilson.py 1699, nrtl.py 1821-1827, uniquac.py 1805, regular_solution.py 1017-1020). |
| `Kind.jac` | Required arguments of the function passed as `analytical_jac`: Wilson passes the wrapper made for it (1704), NRTL and the regular solution pass the general function (nrtl.py 1832: `xs` and four parameters; regular_solution.py 1025: `xs, Vs, SPs, Ts` and two parameters), UNIQUAC none (1807). Each of the general functions has one more optional argument. |
| `Kind.otherMethod` | `curve_fit(..., jac=analytical_jac)` of any method but `'lm'` without weights (fitting.py 822, 846) calls the function with `xs` and the parameters. |

## Verif/Activity/RegularSolution.lean

Regular solution, Flory-Huggins and Hansen models (`thermo/regular_solution.py`)

| definition | source |
|---|---|
| `His` | `regular_solution_His` (80-91). |
| `HiSums` | `regular_solution_Hi_sums_fast` (108-117); `regular_solution_Hi_sums` (94-106) is this with `His` written out. |
| `Aijs` | `regular_solution_Aijs` (119-128). |
| `GE` | `regular_solution_GE` (133-154). |
| `GEfromA` | `regular_solution_GE_from_Aijs` (156-162). |
| `dGE_dxs` | `regular_solution_dGE_dxs` (165-171). |
| `xV` | `xs*Vs` (580-588). |
| `sInv` | `xsVs_sum_inv` (593). |
| `gammasFromArgs` | `regular_solution_gammas` (174-213). |
| `d2GE_dxixjs` | `regular_solution_d2GE_dxixjs` (216-231). The code recomputes the entry of `His`. |
| `d3GE_dxixjxks` | `regular_solution_d3GE_dxixjxks` (233-257). |
| `fhGE` | `flory_huggins_GE` (259-273). |
| `fhdGE_dT` | `flory_huggins_dGE_dT` (275-284). |
| `fhd2GE_dTdxs` | `flory_huggins_d2GE_dTdxs` (286-300). |
| `fhStrip` | The excess Gibbs energy without the Flory-Huggins term, as recovered by the loops at 309, 329, 359. |
| `fhdGE_dxs` | `flory_huggins_dGE_dxs` (302-320). |
| `fhd2GE_dxixjs` | `flory_huggins_d2GE_dxixjs` (322-350). |
| `fhd3GE_dxixjxks` | `flory_huggins_d3GE_dxixjxks` (352-393). |
| `hansen` | `hansen_Aijs_His` (1520-1536). |
| `clamp` | The clamp of the binary parameters (1117-1124, 1154-1161). |
| `binary` | `regular_solution_gammas_binaries` (1132-1151) for one data point, with the cap `1e10` on the result. |
| `binaryJac` | `regular_solution_gammas_binaries_jac` (1168-1199) for one data point: the rows of both activity coefficients; the two columns (`lambda12`, `lambda21`) are equal. |
| `fhSpec` | Flory-Huggins: with the volume fractions `φ_i = x_i V_i/Σ x V`, `RT Σ x_i ln(φ_i/x_i)` is added; `φ_i/x_i` is written as `V_i/Σ x V` so that the expression is smooth at `x_i = 0` (`C54_volume_fraction`). |

## Verif/Activity/Unifac.lean

The UNIFAC model (`thermo/unifac.py` 3661-5157, 5480-8808): equations, temperature derivatives, limits

| definition | source |
|---|---|
| `invs` | `Theta_Psi_sum_invs` (6722). |
| `XsPure` | `unifac_Xs_pure` with `cmp_v_count_inv` (5541). |
| `lnGammasPure` | `unifac_lnGammas_subgroups_pure`; the groups of a component are those with a count that is not zero (5548-5563). |
| `Model` | Parameters of a model (5480-5569). |
| `psis` | Methods `psis`, `dpsis_dT`, `d2psis_dT2`, `d3psis_dT3` (5767-6012). |
| `th` | Methods `Thetas`, `Theta_Psi_sums`, `Fs`, `Gs`, `Hs` (6487-6849). |
| `lnG` | `lnGammas_subgroups` and derivatives (6970-7455) for area fractions `t`. |
| `r` | `lngammas_r` (7762-7796). |
| `dr` | `dlngammas_r_dT`, `d2lngammas_r_dT2`, `d3lngammas_r_dT3` (7798-7903). |
| `rsm` | `rs_34` (5520-5532), or `rs` for the versions without. |
| `comb` | `lngammas_c` (8371-8419); zero for version 3, where it is left out (`skip_comb`). |
| `GE` | `GE` (8005-8033). |
| `gammas` | `gammas` (8227-8269), `dgammas_dT` (8271-8301). |
| `Entry` | What a table of interactions holds for a pair of main groups (3355-3429): one number or three. |
| `psiFn` | `UNIFAC_psi` (3661-3736): the bare `except` also covers an entry of the other form. |
| `abc` | The parameters which `from_subgroups` (5441-5461) reads from an entry. |

## Verif/Activity/UnifacComp.lean

The UNIFAC model (`thermo/unifac.py` 4163-4333, 4395-4490, 4750-4870, 4940-5157): composition derivatives

| definition | source |
|---|---|
| `VS` | `cmp_v_count` (5534-5539). |
| `ws` | `unifac_ws` (4355-4367). |
| `dlnGammas_dxs` | `unifac_dlnGammas_subgroups_dxs` (4395-4410). |
| `d2lnGammas_dTdxs` | `unifac_d2lnGammas_subgroups_dTdxs` (4412-4449). |
| `d2lnGammas_dxixjs` | `unifac_d2lnGammas_subgroups_dxixjs` (4451-4490); entry `[i][j][k]`. |
| `dlngammas_r_dxs` | `unifac_dlngammas_r_dxs`, also used for `d2lngammas_r_dTdxs` (7971). |
| `dgammas_dns` | `unifac_dgammas_dns` (4966-4979). |
| `dTh` | `dThetas_dxs` (6524-6585). |
| `d2Th` | `d2Thetas_dxixjs` (6587-6661). |
| `Z` | `Theta_Psi_sum_invs` (6722). |
| `W` | `Ws` (6750). |
| `dlnGdx` | `dlnGammas_subgroups_dxs`, `d2lnGammas_subgroups_dTdxs`, `d2lnGammas_subgroups_dxixjs` (7010-7200). |
| `drdx` | `dlngammas_r_dxs`, `d2lngammas_r_dTdxs`, `d2lngammas_r_dxixjs` (7905-8003). |
| `dcdx` | `dlngammas_c_dxs`, `d2lngammas_c_dxixjs`, `d3lngammas_c_dxixjxks` (8489-8808), zero for version 3 (`skip_comb`). |
| `dGEdx` | `dGE_dxs`, `d2GE_dTdxs`, `d2GE_dxixjs` (8035-8156), `dgammas_dxs`, `dgammas_dns` (8303-8369). |

## Verif/Activity/UnifacObject.lean

C135: UNIFAC models as objects: construction from groups, stored results, copies at other states

| definition | source |
|---|---|
| `deps` | The results read by each method, in order. The third derivative of pure groups looks the inverse sums up and, when they are not stored, takes the bound method instead of calling it (7736-7739): it is not computed, the subscript at 4727 raises. |
| `partner` | The sum which a method stores along with its result (6040, 6183, 6332, 6477, 6514). |
| `fresh` | A new object (5569-5570). |
| `keptT` | Results handed on at the same temperature (5626-5661). |
| `keptX` | Results handed on at the same composition (5662-5737). |
| `toTXs` | `to_T_xs` (5572-5742). |
| `needs` | Names that need `rs_34`. |
| `groupList` | The sorted keys of all components (4015-4017, 5427-5436). |
| `groupMatrix` | `chemgroups_to_matrix` (4006-4020). |
| `sumOver` | The sums over the groups of one component (5414-5423); `none` is the `KeyError` of an unknown group. |
| `pairData` | The interaction of two groups (5445-5460). |
| `fromSubgroups` | The `from_subgroups` method (5411-5461) with the tables given. Tables are functions; entries are one number or three. |
| `choosePsi` | Which parameters are used (5501-5514); `none` is `ValueError`. |
| `cmpCount` | The group counts of a component and the lists of groups of components and components of groups (5534-5566). |
| `cmpCountInv` | Reciprocals of the counts for lists (5541); `none` is `ZeroDivisionError`. |
| `cmpGroups` | `cmp_group_idx` (5548). |
| `groupCmps` | `group_cmp_idx` (5556-5563). |

## Verif/Activity/Uniquac.lean

The UNIQUAC model (`thermo/uniquac.py` 62-446, 1822-2008)

| definition | source |
|---|---|
| `sumInv` | `rsxs_sum_inv` of `uniquac_phis` (67-71). |
| `phis` | `phis` of `uniquac_phis` (62-73); with `qs` for `rs` the surface fractions `thetas`. |
| `dphis` | `uniquac_dphis_dxs` (75-92); entry `[i][j]`. |
| `d2phis` | `uniquac_d2phis_dxixjs` (116-153); entry `[k][j][i]`. |
| `thetaTaus` | `uniquac_thetaj_taus_jis` (94-103). With `dtaus_dT` etc. for `taus` the derived sums (1253-1323). |
| `GE` | `uniquac_GE` (155-165). |
| `dGE_dT` | `uniquac_dGE_dT` (167-173). |
| `d2GE_dT2` | `uniquac_d2GE_dT2` (176-183). |
| `d3GE_dT3` | `uniquac_d3GE_dT3` (185-199). |
| `dGE_dxs` | `uniquac_dGE_dxs` (203-235). The coordination number is the literal 10 (line 205). |
| `d2GE_dTdxs` | `uniquac_d2GE_dTdxs` (237-307), with `qsxs = qs·xs` and `qsxsthetaj_taus_jis_inv = qs·xs/S` (1178-1206). |
| `d2GE_dxixjs` | `uniquac_d2GE_dxixjs` (309-425). |
| `gammasFromArgs` | `uniquac_gammas_from_args` (427-446). |
| `UNIQUACgammas` | `UNIQUAC_gammas` (1987-2008). |
| `binary` | `UNIQUAC_gammas_binary` (1840-1883). |

## Verif/Activity/Wilson.lean

The Wilson model (`thermo/wilson.py` 66-368, 1122-1273, 1726-1816)

| definition | source |
|---|---|
| `xjL` | `wilson_xj_Lambda_ijs` (66-75); also called with the derivatives of the parameters (1195, 1216, 1236). |
| `inv` | `xj_Lambda_ijs_inv` (1155). |
| `logL` | `log_xj_Lambda_ijs` (1172). |
| `GE` | `GE` (1267-1272). |
| `dGE_dT` | `wilson_dGE_dT` (77-84). |
| `d2GE_dT2` | `wilson_d2GE_dT2` (86-96). |
| `d3GE_dT3` | `wilson_d3GE_dT3` (98-121). |
| `d2GE_dTdxs` | `wilson_d2GE_dTdxs` (123-140). |
| `dGE_dxs` | `wilson_dGE_dxs` (142-151). |
| `d2GE_dxixjs` | `wilson_d2GE_dxixjs` (153-169). |
| `d3GE_dxixjxks` | `wilson_d3GE_dxixjxks` (171-194). |
| `gammas` | `wilson_gammas` (196-212). The code adds to the contents `buf` of the array handed in, which all callers leave at zero. |
| `gammasFromArgs` | `wilson_gammas_from_args` (214-221). |
| `WilsonGammas` | `Wilson_gammas` (1798-1816). |
| `minLambda` | `MIN_LAMBDA_WILSON` (223). |
| `clamp` | The clamp of a parameter (276-279, 338-341). |
| `binary` | `wilson_gammas_binaries` (286-296) for one data point with first mole fraction `x1`. |
| `binaryJac` | `wilson_gammas_binaries_jac` (348-367) for one data point: the rows of the two activity coefficients. |

## Verif/Chem/ConstantsPackage.lean

Packages of constants and correlations (`thermo/chemical_package.py`)

| definition | source |
|---|---|
| `nonVector` | `non_vector_properties` (509-531). |
| `properties` | `properties` (533). |
| `countAtoms` | `sum(i.values())` (1282); fails for `None` and for anything that is not a dictionary. |
| `init` | `__init__` (1027-1284): unknown keywords and missing molecular weights are `TypeError`; the lengths of the other lists are not looked at. |
| `asDict` | `as_dict` (552-559). |
| `add` | `__add__` (663-691); `isinstance` is the type. |
| `withNew` | `with_new_constants` (693-723): `new.update(kwargs)`. |
| `pick` | What `subset` (788-809) reads of one attribute; `idxs[0]` of an empty sequence is an `IndexError`. |
| `subset` | `subset` (726-811). |
| `Same` | Same object as far as `==` can tell (649-661). |
| `dictFrom` | `{CAS: i for i, CAS in enumerate(self.CASs)}` (893): insertions in order. |
| `compoundIndex` | `compound_index` (863-877). |
| `encCell` | One cell in `_custom_as_json` (563-569). |
| `decCell` | One cell in `_custom_from_json` (588-597). |
| `asJson` | `_custom_as_json` (561-580): empty lists of `non_vector_properties` are left out. |
| `roundTrip` | `as_json`, the text, `_custom_from_json` (582-597): attributes that are absent become lists of `None`. |
| `mass` | `x*1000.0/MW if x is not None else None` (178, 186, 189, 242, 251, 289, 293, 316, 326, 329). |
| `rho` | `1.0/V if V is not None else None` (213, 231, 232, 238). |
| `rhoMass` | `1e-3*MW/V if V is not None else None` (214, 233, 234, 239). |
| `truthy` | Lines 174-175: `if Vc`, so that zero counts as missing. |
| `Zc` | Lines 155-160: missing data and a division by zero are swallowed. |
| `HfSTP` | Lines 253-263. |
| `elemHS` | Lines 273-279: half of the molecule for diatomic elements. |
| `Gfg` | `Gibbs_formation` of `chemicals`: enthalpy and entropy less those of the elements; missing values are swallowed (285-288). |
| `Sfg` | Lines 291-292. |
| `Hc` | Lines 320-325: `hhv` is `HHV_stoichiometry` of the combustion reaction, which may fail. |
| `HcLower` | Lines 327-328: `LHV_from_HHV` adds the vaporization of the water formed. |
| `passed` | The names given to the constructor in `_from_IDs` (414-453). |

## Verif/Chem/CorrelationsPackage.lean

Packages of correlations (`thermo/chemical_package.py` 1457-1927, 122-490)

| definition | source |
|---|---|
| `defaultRows` | `__init__` (1734-1836), in the order of the code. |
| `fromIDsRows` | `_from_IDs` (161-163, 180-182, 208-210, 217-221, 236, 297-310, 387-390, 458-481), in the order of the code. |
| `pureNames` | `pure_correlations` (1547-1554). |
| `mixtureNames` | `mixture_correlations` (1555-1559). |
| `mixObjs` | Lines 1858-1899: mixture objects. |
| `mkCorr` | `__init__` (1715-1899). |
| `plus` | `a_dict[k] + b_dict[k]` (1676). |
| `add` | `__add__` (1666-1677): `None` cannot be added; `True + False` counts as true. |
| `atIndexes` | `atindexes` (1701-1704). |
| `subset` | `subset` (1679-1712). |

## Verif/Chem/Derived.lean

Derived constants of `Chemical` and where data come from (`thermo/chemical.py`, `thermo/database.py`)

| definition | source |
|---|---|
| `Ph` | Phase at 298.15 K and 101325 Pa; `none` where `identify_phase` gives `None`. |
| `Rec` | The attributes. `Hfmg` is the name written in 1272. |
| `elemental` | Lines 1124-1134: enthalpy and entropy of an atom of the element. |
| `entropy` | `(H - G)/298.15` (1146, 1308). |
| `found` | Lines 1060-1078. |
| `lower` | Lines 1089, 1155. |
| `first` | Lines 1060-1156. |
| `storeH` | `if Hfm is not None: self.Hfm = Hfm; self.Hf = ...` (1262-1264). |
| `storeHg` | Lines 1271-1273. |
| `adjustH` | Lines 1255-1275; `Hf_basis_converter` subtracts or adds the enthalpy of vaporization. |
| `storeS` | Lines 1285-1287. |
| `adjustS` | Lines 1277-1287; the branch of 1288-1296 needs an entropy of the liquid, which is never known here (1116). |
| `finish` | Lines 1302-1309. |
| `critical` | `Zc`, `rhoc`, `rhocm` (974-976). |
| `vaporization` | `Hvap_Tbm`, `Hvap_Tb`, `Svap_Tbm` (1206-1208). |
| `transition` | Entropy of fusion and of sublimation (1219, 1221). |
| `densities` | `rhoml_STP`, `rhol_STP` and the same at 60 F (1176-1182). |
| `densitiesSolid` | `rhoms_Tm`, `rhos_Tm` (1194-1195); `none` for the division by zero. |
| `triplePressure` | `Pt`, `Pt_source` (1053-1055). |
| `solidVolume` | `Vml_Tm` (1173) and the volume given to `VolumeSolid` as `Vml_Tt` (1190, also chemical_package.py 236). |
| `load` | Lines 231-236; `false` where a file is missing or not readable. |
| `setDbs` | `set_user_chemical_property_databases(paths)` (227-236). |
| `setOwn` | The same called with the list `loaded_user_db_paths` itself, which line 229 empties. |
| `firstOf` | The first database that has an entry (204-209). |
| `lookup` | `user_chemical_property_lookup` (202-222); `none` for `{}`. `lock` is `property_lock`, `compiled` the entry of `loaded_chemicals` with the default fit. |
| `context` | `with UserDatabaseContext(paths): body` (238-254): the state afterwards, and whether the body was run. An exception of the body is passed on after line 253. |
| `addProp` | Lines 123-136 for one property: `row = (...)`, `row.append(row)`; `none` is the exception of a tuple without `append`. |
| `written` | `marshal_properties` (147-164). |
| `readAs` | What lines 59-65 read the columns from 13 on as. |
| `row` | The row of one compound (109-138): twelve constants and the name, then the properties. |
| `marshal` | `marshal_json_data` (106-143). |
| `eosPures` | `eos_pures` (870-883): one equation of state for each component, `none` where the constants are missing. `mk` is the class; `now` the temperature and pressure of the mixture. |
| `setEos` | `set_eos` (847-852, chemical.py 1015-1020): the ideal gas where the class raises. |
| `speed` | `speed_of_sound` (2500-2514); `none` for a solid. |

## Verif/Chem/Electrolyte.lean

Aqueous electrolytes (`thermo/electrochem.py` 149-192, 197-966, 1056-1441)

| definition | source |
|---|---|
| `muW` | `Laliberte_viscosity_w` (197-234). |
| `muI` | `Laliberte_viscosity_i` (237-289); the coefficients `v1` to `v6` are `v 0` to `v 5`. |
| `muMix` | `Laliberte_viscosity_mix` (291-345). |
| `rhoW` | `Laliberte_density_w` (402-445). |
| `rhoI` | `Laliberte_density_i` (448-498). |
| `rhoMix` | `Laliberte_density_mix` (500-550). |
| `cpW` | `Laliberte_heat_capacity_w` (640-687); `sat` is `iapws95_Cpl_mass_sat`, `cheb` the Chebyshev fit. |
| `cpI` | `Laliberte_heat_capacity_i` (690-737). |
| `cpMix` | `Laliberte_heat_capacity_mix` (739-783). |
| `diluteConductivity` | `dilute_ionic_conductivity` (839-890). |
| `mcCleskey` | `conductivity_McCleskey` (894-966). |
| `magomedov` | `Magomedov_mix` (1056-1105). |
| `ionicStrength` | `ionic_strength` (1159-1201). |
| `kw1981` | `Kweq_1981` (1204-1258). |
| `kwGas` | `Kweq_IAPWS_gas` (1261-1304). |
| `iapws` | Those of `Kweq_IAPWS` (1361-1367). |
| `arcis` | Those of `Kweq_Arcis_Tremaine_Bandura_Lvov` (1429-1435). |
| `kwLiquid` | `Kweq_IAPWS` (1307-1374), `Kweq_Arcis_Tremaine_Bandura_Lvov` (1376-1441). |
| `Reader` | Functions that read the tables: those that load them first (lines 387, 589, 824, 994, 1044, and `__getattr__` 180-188), and `thermal_conductivity_Magomedov` (1107-1156). |
| `Row` | A row of `Laliberte_data`: coefficients of density (columns 3-7), viscosity (12-17) and heat capacity (22-27), missing where the first is `nan`. |
| `offeredVolume` | Lines 1136-1156 of `volume.py` and 1163-1183 of `viscosity.py`: every solute in the table and column 12 not `nan`. `rows` are those of the solutes. |
| `offeredHeatCapacity` | Lines 1475-1498 of `heat_capacity.py`: column 22. |
| `densityCoefs` | Coefficients read by `Laliberte_density` (589-597): `none` is a `nan` among them. |
| `validity` | `test_method_validity` of `viscosity.py` 1260-1268 and `thermal_conductivity.py` 735-741: `all` are the methods of the object, `special` the one for electrolytes, `fallback` the answer of the following lines. |
| `limits` | Limits of `ViscosityLiquidMixture` (`viscosity.py` 1189-1194) and `ThermalConductivityLiquidMixture` (`thermal_conductivity.py` 710-715). |

## Verif/Chem/Formation.lean

Formation properties at a temperature, absolute entropies (`thermo/chemical_utils.py`)

| definition | source |
|---|---|
| `Trans` | An entry of `standard_state_transitions` (150-171). |
| `transitions` | `standard_state_transitions` (150-171). |
| `shomate` | `shomate_gas_elements` (173). |
| `supported` | `standard_state_supported_elements` (174). |
| `Kind` | How an element is treated: the branches of 316-390. |
| `kind` | The branch an element takes (302-303, 316, 336, 371, 382, 385, 388); `none` is `NotImplementedError`. The branch for `S` is behind the test of 302, the one for liquids is for an empty name. |
| `transH` | Enthalpy of an element with melting and boiling point (322-334). |
| `transS` | Entropy of an element with melting and boiling point (322-335). |
| `whiteT` | Transitions of white phosphorus (341-344). |
| `Tab` | `T_alpha_beta_P` (338). |
| `Hab` | `Htrans_alpha_beta_P` (339). |
| `whiteH` | Enthalpy of phosphorus (350-370). |
| `whiteS` | Entropy of phosphorus (350-370). |
| `Kind.H` | Enthalpy of an element at `T`, from `Tref` (316-390). |
| `Kind.S` | Entropy of an element at `T`, from `Tref` (316-390). |
| `Compound.H` | `H_calc` (288, 391, 395). |
| `Compound.S` | `S_calc` (289, 392, 395). |
| `Compound.G` | `G_calc` (393, 395). |
| `maxCache` | `MAX_STANDARD_FORMATION_CACHE` (269). |
| `step` | Lines 271-283 with `cache=True`: the new cache and the reaction used. |
| `uncached` | Lines 271-283 with `cache=False`: `atoms_key` and the reaction have no value, an `UnboundLocalError`. |
| `crystal` | Lines 48-54. |
| `Path.fus` | Entropy of fusion (64-67). |
| `Path.vap` | Entropy of vaporization (82-85). |
| `absolute` | `standard_entropy` (48-94); `gas` is `force_gas`. |
| `resolve` | Arguments that may be missing: `chem` says whether a chemical is given. Lines 38-45: each missing one of the four is taken from the chemical; without one that is an `AttributeError`, `none`. |
| `convert` | `S0_basis_converter` (136-147); `none` is the `ValueError`. |
| `Attrs` | Attributes read and written; `Hfmg` is the attribute written in 1272. |
| `adjustH` | Lines 1253-1275 of chemical.py; `Hf_basis_converter` of `chemicals` adds or subtracts the enthalpy of vaporization. |
| `adjustS` | Lines 1277-1298 of chemical.py. |

## Verif/Chem/IonBalance.lean

Model of `balance_ions` (`/repo/thermo/electrochem.py` 1444-1791): C60

| definition | source |
|---|---|
| `Method` | `charge_balance_methods` (1444-1450); `other` is any other string. |
| `mainTot` | The list expression of line 1495. |
| `adjustOne` | `ion_balance_adjust_one` (1494-1503). |
| `dominantIndex` | The index chosen in `ion_balance_dominant` (1508-1529). |
| `proportional` | `ion_balance_proportional` (1533-1566). |
| `finishAdjust` | The check of the direction and the `return` (1486-1491); the index is `none` if the name it is read from was never assigned. |
| `adjustWrapper` | `ion_balance_adjust_wrapper` (1452-1491). |
| `start` | The composition the balance starts from (1715-1733). |
| `balanceFrom` | `balance_ions` (1706-1791) from a start composition. |
| `balanceIons` | `balance_ions` (1569-1791). |

## Verif/Chem/MixtureObj.lean

The class `Mixture` (`thermo/mixture.py`)

| definition | source |
|---|---|
| `Err` | Exceptions of lines 102-174: none of the compositions given, several given, wrong length, `len(None)`. |
| `recognise` | Lines 102-120. `look` is `mixture_from_any`, `none` when it raises; the branch of lines 116-120 cannot be reached. |
| `unpack` | Lines 123-165: the first composition that is given becomes a list; its keys become the identifiers. |
| `Args.given` | `(zs is not None) + …` of line 169. |
| `preprocess` | `preprocess_mixture_composition` (67-175) with `ignore_exceptions=False`. |
| `norm` | `zs if sum(zs) == 1 else [zi/sum(zs) for zi in zs]` (598). |
| `ofMole` | Mole and mass fractions from mole fractions (597-599). |
| `ofMass` | From mass fractions (600-602). |
| `ofVolume` | From volume fractions and molar volumes of the pure components (603-623); `Vfs_to_zs` of `chemicals` divides by the volumes as `ws_to_zs` does by molecular weights. |
| `vfVolumes` | The volumes of line 613 or 621: `v` the liquid volume of component `i`; `Vmls` are at the temperature and pressure of the chemicals. |
| `Vfls` | `Vfls` (1118-1142). |
| `flash` | `flash_caloric` (949-1026). The package answers `none` when its `status` is not true. Not covered: a package with neither `xs` nor `ys` (a `TypeError`), the reactive properties (972-986). |
| `assign` | The list `eos_in_a_box` of the class, its one element or nothing, and the assignments `mixtures[i].eos = e` in their order (550, 864-868). |
| `readEos` | `mixtures[i].eos` (854-862): `self.eos_in_a_box[0]`; `none` is an `IndexError`. |
| `blend` | Lines 2922-2924 and, with molar densities, 2941-2943. |
| `bulk` | `Vm` (2896-2907), `Cp`, `Cpm`, `SG`, `isobaric_expansion`: `'l/g'` is not one of the phases known to `phase_select_property`. Outer `none`: an exception. |
| `Um` | `Um` (1030-1039): `Vm` is read first. |
| `SGg` | `SGg` (2756-2772): `V` the molar volume of a gas of composition `ys` at 15.6 °C. |
| `ZSTP` | `Zl_STP`, `Zg_STP` (3195-3221): the volume and the conditions of now. |
| `expansion` | `isobaric_expansion_g`, `isobaric_expansion_l` (3002-3037): `dV` the derivative of the volume with temperature at a composition, `V` the volume. |
| `API` | `API` (3254-3269); `none`: `rho` is not bound. A volume of zero counts as missing. |
| `nugs` | `nugs` (2095-2108). |
| `elementMass` | `mass_fractions` (1360-1375) by element: `n i a` atoms of `a` in a molecule of `i`, `M a` atomic weights. |
| `properties` | `properties(copy_pures, copy_mixtures)` (3379-3411) and the attribute it leaves. |

## Verif/Chem/RefState.lean

Enthalpy and entropy of `Chemical` (`thermo/chemical.py` 795-813, 1316-1547)

| definition | source |
|---|---|
| `setRef` | Lines 1335-1344 with `K = I`, 1347-1356 with `K = J`; temperatures of zero, which count as missing, are left out. |
| `calcH` | `calc_H` (1396-1427); `none` is `None`. |
| `calcS` | `calc_S` (1469-1503). |
| `Pb` | The pressure of the boiling point (1372, 1376, 1531). |
| `excess` | `calc_H_excess` (1429-1447) with `l = Hl`, `g = Hg`; `calc_S_excess` (1449-1467) with `l = Sl`, `g = Sg`. The values stored in 1361-1385 are written out. |
| `setThermo` | `set_thermo` (1529-1547): `eH`, `eS` are the excess properties, `none` if they raise an exception; the first statement may raise one too (`root = false`). An exception leaves the remaining attributes as they were; adding to `None` is one. Mass properties are molar ones times `k`. |
| `calculate` | `calculate(T, P)` (795-813) with automatic calculation; the flag says whether a `ValueError` was raised. |
| `newRef` | A new reference state, `set_ref` (1317-1322). |
| `internal` | `Um`, `Am` (1550-1605): internal and Helmholtz energy from those available; a volume of zero counts as missing. |
| `helmholtz` | `Am` (1574-1583). |

## Verif/Chem/Sheets.lean

Data sheets and legal lists (`thermo/datasheet.py` 39-317, `thermo/law.py` 48-360)

| definition | source |
|---|---|
| `truthy` | A value Python takes for true: present and not zero (44, 45, 76, 77, ...). |
| `solidMin` | Lowest temperature of `tabulate_solid` (44-48). |
| `solidMax` | Highest temperature of `tabulate_solid` (49-53). |
| `fluidMin` | Lowest temperature of `tabulate_liq` and `tabulate_gas` (76-80, 128-132). |
| `fluidMax` | Highest temperature of `tabulate_liq` and `tabulate_gas` (81-85, 133-137). |
| `linspace` | `np.linspace(a, b, n)` (55, 87, 139). |
| `solidColumns` | Label of a column and attribute of `Chemical` of `tabulate_solid` (58-63). |
| `liquidColumns` | Columns of `tabulate_liq` (91-116). |
| `gasColumns` | Columns of `tabulate_gas` (143-163). |
| `frame` | The data frame (56-67, 88-120, 140-167): for every temperature the chemical at that temperature. |
| `fill` | A table filled row by row (182-225, 289-310). |
| `heats` | Heats in `tabulate_constants` (198-201) of a chemical with the molar heats of vaporization, fusion, sublimation and formation; `chem.Hf` is per mass (chemical.py 1080). |
| `Stream.quantity` | The quantity of a component in a stream (262-274): that of the first component with this CAS number, zero without one. |
| `ids` | `IDs[CAS]` (246-250): the name in the last stream that has the component. |
| `streamRows` | The rows of one quantity (289-310) for the CAS numbers in the order of the set (251). |
| `Method` | The lists (36-41). |
| `dslFlag` | `CAN_DSL_flags` (48-54); `none` is the `KeyError`. |
| `listed` | The branch for a list with no further data (232-246). |
| `tscaStatus` | The branch `TSCA` (223-231); `describe` is `TSCA_flags`. |
| `status` | One list (218-246); `none` is an exception. |
| `methods` | `methods` (213). |
| `publicMethods` | `legal_status_methods` (117). |
| `casNumber` | `CASi` (211-212): a missing one and zero are computed from the text. |
| `combinedStatus` | The loop of `COMBINED` (247-250). |
| `legalStatus` | `legal_status` (120-253): without a method all lists. |
| `File` | Files in the order they are read (86-100). |
| `load` | `load_law_data` (74-100): nothing is done when `TSCA_data` exists. |
| `bands` | `_ECHATonnageDict` after the lines of the file (273-285): the bands of a chemical. |
| `Eco` | Methods of `economic_status` (303-307, 331). |
| `ecoMethods` | `list_methods` (329-338). |
| `ecoStatus` | `economic_status` (341-360); `none` is the `KeyError`. |
| `afterAppend` | The table of bands after a caller appended `x` to the list returned by `economic_status`: with the method ECHA the list is that of the table (347), otherwise a new one (345, 351-357). |

## Verif/Data/Databases.lean

C163: databases of parameters: choice of a table, defaults, validation

| definition | source |
|---|---|
| `Table.get` | `get_parameter_specific` (429-432) and the end of `get_ip_specific` (212-215), once the table is known. |
| `Table.has` | `has_parameter_specific` (458-461). |
| `declaring` | `ScalarParameterDB.get_tables_with_type` (482-486): tables with a default for the parameter. |
| `ofType` | `InteractionParameterDB.get_tables_with_type` (235-239). |
| `scalarAuto` | `get_parameter_automatic` (511-512); an empty list is an `IndexError`. |
| `vector` | `get_parameter_vector` (540-546). |
| `twuMissing` | Defaults of `PRTwu_PinaMartinez.json` and `PRTwu_ibell_2018.json`. |
| `pina` | `PRTwu_PinaMartinez.json`, of which one row is kept; it has none for `100-06-1`. |
| `ibell` | `PRTwu_ibell_2018.json`, of which the row of `100-06-1` is kept. |
| `key` | The key for a list of components (172-175, 208-211), split at its spaces. |
| `getIp` | `get_ip_specific` (208-215). |
| `pairAuto` | `get_ip_automatic` (266-267). |
| `goodVal` | One assertion on a value (138-144). |
| `validate` | `validate_table` (124-144) for the keys of the table: true if no assertion fails. |

## Verif/Data/InteractionDB.lean

Interaction-parameter tables (`/repo/thermo/interaction_parameters.py`): C09, C47

| definition | source |
|---|---|
| `joinSp` | `' '.join(l)` (interaction_parameters.py 173-175, 209-211). |
| `Table` | One table with its metadata (interaction_parameters.py 63-65, 116-117): entries by key, the `missing` defaults and the `symmetric` flag. Parameter names are strings; a Python `dict` is a partial function. |
| `key` | The key of a list of CAS numbers (172-175, 208-211). `C` are CAS numbers with the order used by `chemicals.identifiers.sorted_CAS_key`, which returns the same numbers sorted increasingly; `txt` is their text. |
| `getIp` | `get_ip_specific` (208-215); `none` is the `KeyError` of a parameter without default. |
| `hasIp` | `has_ip_specific` (172-179). |
| `symCell` | Body of the double loop of `get_ip_symmetric_matrix` (301-307). |
| `symRow` | Inner loop, columns `0 … n-1` of row `i` (300). |
| `symRows` | Outer loop, rows `0 … n-1` (298-307). |
| `symMatrix` | `get_ip_symmetric_matrix` (269-308); `cas i` is `CASs[i]`. |
| `asymCell` | Body of the double loop of `get_ip_asymmetric_matrix` (341-345). |
| `asymRow` | Inner loop (340). |
| `asymRows` | Outer loop (338-345). |
| `asymMatrix` | `get_ip_asymmetric_matrix` (310-346). |

## Verif/Eos/Alpha.lean

C33: temperature derivatives of the attraction, equations of `eos.py`

| definition | source |
|---|---|
| `prPure` | `PR.a_alpha_pure` (7527-7528). |
| `prFull` | `PR.a_alpha_and_derivatives_pure` (7582-7593). |
| `prThird` | `PR.d3a_alpha_dT3_pure` (7629-7633). |
| `prsvPure` | `PRSV.a_alpha_pure` (8807-8811). |
| `prsvFull` | `PRSV.a_alpha_and_derivatives_pure` (8757-8775). |
| `prsv2Pure` | `PRSV2.a_alpha_pure` (9076-9081). |
| `prsv2Full` | `PRSV2.a_alpha_and_derivatives_pure` (9019-9047). |
| `rkPure` | `RK.a_alpha_pure` (9564-9566). |
| `rkFull` | `RK.a_alpha_and_derivatives_pure` (9539-9545). |
| `srkPure` | `SRK.a_alpha_pure` (9899-9902). |
| `srkFull` | `SRK.a_alpha_and_derivatives_pure` (9874-9879). |
| `apiPure` | `APISRK.a_alpha_pure` (10668-10669). |
| `apiFull` | `APISRK.a_alpha_and_derivatives_pure` (10653-10665). |
| `vdwPure` | `VDW.a_alpha_pure` (9245) and `VDW.a_alpha_and_derivatives_pure` (9227); `IG` (7249, 7265) is the case `a = 0`. |
| `prVec` | `PR_a_alphas_vectorized` (272-279). |
| `prVecFull` | `PR_a_alpha_and_derivatives_vectorized` (338-357). |
| `srkVec` | `SRK_a_alphas_vectorized` (399-405). |
| `srkVecFull` | `SRK_a_alpha_and_derivatives_vectorized` (465-484). |
| `rkVec` | `RK_a_alphas_vectorized` (522-524). |
| `rkVecFull` | `RK_a_alpha_and_derivatives_vectorized` (580-592). |
| `prsvVec` | `PRSV_a_alphas_vectorized` (638-647). |
| `prsvVecFull` | `PRSV_a_alpha_and_derivatives_vectorized` (740-773). |
| `prsv2Vec` | `PRSV2_a_alphas_vectorized` (821-832). |
| `prsv2VecFull` | `PRSV2_a_alpha_and_derivatives_vectorized` (964-1007). |
| `apiVec` | `APISRK_a_alphas_vectorized` (1048-1056). |
| `apiVecFull` | `APISRK_a_alpha_and_derivatives_vectorized` (1120-1139). |
| `prsvThird` | `PRSV` keeps the temperature dependent `kappa` as an attribute (8652) and inherits `PR.d3a_alpha_dT3_pure`, which reads it. |

## Verif/Eos/AlphaFns.lean

C33: temperature derivatives of the attraction, alpha functions

| definition | source |
|---|---|
| `Soave_1972_alpha` | `Soave_1972_alpha_pure` (1264-1266). |
| `Soave_1972_full` | `Soave_1972_a_alpha.a_alpha_and_derivatives_pure` (1421-1426). |
| `Harmens_Knapp_alpha` | `Harmens_Knapp_alpha_pure` (1271-1272). |
| `Harmens_Knapp_full` | `Harmens_Knapp_a_alpha.a_alpha_and_derivatives_pure` (1481-1486). |
| `Mathias_1983_alpha` | `Mathias_1983_alpha_pure` (1274-1276). |
| `Mathias_1983_full` | `Mathias_1983_a_alpha.a_alpha_and_derivatives_pure` (1512-1518). |
| `Mathias_Copeman_untruncated_alpha` | `Mathias_Copeman_untruncated_alpha_pure` (1278-1279). |
| `Mathias_Copeman_untruncated_full` | `Mathias_Copeman_untruncated_a_alpha.a_alpha_and_derivatives_pure` (1546-1551). |
| `Gibbons_Laughton_alpha` | `Gibbons_Laughton_alpha_pure` (1299-1300). |
| `Gibbons_Laughton_full` | `Gibbons_Laughton_a_alpha.a_alpha_and_derivatives_pure` (1716-1721). |
| `Soave_1984_alpha` | `Soave_1984_alpha_pure` (1302-1303). |
| `Soave_1984_full` | `Soave_1984_a_alpha.a_alpha_and_derivatives_pure` (1746-1751). |
| `Schwartzentruber_alpha` | `Schwartzentruber_alpha_pure` (1317-1318). |
| `Schwartzentruber_full` | `Schwartzentruber_a_alpha.a_alpha_and_derivatives_pure` (1890-1895). |
| `Soave_1993_alpha` | `Soave_1993_alpha_pure` (1323-1324). |
| `Soave_1993_full` | `Soave_1993_a_alpha.a_alpha_and_derivatives_pure` (2089-2094). |
| `Heyen_alpha` | `Heyen_alpha_pure` (1268-1269). |
| `Heyen_full` | `Heyen_a_alpha.a_alpha_and_derivatives_pure` (1451-1456). |
| `Yu_Lu_alpha` | `Yu_Lu_alpha_pure` (1305-1306). |
| `Yu_Lu_full` | `Yu_Lu_a_alpha.a_alpha_and_derivatives_pure` (1777-1782). |
| `Trebble_Bishnoi_alpha` | `Trebble_Bishnoi_alpha_pure` (1308-1309). |
| `Trebble_Bishnoi_full` | `Trebble_Bishnoi_a_alpha.a_alpha_and_derivatives_pure` (1804-1809). |
| `Melhem_alpha` | `Melhem_alpha_pure` (1311-1312). |
| `Melhem_full` | `Melhem_a_alpha.a_alpha_and_derivatives_pure` (1832-1837). |
| `Androulakis_alpha` | `Androulakis_alpha_pure` (1314-1315). |
| `Androulakis_full` | `Androulakis_a_alpha.a_alpha_and_derivatives_pure` (1862-1867). |
| `Gasem_alpha` | `Gasem_alpha_pure` (1326-1327). |
| `Gasem_full` | `Gasem_a_alpha.a_alpha_and_derivatives_pure` (2118-2123). |
| `Coquelet_alpha` | `Coquelet_alpha_pure` (1329-1330). |
| `Coquelet_full` | `Coquelet_a_alpha.a_alpha_and_derivatives_pure` (2150-2155). |
| `Haghtalab_alpha` | `Haghtalab_alpha_pure` (1332-1333). |
| `Haghtalab_full` | `Haghtalab_a_alpha.a_alpha_and_derivatives_pure` (2180-2185). |
| `Saffari_alpha` | `Saffari_alpha_pure` (1335-1336). |
| `Saffari_full` | `Saffari_a_alpha.a_alpha_and_derivatives_pure` (2209-2214). |
| `Chen_Yang_alpha` | `Chen_Yang_alpha_pure` (1338-1339). |
| `Chen_Yang_full` | `Chen_Yang_a_alpha.a_alpha_and_derivatives_pure` (2239-2244). |
| `Soave_1979_alpha` | `Soave_1979_alpha_pure` (1260-1262). |
| `Soave_1979_full` | `Soave_1979_a_alpha.a_alpha_and_derivatives_pure` (2509-2517). |
| `Twu91_alpha` | `Twu91_alpha_pure` (1256-1258). |
| `Twu91_full` | `Twu91_a_alpha.a_alpha_and_derivatives_pure` (1979-1994). |
| `Almeida_alpha` | `Almeida_alpha_pure` (1320-1321). |
| `Almeida_full` | `Almeida_a_alpha.a_alpha_and_derivatives_pure` (1924-1954), off the critical temperature. |
| `Almeida_raises` | The same method with Python's division: at the critical temperature `x11 = x5/(Tc**2*x3)` (1952) divides by zero and raises. |
| `Mathias_Copeman_alpha` | `Mathias_Copeman_original_alpha_pure` (1281-1287). |
| `above` | The branch above the critical temperature of `Mathias_Copeman_a_alpha` (1582-1590) and of `Mathias_Copeman_poly_a_alpha` (1687-1696). |
| `Mathias_Copeman_full` | `Mathias_Copeman_a_alpha.a_alpha_and_derivatives_pure` (1578-1595); the branch below the critical temperature has the expressions of the untruncated class. |
| `Mathias_Copeman_poly_pure` | `Mathias_Copeman_poly_a_alpha.a_alpha_pure` (1651-1662), equal to `a*Mathias_Copeman_alpha_pure` (1289-1297). The coefficients, highest power first, are the polynomial `p`; `alpha_coeffs[-2]` is its linear coefficient. |
| `Mathias_Copeman_poly_full` | `Mathias_Copeman_poly_a_alpha.a_alpha_and_derivatives_pure` (1665-1696). |
| `Poly_pure` | `Poly_a_alpha` (1375-1377, 1396). |

## Verif/Eos/Containers.lean

Lists and arrays in mixture equations of state (`thermo/eos_mix.py`)

| definition | source |
|---|---|
| `fugacities` | `fugacities` (1477-1485): the product of composition, pressure and coefficients. |
| `rk` | `RKMIX` (6526-6550); `c2R` and `k` are the class constants `c2R`, `c1R2_c2R`. |
| `pr` | `PRMIX` (6888-6901): the container of the critical temperatures decides. |
| `srk` | `SRKMIX` (8674-8700); `c1R2`, `c2R` are class constants. |
| `clamp` | The acentric factor within limits, as the list branches take it (8512, 9483). |
| `translations` | Default translations of `PRMIXTranslatedConsistent` (8508-8513) and `SRKMIXTranslatedConsistent` (9479-9484); `p`, `q` and `hi` are their numbers. In the array branch the reductions of numpy stand for elementwise limits. |
| `d2b` | `d2b_dninjs` (2765-2770): a constant matrix, entries of the last axis changed, transposed, and again. |
| `d3b` | `d3b_dninjnks` (2822-2830): axes exchanged as in `transpose((2, 1, 0))` and `transpose((0, 2, 1))`. |
| `attractionNp` | `a_alpha_and_derivatives_numpy` (1150-1187) from attractions, their derivatives and second derivatives. |
| `thirdMix` | `PRMIX.d3a_alpha_dT3` (6983-7041): the mean of the third derivatives of the components. |

## Verif/Eos/CubicRoots.lean

Volume solvers (`thermo/eos_volume.py`)

| definition | source |
|---|---|
| `coefB` | The dimensionless coefficients of the solvers (863-872, 1142-1151, 1201-1210, 1250-1259, 1308-1317, 1590-1601, and 362-372 for mpmath): `Z³ + b Z² + c Z + d`. |
| `pressure` | Pressure of the generic cubic equation of state (eos.py 306-354; the residual at 884 plus `P`). |
| `fval` | The residual of the iterative solvers (884, 778, 964, 983). |
| `fder` | Its slope (896-899, 968, 987; 586 in `volume_solutions_NR`). |
| `fder2` | Its curvature (900, 969, 988). |
| `mpmathFallback` | `volume_solutions_mpmath` (360-419) rebinds the name `b` to the polynomial coefficient at 370, before the recursive call (392), the starting values (395, 406) and the residual of the last resort `findroot` (408-409). This is the residual of the fallback. |
| `cbrt` | The real cube root with the sign split of the code (1625-1633, 1537-1547). |
| `depF` | `g` and `h` of the depressed cubic (1614-1616), for leading coefficient one. |
| `oneRoot` | The closed form of `high_alpha_one_root` (1603-1637) before its Newton polish, in terms of the coefficients; `none` stands for the returned zero of line 1619 (its second test `abs(g) > 1e152` is left out: it also returns zero). |
| `ddRoot` | `volume_solutions_doubledouble_float` (1513-1551), taking the double-double operations as exact: line 1518 multiplies `-3 b` by `-3 c`, and line 1543 tests the temperature instead of `Tr`, so that the cube root is taken of `Tr` itself (its real cube root here) for positive temperatures. The result is `x1`; `none` when `h ≤ 0`. |
| `fast` | `volume_solutions_fast` (1049-1094) (and `volume_solutions_sympy` 251-284, which is the same formula): `none` stands for the division by zero at 1089 when the cube root vanishes. |
| `halley` | One Halley step (902-910; also 971-974, 990-993). |
| `bracket` | The bracket update of iteration `j` (885-895). |
| `hstep` | One iteration of `volume_solutions_halley` (880-924). Not modelled: the poles inside the iteration (`V = b`, excluded by the bracket). |
| `hinit` | The start (875-879). |

## Verif/Eos/Departure.lean

Pressure derivatives and departure functions (`thermo/eos.py`)

| definition | source |
|---|---|
| `x11of` | `x11` (319-323): the square root raises for negative arguments and the division for zero, and both are replaced by zero. |
| `main` | `main_derivatives_and_departures` (306-354). |
| `mainVDW` | `main_derivatives_and_departures_VDW` (357-394). |
| `eosLnphi` | `eos_lnphi` (436-446). |
| `Recip` | Reciprocal and cyclic derivatives (1436-1443); infinite values (a zero derivative) are not modelled. |
| `recip` | 1436-1443. |
| `hard` | `x12` (333): `2 x11 Re atanh(x11 (2V + δ))`. |
| `U_dep` | Departure of the internal energy as the code derives it from `H_dep` (4757). |
| `G_dep` | Departure of the Gibbs energy (1447). |

## Verif/Eos/DerivProps.lean

Derivative properties of a solved state (`thermo/eos.py` 4670-7084)

| definition | source |
|---|---|
| `d2T_dPdV` | `d2T_dPdV` (4804-4807), in the stored `dT_dP`, `d2P_dTdV`, `dP_dT`, `dP_dV`, `d2P_dT2`. |
| `d2V_dPdT` | `d2V_dPdT` (4843-4844). |
| `d2T_dP2` | `d2T_dP2` (4874-4875). |
| `d2V_dP2` | `d2V_dP2` (4902-4903). |
| `d2T_dV2` | `d2T_dV2` (4938-4943). |
| `d2V_dT2` | `d2V_dT2` (4992-4998). |
| `dP_drho` | `dP_drho` (5137), `drho_dP` (5157), `dT_drho` (5226), `drho_dT` (5270), `d2P_dTdrho` (5316), `d2T_dPdrho` (5338). |
| `d2P_drho2` | `d2P_drho2` (5179), `d2rho_dP2` (5203), `d2T_drho2` (5247), `d2rho_dT2` (5293), `d2rho_dPdT` (5363). |
| `dZ_dT` | `dZ_dT` (5071-5072), `dZ_dP` (5099). |
| `beta` | `beta` (4697), `kappa` (4717), `dbeta_dT` (6735-6737), `dbeta_dP` (6766-6769). |
| `d2P_dVdP` | `d2P_dVdP` (6871-6879), `d2P_dVdT_TP` (6931-6943), `d2P_dT2_PV` (6998-7008), `d2P_dTdP` (7054-7060). |
| `dH_dep_dT` | `dH_dep_dT` (5396-5407). |
| `dH_dep_dT_V` | `dH_dep_dT_V` (5454-5462). |
| `dH_dep_dP` | `dH_dep_dP` (5501-5506). |
| `dH_dep_dP_V` | `dH_dep_dP_V` (5549-5562). |
| `dS_dep_dT` | `dS_dep_dT` (5664-5677). |
| `dS_dep_dT_V` | `dS_dep_dT_V` (5734-5742). |
| `dS_dep_dP` | `dS_dep_dP` (5784-5793). |
| `dS_dep_dP_V` | `dS_dep_dP_V` (5838-5847). |
| `phi` | `fugacity` (4624-4626), `phi` (4650-4652); the overflow guards are not modelled. |
| `dfugacity_dT` | `dfugacity_dT` (6566-6571). |
| `dfugacity_dP` | `dfugacity_dP` (6611-6614). |
| `dphi_dT` | `dphi_dT` (6661-6665). |
| `dphi_dP` | `dphi_dP` (6700-6704). |
| `d2H_dep_dT2` | `d2H_dep_dT2` (6007-6025). |
| `d2S_dep_dT2` | `d2S_dep_dT2` (6137-6169). |
| `d2H_dep_dT2_V` | `d2H_dep_dT2_V` (6215-6225). |
| `d2S_dep_dT2_V` | `d2S_dep_dT2_V` (6286-6302). |
| `d2H_dep_dTdP` | `d2H_dep_dTdP` (6378-6396). |
| `d2S_dep_dTdP` | `d2S_dep_dTdP` (6514-6548). |

## Verif/Eos/Discriminant.lean

C37: the discriminant of the compressibility cubic and its zeros

| definition | source |
|---|---|
| `discriminant` | `GCEOS.discriminant` (3923-3945). `T` is the temperature of the object; a given temperature only changes `a_alpha` (3929-3930). |
| `quartic` | Coefficients of the quartic in pressure (4102-4164), highest power first. |
| `validP` | The filter for `valid=True` in `GCEOS.P_discriminant_zeros_analytical` (4173-4177): real parts of all roots with non-negative real part. |
| `validT` | The filter for `valid=True` in the `T_discriminant_zeros_analytical` methods (9328, 9712). |
| `zeroErr` | The residual and slope of `_P_discriminant_zero` (4187-4217). |
| `vdwCubicT` | `VDW.T_discriminant_zeros_analytical` (9312-9321): cubic in temperature. |
| `vdwCubicP` | `VDW.P_discriminant_zeros_analytical` (9384-9388): cubic in pressure. |
| `rkPoly` | `RK.T_discriminant_zeros_analytical` (9677-9705): polynomial in `√T`; `a` is `self.a*Tc**0.5`. |

## Verif/Eos/LnPhi.lean

Fugacity coefficients of mixtures (`thermo/eos_mix_methods.py`)

| definition | source |
|---|---|
| `dVdzs` | `eos_mix_dV_dzs` (744-781). |
| `dHelper` | `G_dep_lnphi_d_helper` (784-833). |
| `lnphisGeneral` | `eos_mix_lnphis_general` (1351-1368). |
| `prLnphis` | `PR_lnphis` (1284-1316); `buf` is the list passed in. The early exit is inside the loop (1310-1312), so only the first entry is written. |
| `srkLnphis` | `SRK_lnphis` (1318-1336). |
| `vdwLnphis` | `VDW_lnphis` (1338-1349). |
| `rkFastest` | `RK_lnphis_fastest` (1413-1431) after the choice of the volume. |
| `prtFastest` | `PR_translated_lnphis_fastest` (1434-1455) after the choice of the volume. |
| `srktFastest` | `SRK_translated_lnphis_fastest` (1458-1479) after the choice of the volume. |
| `pickVolume` | The choice of the volume in `eos_mix_a_alpha_volume` (839-872). `V1 = 0` marks a single root; `G` is the Gibbs energy departure of a volume. |
| `lnPhi` | Logarithmic fugacity coefficient of a fluid at its molar volume: `Z - 1 - ln(P (V - b)/(R T)) - ∫ …`, for an equation with two distinct poles. `C32_lnphi` derives it from the departure functions. |

## Verif/Eos/MixClosed.lean

Closed-form derivatives of the fugacity coefficients of mixtures (`thermo/eos_mix.py`)

| definition | source |
|---|---|
| `prDT` | `PRMIX.dlnphis_dT` (7115-7203). `dZ`, `aT`, `rowsT` are the temperature derivatives of `Z`, `a_alpha` and its rows. The division by `x55` (7190) is never used but raises when `x55` is zero. |
| `prDP` | `PRMIX.dlnphis_dP` (7205-7259). |
| `prDZ` | `dZ_dxs` of `PRMIX.dlnphis_dzs` (7455-7486). |
| `prDE` | `dE_dxs` before mirroring (7508-7531). |
| `prDzs` | `PRMIX.dlnphis_dzs` (7401-7558): the entry of row `i` and column `k`. `A'` is `a_alpha_ijs`, `rows` is `a_alpha_j_rows`. |
| `srkDT` | `SRKMIX.dlnphis_dT` (8809-8883). |
| `srkDP` | `SRKMIX.dlnphis_dP` (8885-8939). |
| `vdwDT` | `VDWMIX.dlnphis_dT` (10230-10289); `ais` are the attraction parameters of the components. |
| `vdwDP` | `VDWMIX.dlnphis_dP` (10291-10345). |
| `generalDzs` | `GCEOSMIX.dlnphis_dzs` (5668-5694): `d2xs_to_dxdn_partials` of the second composition derivatives `d2` of the mixture logarithmic fugacity coefficient. |

## Verif/Eos/MixConstruct.lean

C133: constructors of the cubic equations of state of mixtures

| definition | source |
|---|---|
| `c1` | The class attribute `c1` (eos.py 7418, 9143, 9449, 9773). |
| `c2` | The class attribute `c2` (eos.py 7423, 9144, 9451, 9777). |
| `Env` | What does not belong to an object: the estimate of the coefficients of `MSRKTranslated` (eos.py 10275-10321) and the class attribute `kappa1_Tr_limit` (eos.py 8624). |
| `clamp` | `min(max(omega, -0.01), hi)`. |
| `kappa78` | `kappa` of `PR78` (eos.py 8070-8073). |
| `pureC` | The volume translation of a pure object: 0 by default (eos.py 8139, 8237, 10115, 10241), or from the acentric factor (8515-8516, 10509-10510). |
| `pureA` | `a` of a pure object (eos.py 7491, 8066, 8150, 8246, 8528, 8634, 8895, 9194, 9506, 9836, 10126, 10255, 10522, 10616, 10814, 10909). |
| `pureB0` | `b` of a pure object before translation (eos.py 7490, 8067, 8161, 8251, 8529, 8633, 8896, 9195, 9507, 9837, 10135, 10259, 10404, 10523, 10617, 10815, 10910). |
| `pureDelta` | `delta` of a pure object (eos.py 7493, 8068, 8165, 8254, 8532, 8635, 8897, 9507, 9839, 10141, 10262, 10526, 10618, 10816, 10911). |
| `pureEps` | `epsilon` of a pure object (eos.py 7493, 8068, 8166, 8255, 8533, 8636, 8898, 10143, 10263, 10527, 10817). |
| `mixA` | `ais` (e.g. 6546 and 8693, 9679, 10131). |
| `mixB0` | `b0s` (e.g. 6545, 7930). |
| `mixC` | `cs` (7933-7937, 8508-8513, 9044-9048, 9479-9484, 9682-9683). |
| `mixAlpha` | `alpha_coeffs` (8514-8520, 9486-9492, 9684-9687). |
| `mixS1` | `S1s` (11400-11406). |
| `mixK0` | `kappa0s` (10609, 10871). |
| `mixK1` | `kappa1s` of `PRSVMIX` (10622-10628). |
| `mixKappaT` | The attribute `kappas` (10631, 10891-10895). |
| `mixB` | `b` (e.g. 6551, 7957). |
| `mixDelta` | `delta` (e.g. 6551, 6904, 7958, 9089). |
| `mixEps` | `epsilon` (e.g. 6905, 7959, 9090). |
| `kept` | The keyword arguments kept (6280, 6534, 6880, 7951, 8355, 8522, 8682, 9056, 9494, 9689, 9988, 10119, 10595, 10852, 11089, 11245 and 11413, which replaces 11390). |
| `enough` | Acentric factors are optional for these classes (6264, 6518, 10106); for `APISRKMIX` (11398-11399) unless `S1s` is missing too. |
| `fast` | `_fast_init_specific` within `to_TP_zs_fast` (519-548): the sums at the new composition, the rest copied. |
| `again` | The arguments with which an object is built again (597 and the others): its constants and the keyword arguments kept. |
| `rebuild` | `to_TP_zs` and its relatives at a new state (597, 645, 699, 703, 767, 800). |
| `reloaded` | `_custom_from_json` (438-439): the keyword arguments are collected from the attributes named in `kwargs_keys` (6075, 6515, 6848, 7901, 8304, 8473, 8657, 9033, 9447, 9656, 10102, 10569, 10815, 11070, 11224, 11371). The attribute `kappa1s` is the one possibly limited. |
| `pureArgs` | The arguments of the pure constructor in `to_TPV_pure` (845-851). |
| `pureOf` | `to_TPV_pure` (845-851). |
| `subArgs` | The arguments `subset` collects (391-406): compositions divided by their sum. |
| `subset` | `subset` (391-407) given indexes, at a state: no component, fractions summing to zero, or a missing keyword are exceptions. |
| `specError` | Which of temperature, pressure, volume are given decides whether the constructor fails, and how: `check_sufficient_inputs` (10621, 11109, 11263, 11395), the division by critical temperatures of `PRSV2MIX` (10881-10893), the checks in `solve` (eos.py 1112-1149). Volumes and pressures are not zero. |

## Verif/Eos/MixDeparture.lean

Second derivatives of departure functions and fugacities of mixtures (`thermo/eos_mix.py`)

| definition | source |
|---|---|
| `dH` | `dH_dep_dzs` (3607-3703). `x5**-0.5` raises at zero, then `x6 = 1e50`. |
| `dS` | `dS_dep_dzs` (3705-3739). |
| `d2G` | `_d2_G_dep_lnphi_d2_helper` (4277-4343), entry `i`, `j`. |
| `d2A` | `_d2_A_dep_d2_helper` (4676-4751), entry `i`, `j`; `none`: `sqrt` or the division raises. |
| `dAVt` | `dA_dep_dns_Vt` (4775-4845); `none`: `x8**-0.5` raises at zero (a negative number gives a complex one, left out). |
| `d2AVtEntry` | `d2A_dep_dninjs_Vt` (4849-4931): the entry computed for `j ≤ i`. |
| `d2AVt` | `d2A_dep_dninjs_Vt` (4875-4931): the entries for `j ≤ i` are computed and mirrored; `none`: `sqrt` or the division raises. |
| `fugacityCoefficients` | `fugacity_coefficients` (4229-4274): the stored fugacity coefficient is that of the liquid if `Z` is the liquid's; a nonpositive one has no logarithm. `none`: no liquid. |
| `dFug` | `dfugacities_dns` (4566-4629), entry `i`, `j`. |
| `dLnFug` | `dlnfugacities_dns` (4519-4564), entry `i`, `j`. |
| `dlnphisdP` | `dlnphis_dP` (5432-5541); `x6 = dV_dP`, `x4 = d2V_dPdns[i]`; `1/x15` raises at zero, then `1e50`. |
| `dGdP` | `dG_dep_dP` of `dlnphis_dP` (5480): from the stored derivatives of the departures. |
| `dGdT` | `dG_dep_dT` of `dlnphis_dT` (5592-5593). |
| `dlnphisdT` | `dlnphis_dT` (5544-5666); `x9 = dV_dT`, `x2 = d2V_dTdns[i]`. |

## Verif/Eos/MixDerivs.lean

Composition derivatives of the equation of state parameters

| definition | source |
|---|---|
| `dbDns` | `eos_mix_db_dns` (876-881), `GCEOSMIX.db_dns` (2678-2699), `RKMIX.ddelta_dns` (6673-6691). |
| `d2bDninjs` | `GCEOSMIX.d2b_dninjs` (2745-2775), lists. |
| `d3bDninjnks` | `GCEOSMIX.d3b_dninjnks` (2801-2840), lists. |
| `daDns` | `eos_mix_da_alpha_dns` (883-889), `GCEOSMIX.da_alpha_dns` (2911-2934). |
| `daDzs` | `GCEOSMIX.da_alpha_dzs` (2886-2908). |
| `dnaDns` | `GCEOSMIX.dna_alpha_dns` (2937-2960). |
| `d2aDzizjs` | `GCEOSMIX.d2a_alpha_dzizjs` (2963-2983). |
| `hessTerm` | One entry of the lower triangle in `GCEOSMIX.d2a_alpha_dninjs` (3029-3036). |
| `d2aDninjs` | `GCEOSMIX.d2a_alpha_dninjs` (2986-3039): each pair is computed once and written to both places. |
| `d3aDninjnks` | `GCEOSMIX.d3a_alpha_dninjnks` (3065-3104). |
| `rkD3delta` | `RK_d3delta_dninjnks` (891-905). |
| `prDdeltaDzs` | `PR_ddelta_dzs` (907-912). |
| `prDdeltaDns` | `PR_ddelta_dns` (914-920). |
| `prDepsDns` | `PR_depsilon_dns` (922-929). |
| `prD2delta` | `PR_d2delta_dninjs` (931-942). |
| `prD3delta` | `PR_d3delta_dninjnks` (944-958). |
| `prD2epsDz` | `PR_d2epsilon_dzizjs` (961-971). |
| `prDepsDzs` | `PR_depsilon_dzs` (973-980). |
| `prD2eps` | `PR_d2epsilon_dninjs` (984-1001). |
| `prD3eps` | `PR_d3epsilon_dninjnks` (1004-1026). |
| `prtDdeltaDzs` | `PR_translated_ddelta_dzs` (1030-1035). |
| `prtD2epsDz` | `PR_translated_d2epsilon_dzizjs` (1037-1048); row `j`, column `i`. |
| `prtD2eps` | `PR_translated_d2epsilon_dninjs` (1050-1070). |
| `prtDdeltaDns` | `PR_translated_ddelta_dns` (1072-1077). |
| `srktDdeltaDns` | `SRK_translated_ddelta_dns` (1079-1084). |
| `srktDdeltaDzs` | `SRKMIXTranslated.ddelta_dzs` (eos_mix.py 9116-9135). |
| `srktDepsDns` | `SRK_translated_depsilon_dns` (1087-1095). |
| `srktDepsDzs` | `SRK_translated_depsilon_dzs` (1097-1104). |
| `srktD2epsDz` | `SRK_translated_d2epsilon_dzizjs` (1106-1118). |
| `srktD2delta` | `SRK_translated_d2delta_dninjs` (1121-1134). |
| `srktD3delta` | `SRK_translated_d3delta_dninjnks` (1136-1149). |
| `srktD2eps` | `SRK_translated_d2epsilon_dninjs` (1151-1166). |
| `srktD3eps` | `SRK_translated_d3epsilon_dninjnks` (1168-1193). |
| `prtDepsDzs` | `PR_translated_depsilon_dzs` (1195-1204). |
| `prtDepsDns` | `PR_translated_depsilon_dns` (1206-1215). |
| `prtD2delta` | `PR_translated_d2delta_dninjs` (1217-1228). |
| `prtD3delta` | `PR_translated_d3delta_dninjnks` (1230-1245). |
| `prtD3eps` | `PR_translated_d3epsilon_dninjnks` (1248-1278). |

## Verif/Eos/MixEquil.lean

C107: critical point, stability and two phase calculations of a mixture equation of state

| definition | source |
|---|---|
| `crit` | `_mechanical_critical_point_f_jac` (1302-1350). |
| `guessP` | The guesses (1404-1407). |
| `testY` | `zs_test` (2192-2195). |
| `total` | `sum_zs_test` (2197). |
| `testComp` | `zs_test_normalized` (2198). |
| `corr` | `corrections` (2216-2219). |
| `errC` | `err` (2222-2223). |
| `trial` | `stabiliy_iteration_Michelsen` (2188-2241) from the reference on; `none` is `UnconvergedError` (or, without iterations, a variable without value). |
| `decision` | Decision (2278-2313) from phase failures, trivial results and totals that are not greater than one. |
| `passes` | `g_pass`, `l_pass` (2285-2296): no second phase found by a trial. |
| `stability` | `stability_Michelsen` (2243-2328) for an object of composition `ref`. |
| `bubble` | The loop of `_V_over_F_bubble_T_inner` (2339-2352): fraction and the vapor composition at which the last `Ks` were evaluated. |
| `dew` | The loop of `_V_over_F_dew_T_inner` (2366-2382) for a step of the iteration: the tolerance is compared to a constant, not to the error. |
| `extras` | First success in `Ks_extra`; `true` if an exception was handled before (which unbinds the name `e`, 1978-1983). |
| `ssStart` | Lines 1972-1985. |
| `err3` | `err3` (2121-2129). |
| `ssRun` | The loop (1991-2164); `near` is `near_critical`. |

## Verif/Eos/MixRule.lean

C38, C39: the van der Waals mixing rule

| definition | source |
|---|---|
| `aijs` | `a_alpha_aijs_composition_independent` (177-197): the loop over `j in range(i, N)`. A failed division writes one of the two entries of the inverse only. |
| `aAlpha` | `a_alpha_and_derivatives` (210-221), the value. |
| `fullA` | `a_alpha_and_derivatives_full`: the value (361-368). |
| `dij` | `da_alpha_dT_ij` (397-404). |
| `d2ij` | `d2a_alpha_dT2_ij` (411-415). |
| `fullSum` | `a_alpha_and_derivatives_full`: accumulation of a pair quantity (386-425). |
| `fullMat` | `a_alpha_and_derivatives_full`: the matrix of a pair quantity (370-372, 386-416). |
| `quadTerms` | `a_alpha_quadratic_terms` (494-520). |
| `quadInner` | The inner loop (682-722). |
| `quadOuter` | The outer loop (670-735). |
| `quadDeriv` | `a_alpha_and_derivatives_quadratic_terms` (661-739). |
| `rowsOf` | `_a_alpha_j_rows` (2463-2468) from the matrix. |

## Verif/Eos/MixSecond.lean

Second and third composition derivatives of volume and pressure (`thermo/eos_mix.py`)

| definition | source |
|---|---|
| `d2V` | `_d2V_dij_wrapper` (eos_mix.py 3364-3435), entry `i`, `j`. |
| `dP` | `dP_dns_Vt` (3765-3806). |
| `d2PEntry` | `d2P_dninjs_Vt` (3809-3878), the value computed for `j ≤ i`. |
| `d2P` | `d2P_dninjs_Vt`: each pair is computed once and written to both places (3877). |
| `d3PWith` | `d3P_dninjnks_Vt` (3880-3970), entry `i`, `j`, `k`; `x1 = 1` is left out. `l` is the index of `ε` in `x28` (3939), which belongs to the third variable. |
| `d3P` | `d3P_dninjnks_Vt`: the code takes `ε_j` in `x28` (3939). |
| `Main` | Derivatives along the composition: the five lists of `_d_main_derivatives_and_departures_dnx` (5065-5130). |
| `mainDn` | `_d_main_derivatives_and_departures_dnx` (5065-5130), entry `i`. |
| `More` | The further derivatives of `_dnz_derivatives_and_departures` (5203-5298). |
| `moreDn` | `_dnz_derivatives_and_departures` (5203-5298), entry `i`: `p` are the derivatives of the pressure, `VT` that of the volume, `d` those along the composition. |
| `dScomp` | `dScomp_dns` (4976-4991). |
| `d2Scomp` | `d2Scomp_dninjs` (4993-5019). |
| `dVdns` | `dV_dns` (3312-3335). |
| `dZdzs` | `dZ_dzs` (3531-3555). |

## Verif/Eos/MixState.lean

C106: stored attraction terms of a mixture and states derived from it

| definition | source |
|---|---|
| `pures` | `a_alpha_and_derivatives`, the pure components (1042-1062). |
| `mixed` | `a_alpha_and_derivatives`, the mixture (1064-1079); the derivatives are only returned if `full`. |
| `solve` | `solve` (1151-1155) for an object with temperature and pressure. |
| `copied` | The copied terms (535-542): `a_alphas`, then inside `try` the roots and the derivatives, in this order. |
| `fast` | `to_TP_zs_fast` (519-551). |
| `fugacities` | `fugacities()` (1474-1497); `lnl`, `lng` are the logarithms of the fugacity coefficients of the two volumes, `fug` turns them into fugacities. |
| `chooseG` | The common part (1503-1510, 1519-1526): choose by Gibbs energy; if an attribute is missing, the vapour if there is one, else the liquid; `none` if that attribute is missing as well. |
| `fugacitiesLowest` | `_eos_fugacities_lowest_Gibbs` (1516-1529), the second attempt being the last. |
| `lnphisLowest` | `_eos_lnphis_lowest_Gibbs` (1501-1513). |
| `dnComp` | The composition at which `_dphi_dn` and `_dfugacity_dn` (1534-1538) evaluate: the fraction of component `i` replaced by `zi`. |
| `subsetZs` | `subset` (391-398) of a list of indices: the normalised fractions; `none` without components or with a zero total. |
| `subsetView` | `subset` of an object with array compositions and a slice (376-397): the selection is a view, and the division writes into the composition of the object it came from. More than one selected component raises at `if not zs` (393). The result is the composition of the object afterwards and the new one. |
| `mixPsat` | `Psat` (972-988): `pure` is the calculation of the class for pseudocritical constants; the argument `polish` is not passed on. |
| `toTPzs` | `to_TP_zs` (596-599) with respect to the restriction to one phase: an object has the phases it was solved for. `solved only_l only_g` are the phases (liquid, vapour) a new object would have. |

## Verif/Eos/ObjectState.lean

C105: specifications of an equation of state object and states derived from it

| definition | source |
|---|---|
| `sufficient` | `check_sufficient_inputs` (1098-1100). |
| `solve` | `solve` (1112-1157). |
| `specs` | `state_specs` (980-990), also the last part of `__repr__` (1014-1019): the keyword arguments. |
| `toTP` | `to_TP` (3644-3647). |
| `toTV` | `to_TV` (3678-3683). |
| `toPV` | `to_PV` (3714-3717). |
| `toState` | `to` (3753-3761). |
| `vdw` | A van der Waals fluid (`R = 1`, `b = 1`, `a = 36`). |
| `moreStable` | `more_stable_phase` (3831-3841); an absent attribute raises. |
| `aAlphaForV` | `a_alpha_for_V` (3538-3545). |
| `fugSat` | `fug` inside `a_alpha_for_Psat` (3583-3591). |
| `depSat` | `dH_dep_dT_sat_l/g`, `dS_dep_dT_sat_l/g` (3418-3503): the four functions share this expression; `X_P`, `X_T` are the derivatives of the departure of the phase. |

## Verif/Eos/PSRK.lean

The PSRK mixing rule (`thermo/eos_mix.py`)

| definition | source |
|---|---|
| `A` | `PSRKMixingRules.A` (5821). |
| `tot0` | `tot0` (5924, 5940). |
| `tot1` | `tot1` (5925, 5941). |
| `d1tot` | `d1tot` (5928). |
| `other` | `other` (5932). |
| `d2tot` | `d2tot` (5934-5936). |
| `aAlpha` | `a_alpha` (5944). |
| `daAlpha` | `da_alpha_dT` (5946). |
| `d2aAlpha` | `d2a_alpha_dT2` (5947-5948). |
| `bsOf` | The covolumes of the components and of the mixture as `__init__` sets them (9846-9853). |
| `bOf` | `b` (9845-9853). |
| `construct` | `PSRK.__init__` (9816, 9824, 9839-9843): the excess Gibbs model given is at `geT`, `geX`. |
| `evaluate` | `a_alpha_and_derivatives` (5890-5908): the updated object and where the data come from; `none` is `AttributeError`. |
| `evaluations` | The evaluations of `GCEOS.solve_T` (`thermo/eos.py` 1660-1671), with the default `pure_a_alphas`. |
| `solveT` | `PSRKMixingRules.solve_T` (5952-5959): `tried` are the temperatures tried and `T` the one returned. |
| `solvePV` | `GCEOS.solve` (`thermo/eos.py` 1112-1156): pressure and volume given (`tried`, `T` as in `solveT`). |
| `solveTP` | `GCEOS.solve` (`thermo/eos.py` 1118-1119, 1148-1154): temperature given. |
| `fast` | `to_TP_zs_fast` (519-551) with `_fast_init_specific` (9860-9862). Copying `a_alpha_roots` comes first (538); the PSRK rule never sets it, so the `try` block (537-542) ends there and the derivatives are not copied. |

## Verif/Eos/RootSelect.lean

Root selection and refresh of solved phases (`thermo/eos.py`)

| definition | source |
|---|---|
| `pipLimit` | The limit of `PIP` for a liquid (1450). |
| `setProps` | `set_properties_from_solution` (1432-1467): stores the liquid or the vapour attributes and returns the phase. |
| `scanStep` | The scan over the roots (1216-1228): smallest, largest, count. |
| `setFromPT` | `set_from_PT` (1211-1278); `none` stands for the raised `ValueError`. `critical` is the test at 1242-1244 (a pure component exactly at its critical point). |
| `resolveFull` | `resolve_full_alphas` (1159-1165). |
| `solveMissing` | `solve_missing_volumes` (1167-1180). |
| `pipVdW` | The phase identification parameter by its formula (338-345, 1437-1448) with van der Waals-like parameters `δ = ε = 0` and `R = 1`. |

## Verif/Eos/SatDrivers.lean

The solver drivers of equations of state (`thermo/eos.py`)

| definition | source |
|---|---|
| `secantCalls` | The two calls of `secant` (1702-1715): guess and `f0`; the second one, tried after a failure of the first, has the other guess but the same `f0`. |
| `extraBounds` | The intervals for a second solution in `T_brenth` (1722-1728) and in `T_secant` (1737-1743, whose first test is never met). |
| `second` | Lines 1720-1750: the second solution, if one is to be chosen. |
| `choose` | Lines 1758-1776: which of the two is returned. |
| `solveT` | `GCEOS.solve_T` (`thermo/eos.py` 1630-1776): `none` for an exception, `some none` for the result `None`. |
| `para` | A parabola with roots 100 and 400, an exact `brenth` for it and a secant from below. |
| `bisectF` | `to_solve_bisect` (`thermo/eos.py` 3026-3040). |
| `newtonF` | The error of `to_solve_newton` (2969-2999): `none` where it raises. |
| `ranges` | The intervals of line 3041. |
| `bracket` | The loop over points (3064-3079) up to the bracket. |
| `polish` | The polishing of `Psat` (2962-3088) from the estimate `P0`: the results of `newton`, of `bisect` at bounds and tolerance, and of `brenth` at bounds; `none` for `ValueError`. |
| `newtonStep` | One step of Newton's method with the guarded derivative (2988-2999). |
| `psat` | `Psat(T, polish, guess)` as a whole (2917-3088), with the polishing as a function of the estimate. |
| `guessT` | The first guess (2802). |
| `tsat1` | The first part of `Tsat` (2809-2835): `.inl` a returned temperature, `.inr` the guess with which to go on. |
| `tsat2` | The second part (2836-2868); `low` and `high` are from the original guess. `F` is the error of the fugacities. |
| `tsat` | `Tsat` (`thermo/eos.py` 2731-2868). |

## Verif/Eos/Saturation.lean

C58: saturation properties of pure substances

| definition | source |
|---|---|
| `hornerBoth` | The loop of `dPsat_dT` (3177-3180): value and slope. |
| `polyder` | `polyder(coeffs[::-1])[::-1]` (7461, 9167, 9482, 9806): coefficients of the derivative. |
| `pick` | Selection of the coefficient list (2942-2946, 3174-3178): the first range above `x`, the last one if there is none. |
| `Corr.x` | `x = alpha/Tr - 1` (2923). |
| `Corr.psat` | `Psat(T, polish=False)` (2917-2950); `none` for `NoSolutionError`. |
| `Corr.dpsat` | `dPsat_dT(T, polish=False)` (3139-3189). |
| `dpsatPolished` | `dPsat_dT(T, polish=True)` (3132-3134). |
| `dphiSat` | `dphi_sat_dT` (3268-3273). |
| `hvap` | `Hvap` (3395). |
| `phiSat` | `phi_sat(T, polish=False)` between 0.32 and 1 (3234-3236). The coefficients are those of the untranslated class: `PRTranslated` and `SRKTranslated` inherit `phi_sat_coeffs`. |

## Verif/Eos/SolveT.lean

C34, C35: temperature from pressure and volume; the largest pressure at a volume

| definition | source |
|---|---|
| `srkSolveT` | `SRK.solve_T` (10011-10048); `none` for the complex result. |
| `prClosed` | The two closed-form values of `PR.solve_T` (7733-7807): `T_calc` and `T_calc_high`. |
| `prErr` | The residual and its derivative in `PR.solve_T` (7811-7831). |
| `prSolveT` | `PR.solve_T` (7733-7831): the fallback `generic` is `GCEOS.solve_T`; `gas` is `solution == 'g'`. A division by zero is `none`. |
| `vdwSolveT` | `VDW.solve_T` (9272). |
| `igSolveT` | `IG.solve_T` (7292). |
| `srkPmax` | `SRK.P_max_at_V` (9943-9951). |
| `prPmax` | `PR.P_max_at_V` (7672-7680). |
| `ppjpSolveT` | `SRKTranslatedPPJP` (10325-10408) subclasses `SRK`, not `SRKTranslated`, and so uses `SRK.solve_T` although its `delta = 2c + b0`, `epsilon = c(b0 + c)` and `b = b0 - c` differ from those of `SRK`. |
| `prsvRes` | `PRSV.solve_T.to_solve` (8684-8697). |
| `prsv2Res` | `PRSV2.solve_T.to_solve` (8951-8960). |
| `apiRes` | `APISRK.solve_T.to_solve` (10706-10712). |
| `prsvPmax` | `PRSV` and `PRSV2` inherit `PR.P_max_at_V`, with the `kappa` computed for the temperature of the object (8652). |

## Verif/Eos/SolveTRK.lean

C34: temperature of the Redlich-Kwong equation from pressure and volume

| definition | source |
|---|---|
| `rkClosed` | `RK.solve_T`, the closed form (9600-9601, 9622-9627). |
| `rkBase` | The base of `x6` (9611). |
| `rkSolveT` | `RK.solve_T` (9603-9633); `generic` is `GCEOS.solve_T`. The division by `x6` (9613) is outside of the `try`: `none` if it raises or `generic` does. |

## Verif/Eos/Transitions.lean

Searches for transitions of a cubic equation of state

| definition | source |
|---|---|
| `search` | `for g in guesses: try: x = attempt(g); assert ok(x); break; except: pass` (4440-4448, 4495-4503, 4307-4335). The variable `x` keeps an answer that was refused. The last argument is its content before; `none` at the end is an unbound variable. |
| `okT` | `assert T_disc > 0 and not T_disc == 1` (4445, 4500), also for pressures (4330). |
| `guessesL` | The guesses of `T_discriminant_zero_l` (4433-4435). |
| `guessesG` | The guesses of `T_discriminant_zero_g` (4488-4490). |
| `transitionsT` | `T_transitions` (403-407). |
| `bound` | The lower bound (4321-4327); the outer `none` is the unbound `Tr`. |
| `attemptP` | One attempt (4308-4330). |
| `above` | `P_disc > low_bound` (4331-4332, 4337-4338); comparing with `None` raises. |
| `okP` | The assertions within the loop (4330-4332). |
| `guessesP` | The guesses (4257-4269, 4303): first the polynomial, if used, then that of Wilson, the fixed ones, and the critical pressure. |
| `zeroP` | `_P_discriminant_zero` (4306-4370). |
| `critical` | The critical temperature: that of the object, or the mean of a mixture (4551-4554). |
| `pipErr` | The function solved (4558-4567): the liquid one if there is a liquid volume. |
| `pip` | `P_PIP_transition` (4551-4586); `bisect` is the answer between 1e-3 and 1e11 Pa. |
| `extrapolated` | `_V_g_extrapolated` (4590-4615) from the density and its slope at the pressure used and the density `r` of the pseudo-critical point; `at'` is the pressure at which the series is evaluated, which is `eos_low.P` in both places (4614). |

## Verif/Eos/Translation.lean

C36: volume translation

| definition | source |
|---|---|
| `pr` | `PR.__init__` (7490-7493). |
| `prTranslated` | `PRTranslated.__init__` (8161-8166). |
| `srkTranslated` | `SRKTranslated.__init__` (10135-10143). |
| `estimateMN` | `MSRKTranslated.estimate_MN` (10319-10320) after the two saturation temperatures and attractions are known. |

## Verif/Eos/Twu.lean

C33: the generalized Twu alpha function

| definition | source |
|---|---|
| `subC` | Lines 1189-1204: the constants below and from the critical temperature on. |
| `coef` | The choice made at lines 1190 and 1197; `pr` is `method == 'PR'`. |
| `remap` | Lines 1180-1187: very low reduced temperatures are mapped into `[4e-3, 5e-3)`. |
| `alpha` | Lines 1207-1209. |
| `pure` | Lines 1206-1213, `full=False`. |
| `core` | Lines 1215-1247 with the constants, the reduced temperature and the temperature already fixed. |
| `full` | Lines 1180-1253, `full=True`: below the remapping limit `T` is replaced by `Tc*Tr` (1187); values below the floor are replaced, with zero derivatives (1248-1250). |
| `documented` | The attraction function as documented (`eos.py` 10745-10765, 10840-10861), with its twelve constants. |

## Verif/Eos/VolumeResult.lean

C147: what the volume solvers return

| definition | source |
|---|---|
| `polishStep` | One Halley step without a test of its denominator (958-974, 977-993); `none`: division by zero. |
| `polishLoop` | The loop of `volume_solution_polish` (768-802) from iteration `j` on, with `n` iterations left; `old`, `oldold`: the last two residuals. |
| `polish` | `volume_solution_polish` (762-802). |
| `tail` | The end of `volume_solutions_halley` from its first volume (926-994). |
| `hrun` | The iterations (880-924) from `j` on with `n` left: the last value of `j` and the volume; `none`: division by a zero slope. |
| `highAlpha` | `high_alpha_one_root` (1589-1645); zero: it gave up. |
| `solve` | `volume_solutions_halley` (805-995). |
| `hornerDer` | `horner_and_der_as_error` (1564-1571). |
| `res` | The residual and slope over complex volumes (578-586). |
| `nrLoop` | Iterations for one root (574-591): `n` left, first guess `Vi`, the last residual and its relative size. `none`: division by zero. |
| `nrRoots` | The loop over the roots (570-607). A division by zero or a change by five percent ends it, keeping the volumes not treated. |
| `physical` | A volume that counts (631). |
| `After` | What follows (631-658). |
| `nr` | `volume_solutions_NR` (517-658) from a number of tries on; `n`: tries left. `form t`: the closed form of try `t` (542-549), `backup t`: the one used if it raises (555-560). |
| `lowLoop` | Iterations for one root at low pressure (709-723), over real volumes; `none`: division by zero. A zero slope leaves the volume in place. |
| `bracketed` | The volume found between brackets with its Newton step (727-747); `none`: `1j`. |
| `lowRoot` | One root at low pressure (706-756): gas for `i = 0`, liquid for `i = 1`. Inner `none`: `1j`. |
| `lowP` | `volume_solutions_NR_low_P` (660-760): gas and liquid; the third volume is always `1j`. |

## Verif/Equilibrium/Bulk.lean

The bulk of several phases (`thermo/bulk.py`, class `Bulk`)

| definition | source |
|---|---|
| `Ph` | The methods of a phase which `Bulk` calls (bulk.py 979-1424), as functions of `T` and `P`. |
| `wsum` | The loop `x = 0.0; for i in range(len(betas)): x += betas[i]*phases[i].f()` of every method (e.g. bulk.py 996-1001). |
| `Bk` | A bulk: phase fractions with phases (bulk.py 637-644). |
| `V` | bulk.py 979-1001 |
| `H` | bulk.py 1050-1073 |
| `S` | bulk.py 1075-1098 |
| `Cp` | bulk.py 1023-1048 |
| `dH_dP` | bulk.py 1100-1111 |
| `dS_dT` | bulk.py 1136-1147 |
| `dS_dP` | bulk.py 1118-1129 |
| `dG_dT` | bulk.py 1154-1165 |
| `dG_dP` | bulk.py 1167-1178 |
| `dU_dT` | bulk.py 1180-1191 |
| `dU_dP` | bulk.py 1193-1204 |
| `dA_dT` | bulk.py 1206-1217 |
| `dA_dP` | bulk.py 1219-1230 |
| `dP_dT` | bulk.py 1282-1309, the default of `dP_dT` (1456-1458) |
| `dP_dV` | bulk.py 1311-1338, the default of `dP_dV` (1474-1476) |
| `G` | Inherited from `Phase` (phase.py 1432-1452). |
| `U` | Inherited from `Phase` (phase.py 1456-1471). |
| `A` | Inherited from `Phase` (phase.py 1473-1488). |
| `Cv` | Inherited from `Phase` (phase.py 2349-2374); `Cp_minus_Cv` of `chemicals` is `-T*dP_dT**2/dP_dV`. |
| `dV_dT` | Inherited from `Phase` (phase.py 2722-2744). |
| `dV_dP` | Inherited from `Phase` (phase.py 2746-2763, with `dT_dP = 1/dP_dT`). |
| `volumeFractions` | The volume fractions of the phases (`betas_volume`, bulk.py 692-714), with the phases. |
| `kappaMole` | `kappa` with the default setting `MOLE_WEIGHTED` (bulk.py 1550-1571 and 748-763). |
| `expansionMole` | `isobaric_expansion` with the default setting `MOLE_WEIGHTED` (bulk.py 1527-1548 and 748-763). |
| `kappaDerivative` | `kappa` with the setting `FROM_DERIVATIVE_SETTINGS` (bulk.py 1569-1570; `-dV_dP/V`). |
| `equilibriumDerivative` | `_equilibrium_derivative` (bulk.py 1427-1443): a forward difference of a flash result `f` (the value of `of` as a function of the value of `wrt`, at the same value of `const`). |
| `speedEquilibrium` | The molar `speed_of_sound` by `EQUILIBRIUM_DERIVATIVE` (bulk.py 1618-1619), with the derivative of the pressure by the density at constant entropy. |
| `speedFiroozabadi` | The molar `speed_of_sound` by `FIROOZABADI_PAN` (bulk.py 1620-1623), with the derivative of the volume by the pressure at constant entropy. |
| `Ph.Ok` | The methods of a phase are what they are named after (proved for the phase classes in C61-C67). |

## Verif/Equilibrium/Getters.lean

Generated getters and composition averages of states, phases and bulks (`thermo/equilibrium.py`)

| definition | source |
|---|---|
| `atomMassFractions` | `atom_mass_fractions` (equilibrium.py 837-865) with `MW` (996-1019) |
| `atomFlows` | `atom_flows` (equilibrium.py 868-890) |
| `atomCountFlows` | `atom_count_flows` (equilibrium.py 892-909); `NA` is Avogadro's number. |
| `atomMassFlows` | `atom_mass_flows` (equilibrium.py 911-928) |
| `elementFraction` | The nested `try` blocks of `get_atom_fraction` and `get_atom_mass_fraction` (equilibrium.py 3481-3489, 3505-3513): the stored dictionary, or the dictionary computed by the method; a missing element is `0.0`. |
| `elementFlow` | `get_atom_mass_flow`, `get_atom_flow` (`c = 1`) and `get_atom_count_flow` (`c = N_A`) (equilibrium.py 3529-3537, 3553-3561, 3577-3585). |
| `partialPressure` | `get` of `_make_getter_partial_pressure` (equilibrium.py 3611-3619) |
| `componentMolarWeight` | `get` of `_make_getter_component_molar_weight` (equilibrium.py 3631-3639) |
| `pseudo` | `pseudo_Tc`, `pseudo_Pc`, `pseudo_Vc`, `pseudo_Zc`, `pseudo_omega` (equilibrium.py 1021-1149): the composition is that of the state or of the phase given, the constants those of the state. |
| `V_gas` | `V_gas_standard`, `V_gas_normal`, `V_gas` (equilibrium.py 2030-2082) with the temperature and pressure of the settings; the phase is ignored. |
| `rho_gas` | `rho_gas_standard`, `rho_gas_normal`, `rho_gas` (equilibrium.py 2084-2124) |
| `Vm_to_rho` | `Vm_to_rho(Vm, MW)` of `chemicals`: `Vm**-1*MW/1000.` |
| `rho_mass_gas` | `rho_mass_gas_standard`, `rho_mass_gas_normal`, `rho_mass_gas` (equilibrium.py 2126-2172) |
| `rho_mass_liquid_ref` | `rho_mass_liquid_ref` (equilibrium.py 761-779) with `V_liquid_ref` (733-759) |
| `Hc` | `Hc`, `Hc_lower` (equilibrium.py 2480-2494, 2544-2558) |
| `HcMass` | `Hc_mass`, `Hc_lower_mass` (equilibrium.py 2496-2510, 2560-2574) |
| `HcsMass` | `Hcs_mass` (chemical_package.py 326): `Hc*1000.0/MW if Hc is not None else None` |
| `HcVolume` | `Hc_normal`, `Hc_standard` and their lower forms (equilibrium.py 2512-2542, 2576-2606): heating value over the volume of the reference gas; dividing `None` raises `TypeError`. |
| `SG_gas` | `SG_gas` (equilibrium.py 2001-2025): `MW/28.9586` |
| `wobbe` | The common part of the eight `Wobbe_index` methods (equilibrium.py 2609-2787): `abs(Hc)*SG_gas**-0.5`; `abs(None)` raises `TypeError`. |
| `wobbeMolar` | `Wobbe_index`, `Wobbe_index_lower` (equilibrium.py 2624-2628, 2667-2672) |
| `wobbeMass` | `Wobbe_index_mass`, `Wobbe_index_lower_mass` (equilibrium.py 2645-2650, 2689-2694) |
| `wobbeVolume` | `Wobbe_index_standard`, `Wobbe_index_normal` and their lower forms (equilibrium.py 2713-2718, 2736-2741, 2759-2764, 2782-2787) |
| `rhol60` | `rhol_60Fs_mass` (chemical_package.py 234): `1e-3*MW/V` |
| `rhoMass60` | The loop of `SG` (equilibrium.py 1993-1998): mass fraction average of the liquid densities at 60 °F. |
| `SG` | `SG` (equilibrium.py 1976-1999), `SG(rho, rho_ref)` being the quotient. |
| `API` | `API` (equilibrium.py 3226-3239) as a function of the gravity. |
| `refPhase` | The choice of the reference phase of `Ks` (equilibrium.py 2462-2471): the argument, the phase stored by the flash, the first liquid, the first solid, the gas. |
| `Ks` | `Ks` (equilibrium.py 2472-2478): `[g/l for l, g in zip(ref_zs, zs)]` of Python floats; a vanishing fraction in the reference phase raises `ZeroDivisionError`. |
| `called` | `v = getattr(self, name)` and `try: v = v() except: pass` (equilibrium.py 3211-3215, phase.py 385-390) |
| `stateValue` | `EquilibriumState.value(name, phase)` (equilibrium.py 3183-3218): `attr` is the attribute of the state of that name, `position` the result of `self.phases.index(phase)` if a phase is given (`some none`: not in the list). |
| `phaseValue` | `Phase.value(name)` (phase.py 362-390): for `'beta_mass'` the state is asked for an attribute of that name. |
| `phaseNames` | `phases_properties_to_EquilibriumState` (equilibrium.py 3357-3378) |
| `bulkNames` | `Bulk_properties_to_EquilibriumState` (equilibrium.py 3394-3399) |
| `bulkProps` | `bulk_props` (equilibrium.py 3405-3433) |
| `bulkProperties` | `bulk_properties` (equilibrium.py 3447-3452) |
| `stateMethods` | The names of these lists which the class body of `EquilibriumState` defines as methods with one optional argument `phase` (equilibrium.py 781-3239). |
| `bulkIsProperty` | The names of `bulk_props` and `bulk_properties` which are properties of `Bulk` or of its base class `Phase` (bulk.py 650-760, phase.py 5304-5720; the names ending in `_calc` are mostly aliases of a property). |
| `stateDict` | The class body, then the two loops (equilibrium.py 3441-3444, 3453-3456). |
| `callStateWithPhase` | `state.name(phase)`, as the getters of `phases_properties_to_EquilibriumState` and `Bulk_properties_to_EquilibriumState` do (3277-3279): `get_bulk_prop` takes no such argument. |
| `phaseFlow` | `Phase.n` and `Phase.m` (phase.py 5357-5404) of a phase of a state: `self.result.n*self.beta`, every exception giving `None`. `own` is the flow rate an `EquilibriumStream` stores on itself (`none` for a plain `EquilibriumState`, whose `n` is then the bound method and cannot be multiplied). |
| `components` | `_comonent_specific_properties` (equilibrium.py 3600-3610), the registry numbers split at the hyphens. |

## Verif/Equilibrium/Mixing.lean

Mixing rules for the transport properties of several phases (`thermo/bulk.py` 748-950)

| definition | source |
|---|---|
| `Basis` | Which fractions weight the phases (bulk.py 202-204). |
| `Form` | How the property enters (bulk.py 206-208). |
| `Method` | The setting strings (bulk.py 96-109, 152-153). `other` is any string which is not one of these. |
| `mixForm` | The three loops over weights and property values (bulk.py 761-771). A logarithm of a non-positive number raises `ValueError`, a power of a negative number is complex. |
| `propertyMixingRule` | `_property_mixing_rule` (bulk.py 748-778). `weights` gives `phase_fractions`, `betas_mass` and `betas_volume` of the bulk; `one` is the value of the mixture object. |
| `muKVL` | `_mu_k_VL` (bulk.py 780-802), with `VF`, `betas_mass_states[:2]` and `betas_volume_states[:2]`. |
| `allowedLL` | The values of `mu_LL`, `k_LL`, `sigma_LL` which `BulkSettings.__init__` accepts (bulk.py 155-171, 520-543). |
| `allowedVL` | The values of `k_VL` which it accepts, and of `mu_VL` apart from the correlations (bulk.py 185-191). |
| `ES.weights` | The fractions by which the overall bulk weights its phases (bulk.py 664-714 for the bulk of all phases). |
| `ES.muLiquidBulk` | The property of the liquid bulk (bulk.py 826-834 with `phase_bulk == 'l'`). |
| `ES.muBulk` | `mu` of the overall bulk (bulk.py 805-862; `k` 864-912 has the same structure without correlations). `oneL` and `oneG` are the values of the mixture objects for the settings `AS_ONE_LIQUID` and `AS_ONE_GAS`. |

## Verif/Equilibrium/Ownership.lean

C155: phases and the result they belong to

| definition | source |
|---|---|
| `New.phases` | The phases in order: gas, liquids, solids (284-288). |
| `New.kind` | The kind assigned to a phase (286, 306-314): solids get none. |
| `make` | A result is made (284-343): its phases refer to it. |
| `stream` | A stream made of an existing result (2760-2764): the same phase objects with other flows. |
| `beta` | `beta` (5214-5220) and `beta_mass` (5236-5242): the fraction at the first place of the phase. |
| `times` | Product of two values that may be missing: an exception, caught with answer `None` (5378, 5403). |
| `askN` | `n` (5371-5379): the stored flow, else the computed one, which is stored. |
| `askM` | `m` (5397-5404). |
| `startKind` | The kind `as_EquilibriumState` starts from (5652-5665); `cls` is the kind of the class; `none` is an exception: the assigned kind is read if there is a result. |

## Verif/Equilibrium/PhaseId.lean

Identification and sorting of phases (`thermo/phase_identification.py`)

| definition | source |
|---|---|
| `scoreTpc` | `vapor_score_Tpc` (146-149) |
| `scoreVpc` | `vapor_score_Vpc` (190-193) |
| `scoreTpcWeighted` | `vapor_score_Tpc_weighted` (251-260), with the default `r1 = 1`. |
| `scoreTpcVpc` | `vapor_score_Tpc_Vpc` (314-320) |
| `scoreWilson` | `vapor_score_Wilson` (392-403) |
| `scorePoling` | `vapor_score_Poling` (452) |
| `traceLoop` | The scan for the smallest critical temperature of `vapor_score_traces` (608-613); `l` is the list of pairs of critical temperature and mole fraction. |
| `scoreTraces` | `vapor_score_traces` (599-614). |
| `Env` | What the identification reads of a phase: `force_phase`, the vapour score (`score_phases_VL`, 668-753), the solid score (`score_phases_S`, 636-666). |
| `Env.solidLike` | The first branch of the loop (819). |
| `chooseGas` | The choice of one gas (828-840); the other possible gases become liquids. |
| `identityStates` | `identity_phase_states` (794-840). The loops that append to a list are written as filters. A phase with `force_phase == 'g'` is appended to the possible gases (806), but nothing is appended to the scores. |
| `SortProp` | `L_SORT_PROPS` (844-849) |
| `Props.key` | The keys of `mini_sort_phases` (869-887); for the compressibility the code takes `isobaric_expansion()` (885). |
| `miniSort` | `mini_sort_phases` (866-895). `sorted(zip(keys, phases))` compares the phases of equal keys, which raises `TypeError`; every sorting algorithm compares equal keys that are neighbours in its result. |
| `moveWater` | The move of the water phase (943-955). |
| `sortLiquids` | `sort_phases` (935-962), the liquids. |
| `sortSolids` | `sort_phases` (935-962), the solids. |
| `sortPhases` | `sort_phases` (935-962) |
| `newBetas` | The three loops that look up the phase fractions (1045-1062): the fraction of the first entry of `phases` that is the object. |
| `identifySort` | `identify_sort_phases` (1027-1063); `none` for the fractions is `None`. |

## Verif/Equilibrium/Reports.lean

Composition reports of an equilibrium state (`thermo/equilibrium.py`)

| definition | source |
|---|---|
| `dictAdd` | `if atom in things: things[atom] += v else: things[atom] = v` (equilibrium.py 805-808) |
| `atomContent` | `atom_content` (equilibrium.py 781-811): the loop over components and their atoms. |
| `atomFractions` | `atom_fractions` (equilibrium.py 813-835) |
| `H_C_ratio` | `H_C_ratio(phase)` (equilibrium.py 2174-2195): the argument `phase` is not passed on to `atom_fractions`, which therefore takes the bulk (826-827). |
| `humidityRatio` | `humidity_ratio(phase)` (equilibrium.py 2342-2365): it reads `self.ws()`, the composition of the whole state. |
| `noWater` | `zs_no_water` (equilibrium.py 2367-2397) and, with the mass fractions, `ws_no_water` (2399-2428). |
| `Vfls` | `Vfls` (equilibrium.py 948-973) |
| `lightest` | `lightest_liquid` (equilibrium.py 2220-2241): `liquids[rhos.index(min(rhos))]`. |
| `heaviest` | `heaviest_liquid` (equilibrium.py 2243-2264) |
| `waterLoop` | The loop of `water_phase_index` (equilibrium.py 2290-2294): `zw` are the water fractions of the liquids from index `i` on. |
| `waterPhaseIndex` | `water_phase_index` (equilibrium.py 2267-2297), for a mixture containing water. |
| `S_ig` | `S_ideal_gas` of `Phase` and `Bulk` (bulk.py 1695-1712): the composition and its logarithm are those of the object. `ints` are the integrals of `Cp/T`, `R log(P/P_ref)` is `RlogP`. |
| `S_ig_state` | `EquilibriumState.S_ideal_gas(phase)` for a bulk object (equilibrium.py 1732-1748): the composition is that of the argument, but `log_zs` is `self.log_zs()`, the logarithm of the overall composition. |
| `H_ig` | `H_ideal_gas` (bulk.py 1675-1683, equilibrium.py 1706-1713) |
| `bulkHdep` | `H_dep` of a bulk (equilibrium.py 1489-1505) |
| `bulkSdep` | `S_dep` of a bulk (equilibrium.py 1507-1526); the departure entropy of a phase is `S - S_ideal_gas`. |
| `bulkGdep` | `G_dep` of a bulk, inherited from `Phase` (phase.py 1911-1927). |

## Verif/Equilibrium/State.lean

Equilibrium states (`thermo/equilibrium.py`, class `EquilibriumState`)

| definition | source |
|---|---|
| `ES` | The arguments of `EquilibriumState.__init__` (equilibrium.py 263-267) which matter here. |
| `gasCount` | equilibrium.py 275 |
| `phases` | equilibrium.py 284-288 |
| `gasBeta` | equilibrium.py 291 |
| `liquidsBetas` | equilibrium.py 292: `betas[gas_count:gas_count + liquid_count]` |
| `solidsBetas` | equilibrium.py 293: `betas[gas_count + liquid_count:]` |
| `MW` | `Phase.MW` (phase.py 4494-4517) |
| `Vref` | `V_liquid_ref` of a phase (equilibrium.py 733-759) |
| `VF` | equilibrium.py 380-395 |
| `LF` | equilibrium.py 398-411 |
| `betasStates` | equilibrium.py 442-461 |
| `weightStates` | The common form of `betas_mass_states` (equilibrium.py 463-498) and `betas_volume_states` (500-535). |
| `betasMassStates` | equilibrium.py 463-498 |
| `betasVolumeStates` | equilibrium.py 500-535 |
| `weightFractions` | The common form of `betas_mass` (equilibrium.py 556-565), `betas_volume` (585-594) and `betas_volume_liquid_ref` (614-622). |
| `betasMass` | equilibrium.py 538-565 |
| `betasVolume` | The value `betas_volume` computes (equilibrium.py 585-592). |
| `betasVolumeRef` | The value `betas_volume_liquid_ref` computes (equilibrium.py 614-620). |
| `betasLiquids` | equilibrium.py 624-652 |
| `betasMassLiquids` | equilibrium.py 654-680 |
| `betasVolumeLiquids` | equilibrium.py 682-709 |
| `liquidZs` | `liquid_zs` for two and more liquids (equilibrium.py 298-299). |
| `liquidBulk` | The liquid bulk as a phase (equilibrium.py 295-314): a `Bulk` object of the liquids with the fractions `liquids_betas` for two or more liquids (its volume and enthalpy are the loops of bulk.py 979-1073), the liquid itself for one. |
| `quality` | `quality` (equilibrium.py 413-440); `vapor_mass_quality` of `chemicals` is `VF*MWg/(VF*MWg + (1.0 - VF)*MWl)`. |
| `ES.readVolume` | One access to `betas_volume` (equilibrium.py 580-594) or `betas_volume_liquid_ref` (609-622): returned value and the attribute afterwards. |
| `ES.rhoMass` | `Phase.rho_mass` (phase.py 4554-4570), also of the liquid bulk. |
| `ES.ws` | `Phase.ws` (phase.py 5140-5167) |
| `ES.flowsOf` | The flow properties of `Phase` (phase.py 5303-5490) for a phase with the fractions `beta` and `beta_mass` in a stream of `n` moles and mass `m` per time. |
| `ES.phaseFlows` | The flows of all phases: `beta` and `beta_mass` are found at the index of the phase (phase.py 5200-5242). |
| `ES.liquidBulkFlows` | The flows of the liquid bulk, for two or more liquids a `Bulk` object: there `beta` is the sum of its phase fractions and `beta_mass` the sum of its own `betas_mass` (bulk.py 650-689). |

## Verif/Flash/Dispatch.lean

What a flash solves for (`thermo/flash/flash_base.py`)

| definition | source |
|---|---|
| `Args` | The keyword arguments of `flash` that are specifications (158-162). |
| `convert` | Lines 289-306. |
| `check` | Lines 325-373, in order. |
| `tMinAny` | `T_MIN_FLASH_ANY` (869) of the lowest temperatures of the phases, the first being `a`. |
| `tpv` | `flash_TPV` of all flash classes (`flash_vl.py` 799-803): temperature and pressure if both are given. |
| `iterVars` | `spec_to_iter_vars` and its backup (62-89), by the key of line 455. |
| `firstSpec` | Line 444: the first specification that is not the vapor fraction, in the order in which they were stored. |
| `route` | Lines 375-504; `none` is the exception of line 504. |
| `boundary` | `flash_phase_boundary` (515-558): the first algorithm is called outside of any `try`, so its result or exception is the result. `algo fixed iter` is that algorithm. |
| `Kind` | Boundaries of `flash_mixing_phase_boundary` (576-590). |
| `Algo` | Its algorithms (566-569). |
| `mixing` | The loop 593-618: a method that is called decides; none of the calls is inside a `try`. |
| `grid` | `grid_flash` (757-823): values by variable, stored in the order of 760-783; the first two lists are combined. `none` outside is the `IndexError` if fewer than two are given, `none` inside a flash that failed. |
| `uniqStep` | The loop 842-849: number of the liquid, distinct models so far, and the table. |
| `uniq` | `unique_liquids` and `liquids_to_unique_liquids` (832-849), of the hashes of the models. |
| `slots` | The liquids `phases_at` returns (248-253): slot `j` gets the distinct liquid whose number is entry `j` of the table, and stays `None` if there is none. |

## Verif/Flash/GibbsMin.lean

Minimisation of the Gibbs energy of several phases (`thermo/flash/flash_utils.py` 1368-1618) and the results of bounded dew and bubble points (1689-1772) (C128)

| definition | source |
|---|---|
| `one` | The flow of one phase from its variables (1416-1431): between nothing and what remains if translated, else the variable but at least `1e-10`. |
| `flows` | The flows of all phases (1415-1444); the last gets what remains. |
| `basis` | The variables of guessed flows (1386-1392). |
| `beta` | The fraction of a phase, `vs_sum` (1432, 1442). |
| `comp` | The composition of a phase (1433-1439), that of the feed if it has no flow. |
| `gPhase` | The contribution of a phase with coefficients `lnphi` to the objective (1457-1458). |
| `objective` | The objective (1445-1459). |
| `objectiveReal` | The objective of `differential_evolution` (1451-1455, 1577): fractions times Gibbs energies of the phases. |
| `best` | The record of the best point (1516-1521): values of the objective at the points evaluated, in order. |
| `result` | What is returned: the best point, with an error if none was recorded (1617). |
| `evaluate` | An evaluation as the minimisers call it (1485-1510): with gradients, which all but `differential_evolution` ask for (1591-1600), a list of flows is indexed twice, `flows[k][i]`. |
| `picked` | The flash returned by `dew_bubble_bounded_naive` (1767-1772): the last one evaluated that is not flat, the first one evaluated if all are; `none` if there is none (an unbound name). |

## Verif/Flash/MixDrivers.lean

Flashes of mixtures at given energy or vapor fraction (`thermo/flash`)

| definition | source |
|---|---|
| `point` | The head of `err` (`flash_utils.py` 4253-4277) with the definition of `flash_model` (4326-4357), where `P` must have been bound if it is not iterated on: which temperature and pressure are used for a guess. |
| `mixModel` | `H_model`, `S_model`, `V_model` (4220-4245). |
| `residual` | The residual (4283-4302); `Vmix` is the volume of the models, used only if the volume is not a variable. |
| `wilsonHg` | The models of `IDEAL_WILSON` (4452-4475): integrals of gas heat capacities `h`, `s` and enthalpies of vaporization. |
| `mixingEntropy` | The entropy of mixing in the models (4250, 4284): of the overall composition, whatever the phases. |
| `wilsonK` | `flash_model` (4326-4377): coefficients of Wilson and which phases they allow. |
| `allowed` | The scan over components (4362-4377): `none` means that the Rachford-Rice equation is solved. The result is the fraction. |
| `flashEnergy` | `FlashVL.flash_TPV_HSGUA` (824-899): the two algorithms are functions of the specification; `bisect` gets the specification function, `newton` does not, and neither gets the objective built from `solution`. |
| `arrange` | Liquid and gas of an incipient solution (431-434, 519-522). |
| `loopT` | The loop of `flash_TVF_2P` (411-436); `comp` is unbound (`none`) for fractions between zero and one. |
| `loopP` | The loop of `flash_PVF_2P` (486-524) with the result kept so far; `stable` is the stability test. |
| `compOf` | Which guess is bound (397-409, 472-484). |
| `outerStep` | The step of the outer variable (`flash_utils.py` 3707-3727): current and previous value, their errors, the Newton step. |
| `repair` | The repair of negative fractions (3776-3785, 3620-3629). |
| `specTol` | Absolute tolerance of the specification (3698-3703). |
| `Pass` | What one pass returns, if it ends the iteration (3750-3803): `Kof` are the ratios of fugacity coefficients of the two phases at their compositions, `specL`, `specG` their properties (the fraction itself for `beta`). `V`, `xn`, `yn` come from `flash_inner_loop`. |
| `firstFraction` | The first guess of the fraction (3688-3691, 3739-3740). |
| `simultaneous` | `SS_VF_simultaneous` (3656-3676): which side is taken as the incipient phase; the compositions are those of the phase objects. |

## Verif/Flash/Mixing.lean

Mixing boundaries, phase boundary brackets, wet bulb, extrema of envelopes (`thermo/flash/flash_utils.py` 4547-5459)

| definition | source |
|---|---|
| `larger` | Lines 4556-4561. |
| `factorLoop` | The second loop (4553-4561); an entry is the amount existing and the amount added. |
| `removed` | Amounts after removal (4577). |
| `bracketLoop` | The loop (5006-5015). |
| `isNon` | Lines 4648, 4655. |
| `side` | The side on which the phase vanishes (4699): above if the check falls, below if it rises. |
| `nearest` | The loop (4692-4703), with the best value and distance. |
| `updNons` | Values without the phase after a guess (4648-4652). |
| `updPhase` | The value with the phase after a guess (4655-4672); see `keepPhase` for another such value. |
| `attempt` | The bracket sought after each guess (4690-4706). |
| `scan` | The loop over guesses (4638-4706): `check` is `none` for a failed flash, `rising` is from the perturbation. Returns the values without and with the phase. |
| `keepPhase` | What happens to the value with the phase when another is found (4660-4672): the comparison is of the old check with itself. |
| `finalInner` | The inner loop after all guesses (4735-4745) for one value without the phase: values with the phase and whether the check rises there; `first` is the first value with the phase, which is compared with instead. |
| `addWater` | Composition after adding an amount of component `w` to one mole (5322-5324, 5398-5401). |
| `wetBulbErr` | The error (5321, 5332). |
| `nAdded` | Amount added for a guessed fraction of water (5364-5367). |
| `directAmount` | The unknown used and the fraction returned by the direct solution (5394, 5425). |
| `dewP` | Dew pressure of an equimolar mixture with K values `2 exp (3 T) / P` and `2/3 exp (-T) / P` (5446-5459 at a dew point). |

## Verif/Flash/MultiPhase.lean

Flashes of mixtures with two or more phases (`thermo/flash/flash_vl.py` 655-680, 735-822, 903-1020, `flash_vln.py` 203-237, 281-619)

| definition | source |
|---|---|
| `onePhase` | The feed as a single phase (750, 762): the more stable one. |
| `assemble` | Lines 764-773. |
| `Conserves` | Substitution conserves each component (C90). |
| `flashTP` | Lines 675-680. |
| `boundsUsed` | Lines 929 and 966: called without argument. |
| `leastLoop` | A loop that keeps what has a strictly lower value, starting with nothing and `1e100`. `none` is a failure. |
| `VFSol.G` | Line 213, 231. |
| `byFraction` | Lines 330-337. |
| `Good` | Fractions between zero and one (523-526). |
| `Retry` | The repeated substitution with two liquids (541-562). |
| `Found.VL` | Line 395. |
| `Found.LL` | Lines 403-414. |
| `Found.start` | `found_phases`, `found_betas` (392-419). |
| `bestOf` | The double check (438-458). |
| `moreLoop` | The loop over further liquids (582-618). |
| `Found.failed3` | Lines 538-570. |
| `Found.result` | Lines 462-619; `none` is an exception. |

## Verif/Flash/Newton.lean

Simultaneous solution of the equilibrium equations (`thermo/flash/flash_utils.py` 677-1366, 1644-1687, 1775-1958)

| definition | source |
|---|---|
| `xsOf` | Line 1242. |
| `ysOf` | Line 1243. |
| `Ks` | Line 1235. |
| `errK` | Line 1302. |
| `inv2` | `RR_denoms_inv2` (1263-1266). |
| `zK` | `zsKsRRinvs2` (1278). |
| `rrTerm` | `RR_terms` (1268). |
| `jKK` | Lines 1280-1286. |
| `jKV` | Lines 1269-1274. |
| `jVK` | Lines 1290-1292. |
| `jVV` | Lines 1295-1298. |
| `vfOf` | Vapor fraction of the transformed variable (1049). |
| `vfInto` | Start value of the transformed variable (1068). |
| `newKs` | `new_Ks` (1060). |
| `errH` | The equations of `nonlin_2P_HSGUAbeta` (1109-1141) at one value of the variable iterated on, with the specified property of the phases as functions of composition. Those of `nonlin_2P` (1047-1066) are the first two. |
| `errDewP` | The equations of `dew_P_newton` (1656-1675) at one pressure: fugacities and the Rachford-Rice equation at vapor fraction one. |
| `compOf` | Mole fractions of flows: absolute values over their sum (733-741). A phase without flow gets the feed composition. The second normalisation of the code changes nothing. |
| `clip` | Negative flows are replaced (726-728). |
| `Multi` | Feed, the phases other than the reference phase, and the reference phase. Their order in the lists of the code is that of C90_order. |
| `rest` | Flow of the reference phase (746). |
| `errN` | The equations (763-771). |
| `jN` | The matrix (774-784), with the phase fractions `β` and `βref`. |
| `errS` | The additional equation of `nonlin_spec_NP` (927-933) at fixed value of the variable iterated on: molar properties `s` of the phases, which are functions of composition, add up to the specification. |
| `jS` | The row of derivatives by flows (971-981): `d` and `dr` are what the phases return as derivatives by amounts, the phases being the ones the function was called with. |
| `errD` | The equations of `dew_bubble_newton_zs` (1838-1855): composition `x` of the phase that appears, and the variable iterated on. An equation of a component that is not in the feed stays zero. |
| `errDsum` | Line 1855. |
| `jDx` | Lines 1861-1866. `comp_invs` stays zero for components that are not in the feed. |
| `jDt` | Line 1863. |
| `share` | Flow of a phase from its transformed variable (1429). |
| `flowsOf` | The flows of all phases (1421-1444): each takes a share of what is left, the last one the rest. |
| `basisOf` | Transformed guesses (1389-1392). |
| `vapor2P` | Vapor flows of `minimize_gibbs_2P_transformed` (1340). |

## Verif/Flash/OnePhase.lean

Flashes of one phase (`thermo/flash/flash_utils.py` 2588-3169)

| definition | source |
|---|---|
| `ders` | `strs_to_ders` (2588-2623), key: specification, iteration variable, fixed variable. |
| `derAttr` | Lines 2708-2712. |
| `eval` | `to_solve` (2715-2736) without a phase; a phase that cannot be made raises. |
| `evalOpt` | Lines 2793, 2799: `to_solve(under_trans, lower_phase)`, where the phase may be `None`. |
| `Br` | What the block 2754-2825 leaves behind. |
| `lowTest` | The lower test (2791-2796): memory, and whether it brackets; `none` is an exception. |
| `highTest` | The upper test (2797-2802). |
| `decideBr` | Lines 2804-2818, from the two tests. |
| `multipleSets` | `multiple_solution_sets` (2626-2628): fixed variable and specification; the other five entries have the two exchanged and cannot occur. |
| `multiple` | Line 2700. |
| `ignoreFail` | Line 2752. |
| `bracket` | The block 2754-2825, entered for a fixed temperature. |
| `physMax` | Lines 2739-2749: the physical limit for a fixed volume. |
| `second` | Lines 2865-2888: the second attempt. `narrow` are the bounds from the points of the first attempt, with the points evaluated to find them. |
| `solve` | `TPV_solve_HSGUA_1P` (2687-2890). `t` is the transition, `none` when the block is not entered or its phase or transitions cannot be found; `narrow` depends on what the first attempt evaluated. |
| `Guess` | Guess methods in the order tried (2927-2934). |
| `stpGuess` | The constants of 3139-3145. |
| `guessOf` | One method (3139-3169); `model` are the others, which may fail. `user_guess` is always `None` here (2943). |
| `firstGuess` | The loop 2936-2948. |
| `ytol` | The tolerance of 2950-2956. |
| `setVars` | The values of `T`, `P`, `V` when the function `err` (3002-3025) reaches line 3028; `none` is an unbound variable. |
| `gErr` | `err` (3002-3047): with the entropy of mixing and of pressure. |
| `igModel` | `IG_ENTHALPY` (3055-3070). |

## Verif/Flash/Pure.lean

Flashes of one component (`thermo/flash/flash_pure_vls.py` 340-468, 598-962, 1013-1046, 1106-1256)

| definition | source |
|---|---|
| `gasUsed` | Line 433. |
| `liquidUsed` | Line 442. |
| `liquidLoop` | The loop over liquids (441-452) with the number of the next liquid, and `gas is not None`. |
| `solidLoop` | The loop over solids (456-461). |
| `begin` | Lines 433-438. |
| `flashTPV` | Lines 433-468. |
| `phaseFractions` | Number of phases in the result of the general branch and of the branches 354-386: always one. |
| `better` | `selection_fun_1P` (734-747): with pressure and entropy specified a lower value is not better if it is that of a solution below one kelvin and the other is above, and a value that is not lower is better in the opposite case. |
| `choose` | The loop over phases (802-820); `none` is a phase without solution. |
| `lever` | Vapor fraction of a specified value (637, 779). |
| `leverFun` | Vapor fraction with `spec_fun` if both errors have one sign (634). |
| `Outcome` | What is decided between one and two phases (780-785, 862-894): `none` is an exception. |
| `valueVL` | `G_VL` (763, 779-785); `none` is no saturation at the fixed variable. |
| `decide2` | Lines 851-894: `SF` is what was calculated for a solid with another phase, which is not used. |
| `valueSF` | Fraction and value of a solid with another phase (833, 837-839). |
| `boundLoop` | The loop (654-693) for cubic equations of state: the number of the phase returned. `none` is the value `None`, which the caller cannot unpack. |
| `tMid` | Line 1033. |
| `tNext` | Line 1034. |
| `dPsat` | `dPsat_dT` (1149, 1274, 1311). |
| `dv` | `dv` (1154-1156, 1276-1278, 1313-1315) from derivatives of the specified property of gas and liquid. |
| `bounding` | `bounding_idx` (1160-1162): pairs of neighbours between whose values the specified one is. |
| `interval` | Number of the interval used (1193-1200, 1233-1239) among `n ≥ 2`; `none` is an exception. |
| `vfGuess` | The guess (1248-1254). |

## Verif/Flash/SatPoints.lean

Saturation, dew and bubble points (`thermo/flash/flash_utils.py` 1967-2584, 3220-3576)

| definition | source |
|---|---|
| `lowest` | The choice among liquids or among other phases (3233-3241, 3378-3386, 3391-3399): `one_liquid` is the number of liquids. `none` is an `AttributeError`. |
| `errPure` | The function solved by `TVF_pure_newton` and `PVF_pure_newton` (3226-3249, 3302-3325): error, derivative and the liquid. |
| `errSolid` | The function solved by `TSF_pure_newton` and `PSF_pure_newton` (3375-3407, 3422-3454): error, derivative, other phase and solid. |
| `kOf` | `Ks` (2095). |
| `fk` | `f_k` (2104). |
| `dfk` | `dfk_dvar` (2106-2108). |
| `newComp` | `comp_guess` (2096-2098). |
| `adjStep` | Lines 2114-2116. |
| `retry` | Lines 2018-2022, 2084-2088. |
| `iterate` | One iteration (2011-2134). |
| `run` | The loop and what follows (2011-2140). |
| `start` | The state before the loop (1977-2010). |
| `bubbleF` | `f_k` of `bubble_T_Michelsen_Mollerup` and `bubble_P_Michelsen_Mollerup` (2330-2335, 2482-2487) from what liquid and gas return. |
| `bubbleD` | Their derivative (2337-2339, 2489-2491). |
| `dewX` | `xs` of `dew_T_Michelsen_Mollerup` and `dew_P_Michelsen_Mollerup` (2406-2407, 2554-2555). |
| `dewF` | Their `f_k` (2412, 2559). |
| `dewD` | Their derivative (2414-2416, 2561-2563). |
| `oldRetry` | The guess after a failure (2312, 2323, 2388, 2399, 2464, 2475, 2536, 2547): with a liquid that failed the functions for pressure assign a variable that is not used. |
| `oldStep` | The guess after a step (2346, 2423, 2496, 2568). |
| `errSS` | `err_SS` of `existence_3P_Michelsen_Mollerup` (2262-2274): `Kss` are the ratios of the liquids, `Ks` those of the appearing phase. |
| `errIG` | The error of `to_solve` (3487-3493, 3547-3553). |
| `derrIG` | Its derivative (3494, 3554), with the derivatives of the fugacity coefficients. |
| `pBub` | `P_bub` (3502-3506) from the coefficients at the pressure `P_base`. |
| `pDew` | `P_dew` (3505-3507). |
| `pGuess` | `P_guess` (3508). |
| `igX` | Mole fractions (3524-3527, 3572-3575). |
| `igY` | Line 3526. |

## Verif/Flash/Setup.lean

Making flash objects, saturation of one component and grids (`thermo/flash/flash_pure_vls.py`, `flash_base.py`, `flash_vl.py`)

| definition | source |
|---|---|
| `phaseCount` | `phase_count` (270-280). |
| `supports` | `supports_VF_flash`, `supports_SF_flash` (275-276). |
| `Place` | A phase by its place: the order of `phases` (282-287). |
| `cubics` | `VL_only_CEOSs` (295-300). |
| `cubicsSame` | `VL_only_CEOSs_same` (315-320). The phases, not their equations, are compared with `IGMIX` in 318-319: no phase is one. |
| `coolprop` | `VL_only_CoolProp` (322-326). |
| `iapws` | `VL_only_IAPWS95` (302-307). |
| `air` | `V_only_lemmon2000` (309-312). |
| `activity` | `VL_IG_activity` (328-331): `gas.eos_class` is read for every gas that is not `IdealGas`, also `None`. `none` raises. |
| `flags` | `_finish_initialization` (295-331); `none` is `AttributeError`. |
| `associate` | Lines 882-885 (886-888 for the correlations): constants are stored one phase after the other until one belongs to others. `false` is `ValueError`. |
| `finish` | Lines 869-888: temperature limits and the phases afterwards; `none` for phases of both kinds or none at all. |
| `Err` | Exceptions of `FlashVL` (331-350): attributes are read (343-344) before the phases are checked (347-350). |
| `branchT` | The order of `flash_TVF` (484-521). |
| `branchP` | The order of `flash_PVF` (525-562). |
| `guess` | `Psat_guess` (470-480). |
| `flashTVF` | `flash_TVF` (482-521) without CoolProp: the state of both phases. The IAPWS phases are made from temperature and density, their pressure is that of the correlation by contract. |
| `flashPVF` | `flash_PVF` (523-562) without CoolProp. |
| `toy` | A chemical with vapor pressure `T`, a liquid that uses another correlation, critical point at 100. |
| `solidGuess` | Guess of `flash_TSF` (572-577) and `flash_PSF` (583-588): `below` the triple point that of the sublimation curve, else a constant. |
| `rangeT` | `Tmin`, `Tmax` of `generate_Ts` (640-651). `lo`, `hi` are `T_MIN_FIXED`, `T_MAX_FIXED` of the phases combined; `Tc` the average critical temperature. |
| `rangeP` | `Pmin`, `Pmax` of `generate_Ps` (679-690). |
| `point` | Entry `i` of `logspace(log10(a), log10(b), n)` with the ends of 655-656 (not set for pressures and volumes, where they agree anyway). |
| `leastV` | Least volume of `generate_Vs` (712-731) when none is given: `bs` the co-volumes of the cubic phases, `V` the default. `none` is the comparison with `None`. |
| `given` | The lists `grid_props` (1128-1152) and `TPV_inputs` (1048-1074) make: one for each variable named; volumes, vapor fractions and solid fractions likewise. |
| `vRef` | `V_liquids_ref` (1931-1951): the stored volumes at the two usual temperatures, else the correlations. |
| `waterIndex` | `water_index` (1955-1976) with its cache; the value and the cache afterwards. |

## Verif/Flash/Stability.lean

The stability test (`thermo/flash/flash_utils.py` 3914-4086, 4525-4539; `flash_vl.py` 526-652)

| definition | source |
|---|---|
| `fTest` | Fugacities of the appearing phase (4003). |
| `start` | Lines 3966-3984. |
| `corr` | Line 4010. |
| `newK` | Line 4011, for components with a fugacity. |
| `err` | Lines 4006-4012. |
| `amounts` | Line 4025. |
| `run` | The loop (3987-4044). The result is `Ks`, `zs_test` and `sum_zs_test`; `none` is an `UnconvergedError`. |
| `stable` | The verdict on a trial (604), from the vapor fraction of a flash of the feed with the returned `K` values. |
| `Trial` | A converged trial: whether it is taken into account (576-601: not the feed, not an existing phase, not trivial), its verdict, its least distance from existing compositions, the distance of its sum from one, and `dG_RT`. |
| `Opt` | Options (527-531). |
| `Loop` | Variables of the loop (541-549), solutions being numbers of trials; `brk` is the trial at which the loop was left. |
| `loop0` | Lines 541-549. |
| `loop` | The loop over trials (569-635) without `all_solutions`; `none` is a trial that raised `UnconvergedError`. |
| `finish` | Lines 638-652; leaving the loop by `highest_comp_diff` clears that option. |
| `meanDiff` | Mean distance of compositions (4535). |
| `Same` | Whether results of two trials are the same (4535-4537). |
| `dedupFrom` | The loop of `deduplicate_stab_results` over sorted results (4532-4538), with the last one kept. |

## Verif/Flash/Substitution.lean

Sequential substitution (`thermo/flash/flash_utils.py` 153-498)

| definition | source |
|---|---|
| `St` | Loop variables: compositions, vapor fraction, the last three errors and the number of increases (158-168). |
| `Ks` | `K_i` (190). |
| `renorm` | Lines 272-290: a composition with a negative entry is replaced by its normalised absolute values. |
| `errOf` | Lines 295-302. |
| `compDiff` | Lines 316-318. |
| `Cycling` | Line 304. |
| `next` | The state of the next iteration (335-338). |
| `run` | The loop (177-339, 353-410). |
| `start` | Start (158-168). |
| `kOrder` | Lists in the order of the Rachford-Rice solver: all but the reference phase, then the reference phase (426-454). |
| `phaseOrder` | Lines 460-468: back to the order of the phases. |
| `KsN` | Ratios to the reference phase (443-451). |
| `errN` | Lines 470-477. |
| `runN` | The loop (435-498). |

## Verif/Flash/Trials.lean

Trial compositions of stability tests (`thermo/property_package.py` 247-542)

| definition | source |
|---|---|
| `wilson` | `K` value of Wilson (348, 424; `Wilson_K_value`). |
| `gas` | `Wilson gas` (381, 452). |
| `liquid` | `Wilson liquid` (384, 445, 456). |
| `gasThird` | `Wilson gas third` (387, 448, 458). |
| `liquidThird` | `Wilson liquid third` (390, 446, 460). |
| `pureComp` | A nearly pure component (394-398, 436-439, 464-468). |
| `Args` | Arguments (400-402), the index of water, the table of random numbers (97-240), and the stream of numbers after `seed(0)`. |
| `allZero` | Every `K` value is zero (420-427). |
| `anyZero` | Some `K` value is zero (421-429). |
| `unlikely` | No `K` value is above `1e-100` (422, 430-431). |
| `aqueous` | The aqueous trial (435-440); without water `None` cannot be an index. |
| `wilsons` | Trials from the `K` values (417-460). |
| `pures` | Nearly pure components (462-469). |
| `randoms` | Random trials (470-486). |
| `incipient` | All trials. Not modelled: the exceptions with one component, from the division by `N - 1.0` (437, 465), and without water, from the index `None` (439). |
| `gasNames` | The names in line 360. |
| `liquidNames` | The names in lines 365 and 367. |
| `nameOf` | `incipient_guess_name` (356-373); with an aqueous phase expected, names end at the fourth trial. |
| `named` | `incipient_guess_named` (375-398). |
| `Ordinary` | All `K` values are ordinary: positive, and one above `1e-100`. |
| `randomGuesses` | Lines 331-337: `n` compositions of `n` components. |
| `pureGuesses` | Lines 341-342. |
| `wilsonGuesses` | Lines 345-354. |
| `guesses` | Lines 526-542, and 503-512. |
| `maxGuesses` | Lines 494-501. |
| `popLoop` | The loop of `guess_generator` (514-522): trials yielded, and whether it ends with an `IndexError`. |
| `toAlpha` | The variables of the unconstrained search (291). |
| `ofAlpha` | Line 295. |
| `closeSum` | The result of the constrained search (324-325). |
| `Constraint` | The constraint (309-310). |

## Verif/Flash/VaporFraction.lean

C159: vapor fraction and an energy of one component (`thermo/flash/flash_pure_vls.py` 1048-1079, 1106-1327)

| definition | source |
|---|---|
| `Bounds` | Line 1161. |
| `Turns` | Line 1165. |
| `ofPair` | The interval between two nodes (1181-1185, 1196-1203, 1220-1224, 1239-1243). |
| `High` | `high` (1214): the value is between the extremum and the upper end. |
| `Low` | `low` (1216): the value is between the lower end and the extremum. |
| `atTurn` | Lines 1207-1232. `root` is the extremum with the value found there. |
| `select` | Lines 1178-1246. `extremum` is `_VF_HSGUA_der_root` on an interval. |
| `Cache` | What `to_solve` stores (1305), without the phases. |
| `evaluate` | One evaluation (1301-1305). |
| `search` | Lines 1319-1327: Newton's method, and if it fails the secant method; the last evaluation is returned. |
| `flash` | Lines 443-451. |
| `prepare` | Lines 1109-1110 and 1048-1079: `made` are the data, `none` an exception; whether splines can be made is irrelevant, since the mark is set before and their exceptions are swallowed. |

## Verif/Functional/Checks.lean

Checks and small functions (`thermo/utils/functional.py` 42-576)

| definition | source |
|---|---|
| `matchCount` | Number of matches (line 85). |
| `closeLoop` | The loop of lines 84-88 over tolerances and limits, for arrays of length at least one. |
| `tolerances` | Lines 77-82: the missing tolerances are zero; `none` without any. |
| `allclose` | `allclose_variable` (42-88), on pairs of corresponding elements. `none`: an exception, also for empty arrays if there is anything to compare (division by zero). |
| `identify` | `identify_phase` (148-227), the pressure given. |
| `select` | `phase_select_property` (90-146) with the object given: the three getters are run only if needed, so the result is a choice among them. Outer `none`: an exception. |
| `dn2` | `d2ns_to_dn2_partials` (229-244). |
| `TPD` | `TPD` (262-337). |
| `log690` | The logarithm of lines 394-399: `math.log` raises for arguments that are not positive. |
| `ki` | Lines 393-400. |
| `next` | Index of the next value, the first one again after the last (line 401). |
| `stateva` | `Stateva_Tsvetkov_TPDF` (339-407); `none` is the IndexError for empty lists. |
| `mixElements` | Elements of the streams (lines 478-491). |
| `mixAtoms` | Flow of an element (lines 478-491). |
| `componentBalance` | `assert_component_balance` (409-522). In the loop of lines 497-498 differing flows are taken to be met before missing elements; the order of the dictionary decides in the code which exception is raised. |
| `kinetic` | Kinetic energy of the streams (lines 546-549, 560-562, 572-574): areas and streams are zipped. |
| `side` | One side of the balance (lines 552-562 and 564-574). |
| `energyBalance` | `assert_energy_balance` (524-576); the elevations are arguments without effect. |

## Verif/Groups/Counts.lean

Counting rings and bonds (`thermo/functional_groups.py`, `thermo/group_contribution/bondi.py`, `ppr78.py`)

| definition | source |
|---|---|
| `attachments` | `count_ring_ring_attatchments` (2778-2788). |
| `others` | `other_ring_atoms` (2825-2829). |
| `attached` | Lines 2832-2847. |
| `countAttached` | `count_rings_attatched_to_rings` (2820-2850). |
| `ringMatches` | Lines 2911-2930 for one ring; `want` is the dictionary. |
| `countBy` | `count_rings_by_atom_counts` (2903-2935): rings given by the symbols of their atoms. |
| `doubles` | `double_bonds` (2948-2965). |
| `conjugated` | `identify_conjugated_bonds` (2968-2998). |
| `fused` | Two rings are condensed (546-547). |
| `cis` | `count_cis_condensed_naphthenes` (539-556). |
| `trans` | `count_transcondensed_and_free_cycloalkyl` (568-615); `cyclo`: the molecule is a cycloalkane. |
| `CH2` | A `CH2` group with two neighbors (683-685). |
| `methylene` | `find_methylene_rings_condensed_to_aromatic_rings` (644-716): the rings found. |
| `nearAcid` | `count_bonds_near_acid_amide` (491-507); `g` the atoms of acid and amide groups. |
| `corrections` | The corrections (740-753), in their order. |
| `bondi` | `bondi_fragmentation` (735-755) from the assignment of groups on. |
| `fragmentAll` | `fragment_PPR78` (1008-1042): `frag` is the fragmentation with its success, `none` when it raises; `name` the names of groups. A group without name raises and is caught. |
| `names` | Names of the groups of PPR78 and of the extension (58-76, 80-248). |
| `isOrganic` | `is_organic` (2706-2729): canonical SMILES, symbols of the atoms, a match of one of the patterns; `inorganic` is the argument `inorganic_smiles`, `table` the default. |
| `tsonopoulos` | `BVirial_Tsonopoulos_extended_ab` (3168-3201); `kind` is what is found in the molecule of the SMILES. |

## Verif/Groups/Estimates.lean

Estimates from groups (`thermo/group_contribution/joback.py`, `fedors.py`, `wilson_jasperson.py`, `bondi.py`)

| definition | source |
|---|---|
| `Group` | `JobackGroupContribution` (joback.py 178-227), its regressed values. |
| `joback` | `JOBACK_GROUPS` (joback.py 230-272), generated from the source text. |
| `loop` | `for group, count in counts.items(): tot += JOBACK_GROUPS[group].X*count` (joback.py 482-483 and its copies): an unknown group is a `KeyError`, a missing value a `TypeError`. |
| `Tb` | `Joback.Tb` (joback.py 480-487). |
| `Tm` | `Joback.Tm` (joback.py 517-524). |
| `Vc` | `Joback.Vc` (joback.py 648-655). |
| `Hf` | `Joback.Hf` (joback.py 689-696). |
| `Gf` | `Joback.Gf` (joback.py 730-737). |
| `Hfus` | `Joback.Hfus` (joback.py 772-779). |
| `Hvap` | `Joback.Hvap` (joback.py 814-821). |
| `Tc` | `Joback.Tc` (joback.py 562-571): a boiling point of `None` is estimated; dividing by zero or dividing `None` ends in the `except`. |
| `Pc` | `Joback.Pc` (joback.py 608-615): zero to the power -2 ends in the `except`. |
| `CpigCoeffs` | `Joback.Cpig_coeffs` (joback.py 861-874). |
| `mulCoeffs` | `Joback.mul_coeffs` (joback.py 915-924). |
| `Obj` | A `Joback` object: groups, molecular weight, stored coefficients (joback.py 399-427). |
| `Obj.Cpig` | `Joback.Cpig` (joback.py 952-958), the object afterwards and the result. |
| `Obj.mul` | `Joback.mul` (joback.py 985-991). A temperature of zero ends in the `except`. |
| `fresh` | A new object: class attributes `calculated_Cpig_coeffs`, `calculated_mul_coeffs` are `None` (joback.py 395-396). |
| `initSizes` | Atom count and molecular weight in `Joback.__init__` (joback.py 407-415): the molecule with hydrogens is only made when the atom count is not given; `none` is the `AttributeError` of its use without it. `found` are the values RDKit would give. |
| `DikyRow` | A row of `DIKY_JOBACK_GROUPS` after the conversions of the constructor (joback.py 1020-1023). |
| `dikyRow` | `DikyJobackGroupContribution.__init__` (joback.py 1020-1023). |
| `dikyCounts` | Groups of the molecule as a whole (joback.py 1247-1256): entity, rings of three and four atoms. |
| `dikyCoeffs` | `DikyJoback.get_coefficients` (joback.py 1288-1298); `none` is the `KeyError` of an unknown group. |
| `dikyCpig` | `DikyJoback.Cpig` (joback.py 1321-1323). |
| `FedorsMol` | What `Fedors` learns from the molecule (fedors.py 107-151): atoms by element, matches of the two patterns, ring sizes, bonds by type (`none` is a type it does not know), rings attached to rings. |
| `fedorsTable` | `fedors_contributions` (fedors.py 38-44). |
| `fedorsAllowed` | `fedors_allowed_atoms` (fedors.py 37). |
| `ensure` | `if k not in atoms: atoms[k] = 0` (fedors.py 153-156). |
| `fedorsFeatures` | The dictionary of features (fedors.py 153-170). |
| `fedorsVc` | The sum over the table, features that are absent are skipped (fedors.py 173-180). |
| `fedorsFlags` | The three flags (fedors.py 110-158): unknown atoms, unknown bonds, unknown ring sizes. Bond types known: single (1), double (2), triple (3), aromatic (4). |
| `fedorsOk` | `status == 'OK'` (fedors.py 182). |
| `incLoop` | Sum over the atoms, with the flag of missing increments (wilson_jasperson.py 293-307). For the pressure an entry `None` of the table raises `TypeError`, which is caught as a missing key is. |
| `groupSum` | Sum over second order groups (wilson_jasperson.py 309-315); every name it makes is in the table. |
| `wilsonJasperson` | `Wilson_Jasperson` from the increments on (wilson_jasperson.py 293-332); `none` is `ZeroDivisionError`. |
| `wjTcCH` | The increments of carbon and hydrogen (wilson_jasperson.py 57, 62, 103, 108); other elements left out. |
| `BondiRow` | A row of `BONDI_GROUPS`: volume and area (bondi.py 38-66). |
| `bondi` | `bondi_van_der_waals_surface_area_volume` (bondi.py 815-832) from the assignment on. |
| `Rvdw` | `R_from_Van_der_Waals_volume` (bondi.py 866). |
| `Qvdw` | `Q_from_Van_der_Waals_area` (bondi.py 893). |
| `vdwVolume` | `Van_der_Waals_volume` (unifac.py 3623). |
| `vdwArea` | `Van_der_Waals_area` (unifac.py 3658). |
| `RQ` | `R_Q_from_bondi` (bondi.py 834-838). |
| `bondiCarbon` | Carbon groups of Bondi's table (bondi.py 75-78, 88-93, 112-117); other groups left out. |
| `dikyDemo` | Two rows and the three whole-molecule rows of the table (joback.py 1038-1043, 1167-1172). |

## Verif/Groups/Fragment.lean

Fragmentation into groups (`thermo/group_contribution/group_contribution_base.py` 171-613)

| definition | source |
|---|---|
| `Grp` | The fields of a catalogue entry that are read (83-96), with its hits in the molecule without and with explicit hydrogens (262-268). `hOnly` is `len(obj.atoms) == 1 and 'H' in obj.atoms`; `multi` is whether the pattern is a list of patterns. |
| `Mol` | The molecule: number of atoms (`all_atom_idxs = range(n)`, 236-243), number of atoms with explicit hydrogens (272), hydrogens in the formula (234), hydrogens on each atom (240). |
| `effHits` | `hits` of a catalogue entry (260-268). |
| `isH2` | The early return for a molecule of hydrogens only (267-280). |
| `tryMatch` | The body of the inner loop of `run_match` (445-467). |
| `runGroup` | One round of the outer loop (443-467). |
| `runMatch` | `run_match` (437-468). |
| `byPriority` | `sorted(zip(priorities, groups), reverse=True)` (287-290): descending in priority, then in id. |
| `lookup` | `group_to_obj[group]` (289). |
| `hydrogensOf` | Hydrogens of one assigned match (369-373, 419-423). |
| `hydrogens` | `hydrogens_found` (367-373). |
| `good` | `heavy_atom_matched and hydrogens_matched` (366-383, 413-426). |
| `things` | `things_to_ignore` (385-388). |
| `ignoreSets` | The sets of matches to ignore, in the order tried (398-411). |
| `retry` | The retry loop (402-430): stops at the first success, otherwise keeps the last attempt. |
| `covered` | Atoms in some match (292-295). |
| `fragment` | `smarts_fragment_priority` (229-435) on a constructed molecule, with the catalogue of entries that have a priority (229): assignment and success flag. |
| `flat` | The concatenation of all matches (550-553, 584-587, 602-605). |
| `dups` | `[i for i, c in Counter(matched_atoms).items() if c > 1]` (556, 589), in order of first occurrence. |
| `containing` | `dup_smart_matches` (561-565): group, index, size. |
| `delAt` | `del all_matches[group][idx]` (581); `none` is `IndexError`. |
| `delAll` | The deletions of one round (578-582), with indexes taken before the round. |
| `dedupLoop` | The loop (558-590) with `k` rounds left; `none` is an exception. |
| `simple` | `smarts_fragment` (533-613): the returned counts, the surviving matches and the success flag. |

## Verif/Groups/GroupString.lean

Group assignment strings (`thermo/group_contribution/group_contribution_base.py` 100-166)

| definition | source |
|---|---|
| `intStr` | `str(z)` of an integer, as in the f-string of 129. |
| `split` | `s.split(sep)` (163, 164); `none` is the `ValueError` for an empty separator. |
| `toStr` | `group_assignment_to_str` (127-130). |
| `addGroup` | One round of the loop (164-165). |
| `ofStr` | `str_group_assignment_to_dict` (160-166); `none` is an exception. |

## Verif/Groups/PPR78.lean

The predictive Peng-Robinson model PPR78 (`thermo/group_contribution/ppr78.py` 251-970)

| definition | source |
|---|---|
| `step` | The body of the loop of 739-749 for one pair. |
| `complete` | The loops of 739-749. |
| `Comp` | A component: groups with counts and the constants of the pure fluid (770). |
| `Comp.total` | `sum(molecule_groups.values())` (867-868). |
| `Comp.alpha` | `alpha.get(group, 0.0)` (870-871, 877-880). |
| `calcM` | `calculate_m` (849-853). |
| `omegaA` | `OMEGA_A` (845). |
| `omegaB` | `OMEGA_B` (846). |
| `Comp.b` | `bi` (856-857). `R` is the gas constant. |
| `Comp.a` | `ai_T` (863-864). |
| `term1` | The double loop of 874-889; `none` is the `KeyError` of a pair that is not in the table. |
| `kij` | `PPR78_kij` (836-901); a component with groups whose counts are all zero divides by zero (870-871). |
| `kijs` | `PPR78_kijs` (947-970): the upper triangle is computed and mirrored, the diagonal stays zero. |
| `table78` | `PPR78_INTERACTIONS` (252-376), groups by `group_id`; generated from the source text. |
| `tableE78` | `EPPR78_INTERACTIONS` (379-731), groups by `group_id`; generated from the source text. |
| `demoTable` | A table with the entry of the two (ppr78.py, pair `CH4`, `C2H6`) and zero elsewhere. |

## Verif/Groups/Priority.lean

Priorities of groups (C153)

| definition | source |
|---|---|
| `count` | `'X' in atoms` and `atoms['X']` (38-56). |
| `tripleBond` | `TRIPLE_BOND` (32): with a space at its end. |
| `priority` | `priority_from_atoms` (35-62). |
| `groupPriority` | The priority of a subgroup (unifac.py 203-206). |
| `bromine` | Groups 64 and 131 of PSRK (unifac.py 495-496, 2099-2100, 2238-2239) with their matches in hydrogen bromide. |
| `Returned` | What `smarts_fragment_priority` returns: three values for a text that is not a molecule (222-225), else five. |
| `unpack` | `assignment, _, _, success, _ = …` of the callers (bondi.py 735, ppr78.py 1023); `none` is `ValueError`. |

## Verif/Package/Caloric.lean

Enthalpy and entropy of the ideal property package (`thermo/property_package.py` 887-904, 1052-1401)

| definition | source |
|---|---|
| `Data` | Data of the components: integrals of the heat capacity of the gas, and of it over temperature, from the reference temperature; enthalpy of vaporization; vapor pressure; liquid volume; whether liquid enthalpy depends on pressure (1053); and the gas constant. |
| `poynting` | Lines 1245-1251. |
| `enthalpy` | `enthalpy_Cpg_Hvap` (1230-1261). |
| `mixing` | Composition entropy (1368). |
| `entropy` | `entropy_Cpg_Hvap` (1365-1401). |
| `gibbs` | `Gm` (1146). |
| `gibbsExtensive` | `n_tot` times the Gibbs energy of a gas of the normalized amounts (1177-1184). |
| `Tref` | `T_REF_IG` (557). |
| `gasB` | Lines 1283-1286. |
| `enthalpyB` | `enthalpy_Cpl_Cpg_Hvap` (1273-1295). |
| `Sfs` | `Sfs` (1130-1131). |
| `hReactive` | `Hm_reactive` (888-892); `none` is an exception. |
| `sReactive` | `Sm_reactive` (895-899). |
| `gReactive` | `Gm_reactive` (902-904). |
| `copy` | `__copy__` (573-575): the stored arguments (1133-1138) are without properties of formation. |

## Verif/Package/CaloricFlash.lean

C134: flashes of property packages at given enthalpy or entropy

| definition | source |
|---|---|
| `outside` | What happens after a `ValueError` (740-758, 809-827). |
| `outsideP` | The same for pressures (868-886), where entropy falls. |
| `byFraction` | The search over vapour fractions (736-737, 803-804, 864-865) inside the same `try`. |
| `flashPH` | `flash_PH_zs_bounded` (689-758). |
| `flashPS` | `flash_PS_zs_bounded` (761-827). |
| `flashTS` | `flash_TS_zs_bounded` (829-886). |
| `atP` | `kwargs.update(...)` of a solution for the temperature at a pressure (639-644). |
| `atT` | `kwargs.update(...)` of a solution for the pressure at a temperature (636-638). |
| `choose` | The choice of the flash (636-652). |
| `enthalpyAt` | Enthalpy and entropy of the package after `flash` (666-667; the pair is chosen in the order 597-602). |
| `flashCaloric` | `flash_caloric` (630-672): exceptions end in the status. |
| `boundsT` | The bounds of temperature (694-704). |
| `boiling` | A pure liquid boiling at 400 K. |
| `condensing` | A gas condensing at 1000 Pa. |

## Verif/Package/Ideal.lean

The ideal property package (`thermo/property_package.py` 58-91, 552-628, 907-1049)

| definition | source |
|---|---|
| `xs` | Line 89. |
| `ys` | Line 90. |
| `vMin` | Line 71, for the smallest and largest `K` values at `l` and `m`. |
| `vMax` | Line 72. |
| `dew` | `1.0/sum(zs[i]/Psats[i])` (999, 1027). |
| `bubble` | `sum(zs[i]*Psats[i])` (1000, 1025). |
| `flashTP` | `flash_TP_zs_ideal` (994-1009). For one component dew and bubble pressures are the vapor pressure (996-997), which the sums give as well. |
| `flashTVF` | `flash_TVF_zs_ideal` (1015-1032) for mixtures; `root` is the pressure found by `brenth`. The first component is the pressure. |
| `flashPVF` | `flash_PVF_zs_ideal` (1037-1049) for mixtures; `T` is the temperature found by `brenth`, `psat` the vapor pressures at a temperature. |
| `tol` | `PHASE_ROUNDING_TOL` (552). |
| `restore` | Lines 606-612. |
| `rounded` | Lines 614-618. |
| `finish` | The result of `flash` (606-626), from that of the flash by the specified pair. |
| `Pair` | Which flash is made (597-604). |
| `pairOf` | Lines 597-604, from which of `T`, `P` and `VF` are given; `none` is the exception. |

## Verif/Phases/CeosPhase.lean

Phases from a cubic equation of state (`thermo/phases/ceos.py`, `IdealGasDeparturePhase` of `thermo/phases/phase.py`)

| definition | source |
|---|---|
| `readRoot` | Reading an attribute: `try: return eos_mix.X_g; except AttributeError: return eos_mix.X_l` (`CEOSGas`, 605-877; `CEOSLiquid`, 892-1166, the other way around). An attribute of a root exists when the root does; `none` is the second `AttributeError`. |
| `Cp_dep` | `Cp_dep` (`eos.py` 1446). |
| `dH_dep_dV_T` | `dH_dep_dV_T` (`eos.py` 5606, 5618), `dH_dep_dV_P` (5630, 5642). |
| `phase` | The methods of a phase at a root `V` of the equation of state. Lines of `phase.py`: `H` 5924-5937, `S` 5939-5961, `Cp`, `dH_dT` 5963-5979, `dH_dP` 5981-5987, `dH_dT_V` 5991-5994, `dH_dP_V` 5996-5999, `dH_dV_T` 6001-6002, `dH_dV_P` 6004-6007, `d2H_dT2` 6009-6023, `dS_dT` 6048-6051, `dS_dP` 6053-6058, `dS_dT_V` 6063-6089, `dS_dP_V` 6092-6095. Lines of `ceos.py` (`CEOSGas`; `CEOSLiquid` is the same with the roots exchanged): pressure derivatives 737-773, `d2H_dTdP` 830-834, mixed derivatives 849-871. |
| `d2H_dT2_V` | `d2H_dT2_V` (`phase.py` 6025-6033). |
| `demoCeos` | The example fluid of C56 with a monatomic ideal gas part. |

## Verif/Phases/CriticalPoint.lean

Mechanical critical point of phases and of bulks

| definition | source |
|---|---|
| `roots` | `sqrt` of each critical temperature (4148); a negative one raises. |
| `sums` | The sums of 4144-4153, given the numbers. |
| `guesses` | The guesses (4136-4156): the constants of the phase, of its equation of state, or of the package; any exception gives the defaults. The lists are taken to have `N` entries if they have enough. |
| `dPdrho` | `dP_drho` (3370-3371). |
| `d2Pdrho2` | `d2P_drho2` (3404-3405). |
| `gasP1` | An ideal gas (`ideal_gas.py` 353, 385). |
| `setPhase` | `Phase._set_mechanical_critical_point` (4159-4177). The volume is that of the phase made by the last call of the function. |
| `setCeos` | `CEOSPhase._set_mechanical_critical_point` (383-392): `vl`, `vg` are the attributes `V_l`, `V_g` of the new equation of state. |
| `getter` | `Tmc`, `Pmc`, `Vmc` (4179-4222). |
| `zmc` | `Zmc` (4224-4233). |
| `mean` | `Bulk.Tmc`, `Pmc`, `Vmc`, `Zmc` (1626-1672): means over phases. |

## Verif/Phases/Direct.lean

Direct fugacity coefficients, humid air and phases as states (`thermo/phases`)

| definition | source |
|---|---|
| `activityKernel` | `activity_lnphis` (`thermo/phases/phase_utils.py` 72-85); `none`: `ValueError`. |
| `kernel` | `lnphis_direct` (93-114). |
| `Eos.id` | `model_id` (`thermo/eos_mix.py` 6077, 6516, 6849, 7897, 8305, 8474, 8658, 9027, 9448, 9658, 9806, 9971, 10103, 10570, 10816, 11071, 11228, 11372). |
| `Eos.parent` | The parent class (the one with the volume function): class statements of `thermo/eos_mix.py` 6010-11279. |
| `Eos.translated` | Attribute `translated` (335, 7888, 9030), inherited. |
| `argCount` | Number of arguments after `zs, T, P, N`: of `CEOSPhase.lnphis_args` (`thermo/phases/ceos.py` 312-317) and of the kernels (`thermo/eos_mix_methods.py`). |
| `Act.id` | `model_id` (`activity.py` 1178, `nrtl.py` 569, `wilson.py` 578, `uniquac.py` 637, `regular_solution.py` 529, 1267, 1639, `unifac.py` 5289-5293). |
| `liquidId` | `GibbsExcessLiquid.model_id` (`thermo/phases/gibbs_excess.py` 558). |
| `activityLnphis` | The loop of `activity_lnphis` (87-90). |
| `fugacitiesDirect` | `fugacities_direct` (116-121), without the truncation of the exponential. |
| `Buffers` | The arguments of `GibbsExcessLiquid` are stored with their output list (712-722): a phase's buffer after a call, and what the list returned by an earlier call now holds. |
| `directCall` | `lnphis_direct(zs, *phase.lnphis_args())`: for an activity model (`keep`) the arguments and so the list are those of the first call, for a cubic equation (`thermo/phases/ceos.py` 302-317) they are new each time. |
| `rootsAllowed` | Which roots the kernel of a cubic phase may use (`thermo/phases/ceos.py` 302-317): liquid, gas. The argument `most_stable` is not used (the line using it is commented out, 311). |
| `humidB` | `HumidAirRP1485.B` (`thermo/phases/air_phase.py` 208-219). |
| `humidC` | `HumidAirRP1485.C` (221-234). |
| `Humid` | The constructor: fractions and mixture molecular weight (194-206): `zs` is air, then water. |
| `humidSfs` | `Sfs` (184-187); an absent list or entry gives none. |
| `asState` | `as_EquilibriumState` (`thermo/phases/phase.py` 5651-5690). |
| `guessT` | The first guess (`thermo/phases/phase.py` 4144-4153). |

## Verif/Phases/ExcessLiquid.lean

Liquids with an excess Gibbs energy model (`thermo/phases/gibbs_excess.py`)

| definition | source |
|---|---|
| `Pure` | Functions of temperature of one component: `Psats`, `dPsats_dT`, `d2Psats_dT2`, `lnPsats`, `dPsats_dT_over_Psats`, `d2Psats_dT2_over_Psats` (839-1233), `Vms_sat`, `dVms_sat_dT`, `d2Vms_sat_dT2` (1235-1358), `phis_sat`, `dphis_sat_dT`, `d2phis_sat_dT2` (1720-1834), `Hvaps` (1405-1430). |
| `poy` | `Poyntings` (1514-1529). |
| `dPoy_dT` | `dPoyntings_dT` (1537-1561), also `dPoyntings_dT_at` (1564-1587). |
| `d2Poy_dT2` | `d2Poyntings_dT2` (1594-1637). |
| `dPoy_dP` | `dPoyntings_dP` (1649-1661). |
| `d2Poy_dPdT` | `d2Poyntings_dPdT` (1677-1715). |
| `phiSat` | `phis_sat` (1759-1761), `dphis_sat_dT` (1798-1800), `d2phis_sat_dT2` (1820-1822): constants if not used. |
| `Liquid` | A `GibbsExcessLiquid` at fixed composition: ideal gas functions, components, activity coefficients and excess Gibbs energy with their derivatives, and the flags `use_Poynting`, `use_phis_sat`, `use_Hvap_caloric`, `composition_independent` (453-494, 552). |
| `phis` | `phis` (1896-1899), also `phis_at` (1847-1848). |
| `lnphis` | `lnphis` (1908); the branch for failing logarithms is `lnphis_fallback`. |
| `lnphis_fallback` | `lnphis` after an exception (1911-1930). |
| `dphis_dT` | `dphis_dT` (1964-1994), also `dphis_dT_at` (1996-2034). |
| `dlnphis_dT` | `dlnphis_dT` (2041-2044). |
| `dlnphis_dP` | `dlnphis_dP` (2083-2086). |
| `exH` | `HE`, `SE`, `CpE`, `dSE_dT` of the model, added unless the model is an ideal solution (2364-2365, 2660-2661, 2850-2851, 3027-3028). |
| `H` | `H` (2314-2367). |
| `S` | `S` (2591-2663). |
| `ab` | The terms `a` and `b` of `Cp` and `dS_dT` in their four branches (2816-2849, 2992-3026). |
| `Cp` | `Cp` (2811-2853). |
| `dS_dT` | `dS_dT` (2987-3030). |
| `dH_dP` | `dH_dP` (3037-3059). |
| `dS_dP` | `dS_dP` (3067-3091). |
| `V` | `V` (3108-3118), `dV_dT` (3125-3131). |
| `G` | `G` (`phase.py` 1450). |
| `H_dep` | `H_dep`, `S_dep`, `Cp_dep` (3093-3100). |

## Verif/Phases/ExcessState.lean

State and data of `GibbsExcessLiquid` and `GibbsExcessSolid` (`thermo/phases/gibbs_excess.py`)

| definition | source |
|---|---|
| `Flags` | The attributes set at 453-494; `none` is an attribute that was not set. |
| `equilibriumFlags` | `__init__` 453-468. |
| `caloricFlags` | `__init__` 470-494. |
| `Flags.equilibrium` | What `phis` reads (1514, 1759), and what `H`, `S`, `Cp` read (2323, 2329, 2611, 2779). |
| `SolidArgs` | Options of a `GibbsExcessSolid` (3390-3400). |
| `LiquidArgs` | What `__init__` of the liquid is called with (3401-3404); `none` is the default of that method. |
| `solidInit` | `GibbsExcessSolid.__init__` (3401-3404). |
| `fitAttrs` | Attributes that `_set_poly_fit` of a correlation object sets (`utils/t_dependent_property.py` 2886-2911); the hook of `VolumeLiquid` and `VolumeSolid` adds `poly_fit_Tmin_quadratic` (`volume.py` 440-461, 1829) if it succeeds. |
| `psatReads` | Attributes the constructor reads from vapor pressures (354-367), volumes (390-400) and enthalpies of vaporization (436-440) with method `POLY_FIT`. |
| `readFits` | The part of the constructor that reads fits: `methods` are the methods of the objects, all objects of a kind having the attributes `attrs` (351-368, 388-400, 434-440). |
| `toTP` | Temperature and pressure of the phase `to` returns (587-602); `none` inside is an attribute that is not set, `none` outside the `ValueError`. `solveP T V` and `solveT P V` are the results of the secant solvers. |
| `Q` | Stored values that `transfer_data` handles (665-704). |
| `blocks` | The blocks of 666-704. |
| `toTPzs` | `to_TP_zs` (565-574) with `transfer_data` (607-707). |
| `ask` | A method with a stored value (for example 890-925): return it, or compute and store it. |
| `fill` | `Psats` (915-918) and `phis_sat` (1764-1773): the list is stored before it is filled; `evals` are the results of the components, `none` an exception. Returns the result of the call and what is stored after it. |
| `Fit` | A polynomial fit of a liquid volume: limits, coefficients, value and slope at the upper limit, and the quadratic used below the lower limit (390-400). |
| `V` | `_Vms_sat_at` (1239-1252). |
| `dV` | `_dVms_sat_dT_at` (1298-1308). |
| `d2V` | `d2Vms_sat_dT2` (1346-1354); the second derivative of `horner_and_der2` is that of the quadratic. |
| `Ok` | What `_set_poly_fit` stores (`t_dependent_property.py` 2903-2904): value and slope of the polynomial. |
| `phiAt` | One entry of `phis_sat` (1766-1772) and `dphis_sat_dT` (1805-1811). |
| `vSat` | `Vms_sat` (1266-1292) and `Vms_sat_at` (1255-1258) of one component, at a temperature: volume of the fit, of the equation of state, and of the correlation. |
| `psats` | `Psats` (915-925), `lnPsats` (1078-1085), `dPsats_dT` (989-996), `dPsats_dT_over_Psats` (1177-1186). |
| `psatsOfPhisAt` | Vapor pressures `phis_at` uses (1840, 852-858): `Psats_at` moves to the temperature but keeps the composition of the phase. |
| `dP_dV` | The pressure derivatives of an incompressible liquid (3147-3215): `big` is `INCOMPRESSIBLE_CONST`; `none` is the `AttributeError` of a phase with `use_Tait`. |
| `vol` | `Tait_Vs` (3277). |
| `integral` | `dH_dP_integrals_Tait` (3335-3351). |

## Verif/Phases/Fugacity.lean

Fugacities, consistency checks and formation properties (`thermo/phases/phase.py`)

| definition | source |
|---|---|
| `phis` | `phis` (1118-1138). |
| `fugacities` | `fugacities` (1008-1030). |
| `lnfugacities` | `lnfugacities` (1032-1057). |
| `lnphis_lowest_Gibbs` | `lnphis_lowest_Gibbs` (1061-1074) from the fugacities. |
| `dphis` | `dphis_dT` (1140-1174), `dphis_dP` (1176-1211). |
| `dphis_dzs` | `dphis_dzs` (1213-1249). |
| `dfugacities_dT` | `dfugacities_dT` (1076-1103). |
| `dfugacities_dP` | `dfugacities_dP` (1252-1286). |
| `dfugacities_dns` | `dfugacities_dns` (1288-1326). |
| `dlnfugacities_dns` | `dlnfugacities_dns` (1328-1355). |
| `H_from_phi` | `H_from_phi` (795-818). |
| `S_from_phi` | `S_from_phi` (820-844). |
| `V_from_phi` | `V_from_phi` (846-867). |
| `G_dep_phi` | `G_dep` of `G_dep_phi_consistency` (689-696), `H_dep` of `H_dep_phi_consistency` (719-726), `S_dep` of `S_dep_phi_consistency` (751-759). |
| `consistency` | The value of the six checks (645, 668, 697, 728, 760, 792); `none` is the `ZeroDivisionError`. |
| `G_min_criteria` | `G_min_criteria` (869-896). |
| `reactive` | `H_reactive` (2051-2077), `S_reactive` (2079-2105), `G_reactive` (2122). |
| `U_reactive` | `U_reactive` (2140), `A_reactive` (2158). |
| `chemical_potential` | `chemical_potential` (2440-2468). |
| `formation` | `H_formation_ideal_gas` (2161-2188), `S_formation_ideal_gas` (2190-2217); without numpy (the numpy branch 2183 of the former calls `float` with two arguments and always raises). |
| `V_ideal_gas` | `V_ideal_gas` (3836-3846). |
| `G_formation` | `G_formation_ideal_gas` (2236), `U_formation_ideal_gas` (2256), `A_formation_ideal_gas` (2276). |
| `gibbsOf` | Gibbs energy of a phase of composition `z` with departure `Gd` (`G`, 1432-1452, with `H` and `S` of `IdealGasDeparturePhase`). |

## Verif/Phases/Gibbs.lean

Phases from a Gibbs energy (`thermo/phases/gibbs_eos.py`, `IAPWS06` of `thermo/phases/iapws_phase.py`)

| definition | source |
|---|---|
| `V` | `V` (31), `dV_dP` (42), `dP_dV` (47), `d2V_dP2` (52), `dV_dT` (55), `dT_dV` (58), `d2V_dT2` (63), `d2V_dTdP` (66), `dP_dT` (70), `dT_dP` (75). |
| `H` | `H` (81), `S` (84), `Cp` (87), `U` (90), `A` (93). |
| `dS_dT` | `dS_dT` (96), `d2S_dT2` (100), `dS_dP` (104), `d2S_dP2` (109), `d2S_dTdP` (112). |
| `IceConst` | The constants of the model (666-691): molar mass in kg, triple point temperature and pressure, reference pressure, `g0n`, `s0`, `t1`, `r1`, `t2`, `r2n`. |
| `tau` | `tau` and `v0 = pi - pi0` (748-760). |
| `r2` | `r2`, `r2p`, `r2pp` (761-766, 699), the folded coefficients of the code written as the products they stand for. |
| `g0` | `g0`, `g0p`, `g0pp` (767-772), likewise. |
| `br` | The bracket with logarithms that occurs in `g_real_sum` (790-791) and as `x0` (802). |
| `br1` | The bracket of `g_T_real_sum` (795) and `g_TP_real_sum` (809), and that of `g_TT_real_sum` (798-799). |
| `g` | `g` (792), `g_T` (796), `g_TT` (800), `g_P` (805), `g_PP` (807), `g_TP` (810). |
| `supply` | What `IAPWS06` supplies (821-844). It has no third derivatives; these entries are not used. |
| `_V` | The stored volume `_V` (814-815): `rho_to_Vm(1/g_P, MW)`. |
| `iapws06` | The constants of the code (663, 666, 674-691). |

## Verif/Phases/Helmholtz.lean

Phases from a reduced Helmholtz energy (`thermo/phases/helmholtz_eos.py`)

| definition | source |
|---|---|
| `Fluid` | The constants and functions a subclass of `HelmholtzEOS` supplies (`iapws_phase.py` 41-85, `air_phase.py` 35-73): gas constant, `T_red`, `rho_red`; the `tau` part of `A0` with its derivatives; `_Ar_func`, `_dAr_ddelta_func` etc. as functions of `tau` and `delta`. |
| `tau` | `tau` (`iapws_phase.py` 133, `air_phase.py` 123) and `delta` (134, 124), `rho_red_inv` (58, 44). |
| `A0_at` | The attribute `A0` at a state: `iapws95_A0_tau_derivatives`, `lemmon2000_air_A0`, the `log delta` made explicit. |
| `A` | `A` (71): what the method returns. |
| `dA_ddelta` | `dA_ddelta` (80), `d2A_ddelta2` (89), `d3A_ddelta3` (99). |
| `dA_dtau` | `dA_dtau` (107), `d2A_dtau2` (115), `d2A_ddeltadtau` (123), `d3A_ddelta2dtau` (131), `d3A_ddeltadtau2` (139). |
| `P` | The pressure of the state: `iapws95_P`, `lemmon2000_P`. |
| `S` | `S` (243), `H` (316). |
| `dP_dT` | `dP_dT` (455), `dP_dV` (474). |
| `d2P_dT2` | `d2P_dT2` (487), `d2P_dV2` (525), `d2P_dTdV` (548-549). |
| `dS_dT_V` | `dS_dT_V` (262), `dS_dV_T` (281), `dS_dP_T` (286), `dS_dT_P` (296), `dS_dP_V` (301). |
| `dH_dT_V` | `dH_dT_V` (357-359), `dH_dV_T` (382), `dH_dP_V` (386), `dH_dP_T` (390). |
| `Cv` | `Cv` (408), `Cp` (434-436). |
| `dH_dV_P` | `dH_dV_P` (394), with `dV_dT_P` of the base class (`phase.py` 2743). |
| `lnphi` | `lnphis` (152-153). |
| `dlnphi_dV_T` | `dlnphis_dV_T` (166-175). |
| `dlnphi_dT_V` | `dlnphis_dT_V` (197-206). |
| `dlnphi_dT_P` | `dlnphis_dT_P` (215), `dlnphis_dP_V` (220), `dlnphis_dV_P` (223), `dlnphis_dP_T` (226). |
| `S_dep` | `S_dep` (247-248), `H_dep` (325-330). |
| `G_dep` | `G_dep` of the base class (`phase.py` 1926). |
| `B_virial` | `B_virial` (554-557), `dB_virial_dT` (568), `d2B_virial_dT2` (587), `d3B_virial_dT3` (616). |
| `C_virial` | `C_virial` (626), `dC_virial_dT` (637), `d2C_virial_dT2` (656). |
| `Sub.has_d4Ar_ddeltadtau3` | Whether the class body defines `_d4Ar_ddeltadtau3_func` (`iapws_phase.py` 76-85, `air_phase.py` 55-73). |
| `d3B_call` | The call `d3B_virial_dT3()` (609-616): the lookup of the function fails inside the `try` at 611, and again at 615 outside of it. |

## Verif/Phases/HenryLaw.lean

Henry's law in `GibbsExcessLiquid` (`thermo/phases/gibbs_excess.py` 342-352, 499-552, 725-1048, 1177-1233)

| definition | source |
|---|---|
| `slice` | `[[i[k] for i in l] for l in henry_abcdef]` (517-522); `none` is an index error. |
| `parameters` | `__init__` 504-550: one argument with all the parameters, or up to six matrices, those missing being zero. |
| `readMode` | `__init__` 499-501, 812. |
| `components` | `__init__` 345-347: the flags of the components, and whether there is any. |
| `polyFit` | `__init__` 351 and 552. |
| `documented` | The documented form of `henry_abcdef` (178): "tuple[list[list[float]], 6]", six matrices. |
| `lnHenry` | `lnHenry_matrix` (725-754): `nrtl_taus` under another name (37). |
| `dlnHenry` | `dlnHenry_matrix_dT` (756-781). |
| `d2lnHenry` | `d2lnHenry_matrix_dT2` (783-808). |
| `d2Henry` | `d2Henry_constants_dT2` of the `chemicals` package as documented (828-836). |
| `d2Psats` | `d2Psats_dT2` (1041-1048) and `d2Psats_dT2_over_Psats` (1225-1233). |
| `askPsats` | `Psats` (890-925) of a phase with Henry's law components: the list is stored empty and then filled. Second: what is stored after the call. |
| `askSecond` | `d2Psats_dT2` (998-1048): stored empty, then whole, then changed. |
| `askRatio` | `dPsats_dT_over_Psats` (1177-1186) and `d2Psats_dT2_over_Psats` (1225-1233): stored last. |

## Verif/Phases/IdealGas.lean

The ideal gas phase (`thermo/phases/ideal_gas.py`)

| definition | source |
|---|---|
| `Cp` | `Cp_ideal_gas` (`phase.py` 3848-3856), `Cp` (519-524). |
| `dCp` | `d2H_dT2` of the ideal gas (560-565). |
| `H` | `H_ideal_gas` (`phase.py` 3790-3797), `H` (463-472). |
| `S` | `S_ideal_gas` (`phase.py` 3815-3830), `S` (490-501). |
| `toTP` | Pressure and temperature of `to` (287-296) from two of temperature, pressure and volume; `none` is the `ValueError`. |
| `gasV` | `V` (324). |
| `gasP` | Pressure of the state, by `to` (288). |
| `idealGas` | The methods of `IdealGas` that the base class relies on. Line numbers: `dP_dT` 338, `dP_dV` 353, `d2P_dT2` 369, `d2P_dV2` 384-385, `d2P_dTdV` 401-402, `dH_dT`, `dH_dT_V` 526-527, `dH_dP` 541, `d2H_dTdP` 593, `dH_dP_V` 609, `dH_dV_T` 625, `dH_dV_P` 641, `dS_dT` 659, `dS_dP` 675, `dS_dT_V` 706, `dS_dP_V` 723, `d2P_dTdP` 727, `d2P_dVdP` 730, `d2P_dVdT_TP` 733, `d2P_dT2_PV` 736. |
| `dV_dT` | The base class methods `IdealGas` replaces: `dV_dT` (411), `d2V_dP2` (417-418), `dV_dP` (424-425), `dT_dP` (428), `dT_dV` (431); `d2T_dV2`, `d2V_dT2`, `d2T_dP2` (405-421) are zero and `PIP` (414) is one. |
| `Methods.PIP` | `PIP` of the base class (`phase.py` 3094-3095) with `phase_identification_parameter` of `chemicals`. |

## Verif/Phases/MassFlows.lean

Mass basis, concentrations and flows of phases (`thermo/phases/phase.py`)

| definition | source |
|---|---|
| `MW` | `MW` (4509-4515). |
| `MWinv` | `MW_inv` (4535). |
| `ws` | `ws` (5162-5165). |
| `rhoMass` | `rho_mass` (4569). |
| `drhoMass` | `drho_mass_dT` (4608), `drho_mass_dP` (4647) with the derivative of the volume. |
| `sound` | The molar `speed_of_sound` (3255, documentation of `chemicals`). |
| `soundMass` | `speed_of_sound_mass` (4552). |
| `conc` | `concentrations` (5715-5720) and those with the molar density at a reference state. |
| `concMass` | `concentrations_mass` (5802-5807) and those with the density at a reference state. |
| `partialPressures` | `partial_pressures` (5893-5897). |
| `betasMass` | `betas_mass` of a result (equilibrium.py 556-565) or of a bulk phase (bulk.py 678-685). |
| `flow` | `n` (5376). |
| `massFlow` | `m` (5401): `bm` is `beta_mass`. |
| `Q` | `Q` (5426). |
| `energy` | `energy` (5323). |
| `ns` | `ns` (5451-5455). |
| `ms` | `ms` (5481-5485). |
| `Qgs` | `Qgs` (5513-5519). |
| `Qls` | `Qls` (5572-5577). |
| `flow?` | The mole flow, when there may be no result or no flow in it (5371-5379). |
| `Qgs?` | `Qgs` (5508-5520) without a result (`settings` raises) or without a flow (`None` times a number raises); no exception is caught. |
| `Qg?` | `Qg` (5540-5548): exceptions become `None`. |
| `bulkBeta` | `Bulk.beta` (bulk.py 662). |
| `bulkBetaMass` | `Bulk.beta_mass` (bulk.py 689). |
| `bulkV` | `Bulk.V` (bulk.py 996-1001). |
| `bulkH` | `Bulk.H` (bulk.py 1068-1073). |
| `bulkZs` | The composition of a bulk phase (equilibrium.py 298-299): normalised. |
| `bulkPhase` | The bulk phase of the liquids as a phase (equilibrium.py 300): the phase fractions are those of the result. |
| `SfromPhi` | `S_from_phi` (835-844), also inside `S_phi_consistency` (636-644). |
| `HfromPhi` | `H_from_phi` (810-818). |
| `Gcheck` | `G_dep_phi_consistency` (689-697). |
| `Hcheck` | `H_dep_phi_consistency` (719-728). |
| `Vcheck` | `V_phi_consistency` (783-792). |
| `gammas` | `gammas` (2528-2535) for fugacity coefficients as a function of composition. |
| `diluted` | The composition at which `gammas_infinite_dilution` (2570-2572) evaluates component `i`: `none` is `ZeroDivisionError`. |
| `gammasInf` | `gammas_infinite_dilution` (2569-2576). |
| `getList` | `_Cpls_pure`, `_Cpl_integrals_pure`, `_Cpl_integrals_over_T_pure` (3694-3759): `stored` is the name under which the list is kept. What is returned and the new instance. |
| `asState` | `as_EquilibriumState` (5651-5690): `none` is an exception. Of a bulk phase `assigned_phase` is `phase_bulk` (bulk.py 648). |

## Verif/Phases/Phase.lean

Derivatives of a phase (`thermo/phases/phase.py`, class `Phase`)

| definition | source |
|---|---|
| `dT_dP` | `dT_dP` (2720), `dV_dT` (2743), `dV_dP` (2763), `dT_dV` (2782). |
| `d2V_dP2` | `d2V_dP2` (2801-2803). |
| `d2T_dP2` | `d2T_dP2` (2822-2825). |
| `d2T_dV2` | `d2T_dV2` (2854-2863). |
| `d2V_dT2` | `d2V_dT2` (2892-2903). |
| `d2V_dPdT` | `d2V_dPdT` (2926-2936). |
| `d2T_dPdV` | `d2T_dPdV` (2959-2967). |
| `Z` | `Z` (2685), `dZ_dT` (3308-3309), `dZ_dP` (3324), `dP_drho` (3370-3371), `dZ_dV` (3339). |
| `drho_dP` | `drho_dP` (3386-3387), `d2P_drho2` (3404-3405), `d2rho_dP2` (3421-3422). |
| `dT_drho` | `dT_drho` (3437-3438), `d2T_drho2` (3455-3456), `drho_dT` (3471-3472), `d2rho_dT2` (3488-3491). |
| `d2P_dTdrho` | `d2P_dTdrho` (3507-3509), `d2T_dPdrho` (3525-3527), `d2rho_dPdT` (3545-3549), `drho_dV_T` (3563-3564), `drho_dT_V` (3579). |
| `kappa` | `kappa` (3109), `dkappa_dT` (3126-3127), `isobaric_expansion` (3157), `disobaric_expansion_dT` (3184-3186), `disobaric_expansion_dP` (3214-3217), `isothermal_bulk_modulus` (3143). |
| `G` | `G` (1450), `U` (1470), `A` (1487). |
| `dS_dV_T` | `dS_dV_T` (4277), `dS_dV_P` (4288). |
| `dG_dT` | `dG_dT` (1550), `dG_dT_V` (1572), `dG_dP` (1592), `dG_dP_V` (1615), `dG_dV_T` (1635), `dG_dV_P` (1655). |
| `dU_dT` | `dU_dT` (1676), `dU_dT_V` (1698), `dU_dP` (1718), `dU_dP_V` (1740), `dU_dV_T` (1760), `dU_dV_P` (1780). |
| `dA_dT` | `dA_dT` (1800), `dA_dT_V` (1824-1825), `dA_dP` (1845), `dA_dP_V` (1868-1869), `dA_dV_T` (1889), `dA_dV_P` (1909). |
| `derivs_jacobian` | `_derivs_jacobian` (4476-4488) for `x = 'V'`, `y = 'T'` (4444-4445): the values are the derivatives of `a`, `b`, `c` by volume at constant temperature and by temperature at constant volume. |
| `Prop1` | Names over which the loop at 6135-6159 runs: the properties `T`, `P`, `V`, `rho`. |
| `dV_T` | `d{a}_dV_T` of the properties: `dT_dV_T` (4335), `dP_dV`, `dV_dV_T` (4419), `drho_dV_T`. |
| `dT_V` | `d{a}_dT_V` of the properties: `dT_dT_V` (4407), `dP_dT`, `dV_dT_V` (4347), `drho_dT_V`. |
| `generated` | The generated methods `d{a}_d{b}_{c}` (6141-6142). |
| `Cv` | `Cv` (2371-2373) with `Cp_minus_Cv` of `chemicals`. |
| `Joule_Thomson` | `Joule_Thomson` (3233) with the formula of `chemicals` for a given `dV_dT`. |
| `speed_of_sound` | `speed_of_sound` (3255) with the formula of `chemicals`. |
| `isentropic_exponent_PV` | `isentropic_exponent_PV` (2612), `isentropic_exponent_PT` (2632), `isentropic_exponent_TV` (2650). |
| `dCv_dT_P` | `dCv_dT_P` (2400-2409). |
| `dCv_dP_T` | `dCv_dP_T` (2432-2438). |
| `dspeed` | `dspeed_of_sound_dT_P` (5020-5033), `dspeed_of_sound_dP_T` (5074-5087): the same formula in four derivatives. |

## Verif/Phases/Special.lean

Phases with models of their own (`thermo/phases/iapws_phase.py`, `petroleum.py`, `combined.py`)

| definition | source |
|---|---|
| `Region` | Constants and functions of one of the regions 1, 2, 5 (205-210, 374-392): the reduced Gibbs energy and its derivatives as functions of `tau` and `pi` (222-315), from the `chemicals` package. |
| `tau` | `tau` and `pi` (374-375 and similarly). |
| `G` | `G` (227-237), `S` (503), `H` (517), `Cp` (582-583). |
| `V` | `_V` (370-371): `rho_to_Vm` of the density `iapws97_rho`, documented as `P / (R T pi dG_dpi)`. |
| `dV_dP` | `dV_dP` (612), `dV_dT` (634-635), `dP_dT` (645), `dP_dV` (650). |
| `Origin` | How an object came about: `__init__` (367-392), `to` with temperature and pressure (424-426), with temperature or pressure and a volume (428-436). |
| `call` | A method called first on a fresh object in region 1, 2, 3 or 5. `V` (467) is shadowed by the attribute `new.V = V` of 430 and 435, a number. `U` (485) calls the number `self.T`. `Cv` (521-546) ends without `return`. In region 3 only `Cp` has a branch of its own (555); the others reach `self._X = X` with `X` unassigned. |
| `to_TP_zs` | `to_TP_zs` (396-415): the stored state of the receiver and the state asked for give the state of the receiver afterwards (`_rho_mass`, `_V`, `region`, `pi`, `tau` are set on `self`, `T` and `P` are not) and the result. |
| `Coeffs` | Ten coefficients: those of the simple fluid, hydrogen or methane (40-42, 170-172). Their values are not modelled. |
| `Kind` | The component, by its CAS number (145-152): regular, hydrogen, methane. The `else` branch at 151 is unreachable. |
| `kindOf` | `regular` (97) and the choice of coefficients (145-152). |
| `log10_v0` | `log10_v0` (155) and `log10_v1` (156-158). |
| `nu` | One entry of `nus` (142-165) for a component, `regular` or not. |
| `phi` | An entry of `phis` (118) and of `lnphis` (128). |
| `ToResult` | `to` (72-81): what is made, if anything. |
| `Group` | The three groups of properties (92-122). |
| `Combined` | The attributes of the object (40-43). `other_props` is a dictionary from names to indices, or `None`. |
| `Combined.answer` | A generated method (66-90) and `lnphis` (50-56): the index of the phase that answers. `name in None` raises. |
| `method` | Methods by name: the key they look up, and their group (50-63, 92-122). |
| `Combined.G` | `G` of the base class (`phase.py` 1450) on a combined phase: `H()`, then the attribute `T`, which the constructor does not set (29-48). |

## Verif/Phases/States.lean

Phases at other states, and the cache of CoolProp states (`thermo/phases/*.py`)

| definition | source |
|---|---|
| `idealTo` | `IdealGas.to` (`thermo/phases/ideal_gas.py` 284-309); `V()` is computed from `T` and `P` (313-324). |
| `airTo` | `DryAirLemmon.to` (`thermo/phases/air_phase.py` 102-130); densities are molar. |
| `airInit` | `DryAirLemmon.__init__` (75-85) and `to_TP_zs` (87-100). |
| `waterTo` | `IAPWS95.to` (`thermo/phases/iapws_phase.py` 109-137); densities are by mass. |
| `waterInit` | `IAPWS95.__init__` (88-95) and `to_TP_zs` (97-107). |
| `ceosTo` | `CEOSPhase.to` (`thermo/phases/ceos.py` 245-286) by the equation of state object: with only a temperature the inner `if` has no `else`, and no object is made. |
| `iceTo` | `IAPWS06.to` (`thermo/phases/iapws_phase.py` 714-744), with the results of the solvers: the same shape. |
| `virialTo` | `VirialGas.to` (`thermo/phases/virial_phase.py` 1882-1922): this one has the `else`. |
| `coolpropTo` | `CoolPropPhase.to` (`thermo/phases/coolprop_phase.py` 280-331): without two arguments `key` is never assigned. |
| `waterDefault` | Default temperature and pressure of `IAPWS95` (`iapws_phase.py` 88) and `DryAirLemmon` (`air_phase.py` 75). |
| `Key` | The arguments of `caching_state_CoolProp`, which are also its key (`thermo/phases/coolprop_phase.py` 102-108). |
| `CPgas` | Phase flags (`thermo/phases/coolprop_phase.py` 151-153). |
| `otherPhase` | The other phase of line 127. |
| `call` | `caching_state_CoolProp` (`thermo/phases/coolprop_phase.py` 102-149) with at most `n` states: the identity of the returned object, or `none` for an exception. |
| `Uniform` | Keys for which the composition is given exactly when the fluid needs one (215-224 and 286-290: decided by backend and fluid). |
| `st` | A state of pure fluid 1 at pressure `p` and temperature 300, asking for phase `ph`. |
| `setConstants` | `set_coolprop_constants` (`thermo/phases/coolprop_phase.py` 37-100): the flag assigned in line 43 is a local name. |
| `construct` | Constructing a phase (200-235). |
| `fromAS` | `from_AS` of a pure phase (`thermo/phases/coolprop_phase.py` 258-278). |
| `coolTo` | `to` with two arguments (280-331), the library object having the values `v`; `none` if `key` is unbound. |

## Verif/Phases/Transport.lean

Transport properties of phases

| definition | source |
|---|---|
| `ws` | `ws` (phase.py 5155-5166); `none` when the sum of products is zero and the division raises. |
| `Cls.isLiquid` | `is_liquid` (ceos.py 594-595, 881-882, ideal_gas.py 81-82, gibbs_excess.py 214-215, 3377-3378, virial_phase.py 967-968, petroleum.py 37-38). |
| `ceosPhase` | `phase` of `CEOSGas` and `CEOSLiquid` (ceos.py 598-603, 885-890), from the phase of the equation of state. |
| `looked` | The state of matter that `mu` and `k` of a cubic phase look at (ceos.py 350-354, 371-375). |
| `muCorr` | The correlation of `mu` (phase.py 5091-5097 for `VirialGas` and other classes, ceos.py 350-362, ideal_gas.py 761, gibbs_excess.py 3361). `GibbsExcessSolid` inherits from `GibbsExcessLiquid`. |
| `kOf` | The correlation of `k` for the phase a cubic phase looks at (ceos.py 376-381): no branch assigns `k` for other states. |
| `kCorr` | The correlation of `k` (ceos.py 371-381, ideal_gas.py 770, gibbs_excess.py 3369); other classes do not have the method. |
| `sigmaCorr` | The correlation of `sigma` (phase.py 5186-5196); `none` is the answer `None` for a gas, which is not stored. |
| `Cls.storesMu` | `VirialGas` and other classes have the method of `Phase`, which stores nothing (phase.py 5091-5097). |
| `mark` | The marks that `EquilibriumState.__init__` leaves on phase objects, given by numbers (equilibrium.py 284-315): the gas first, then each liquid; solids are not marked (319-325). |
| `nu` | `nu` of a phase (phase.py 5111-5114). |
| `alpha` | `thermal_diffusivity` of `chemicals` applied by `alpha` (phase.py 5133-5136); the outer `none` is the `TypeError` for a missing conductivity. |
| `prandtl` | `Prandtl` (phase.py 2667); `none` is an exception: a missing viscosity or conductivity or a conductivity of zero. |
| `nuState` | `nu` of an equilibrium state (equilibrium.py 1974): division of `None` raises, the outer `none`. |

## Verif/Phases/Virial.lean

The virial gas (`thermo/phases/virial_phase.py`, class `VirialGas`)

| definition | source |
|---|---|
| `P` | Pressure of `to` from temperature and volume (1892). |
| `dP_dT` | `dP_dT` (1267), `dP_dV` (1290). |
| `d2P_dTdV` | `d2P_dTdV` (1313-1316), `d2P_dV2` (1339-1341), `d2P_dT2` (1364-1367). |
| `H_dep` | `H_dep` (1405-1409). |
| `dH_dep_dT` | `dH_dep_dT` (1432-1439), also `Cp_dep` (1442). |
| `S_dep` | `S_dep` (1807-1810). |
| `dS_dep_dT` | `dS_dep_dT` (1837-1841), also `dS_dep_dT_P` (1844) and `dS_dep_dT_V` (1845). |
| `dT_dP` | `dT_dP` (`phase.py` 2720), `dV_dT` (2743), `dV_dP` (2763), `dT_dV` (2782). |
| `dB_dP_V` | `dB_dP_V` (2680), `dC_dP_V` (2683), `d2B_dTdP_V` (2686), `d2C_dTdP_V` (2689). |
| `dB_dV_P` | `dB_dV_P` (2698), `dC_dV_P` (2701), `d2B_dTdV_P` (2704), `d2C_dTdV_P` (2707). |
| `dH_dep_dP_V` | `dH_dep_dP_V` (1474-1490). |
| `dS_dep_dP_V` | `dS_dep_dP_V` (1516-1531). |
| `dH_dep_dP_T` | `dH_dep_dP_T` (1563-1570). |
| `dS_dep_dP_T` | `dS_dep_dP_T` (1604-1612). |
| `dH_dep_dV_T` | `dH_dep_dV_T` (1639-1644). |
| `dS_dep_dV_T` | `dS_dep_dV_T` (1672-1678). |
| `dH_dep_dV_P` | `dH_dep_dV_P` (1715-1727). |
| `dS_dep_dV_P` | `dS_dep_dV_P` (1766-1776). |
| `phase` | The methods of the phase. `H`, `S`, `Cp` and the derivatives are those of `IdealGasDeparturePhase` (`phase.py` 5924-6095); `dH_dT_V` is replaced by `Cp` (2740). |
| `err` | `err` of `to` from pressure and volume (1900-1913): the residual and the derivative given to `newton`. |
| `dV_dzs` | `dV_dzs_virial` of `chemicals` (1082): derivative of the volume at constant temperature and pressure. |
| `dG_dep_dzs` | `dG_dep_dzs` (1159-1186). |
| `lnphisVirial` | `lnphis` (1231-1242). |
| `B_mix` | `B_at` (1924-1940), `dB_dT_at` (1956-1972) and so on for the higher derivatives, by the coefficients of the pure components and of the pairs; `cross` is `has_cross_B_coefficients`. |
| `dB_dzs` | `dB_dzs` (2221-2234). |

## Verif/Phases/VirialMix.lean

Virial coefficients of mixtures (`thermo/phases/virial_phase.py`, classes `VirialCSP` and `VirialGas`)

| definition | source |
|---|---|
| `BModel` | `VIRIAL_B_MODELS` (88-98). |
| `CModel` | `VIRIAL_C_MODELS` (105-110). |
| `CrossModel` | `VIRIAL_CROSS_B_MODELS_SET`, `VIRIAL_CROSS_C_MODELS_SET` (112-118). |
| `Consts` | The constants of `VirialCSP` (359-444, 371-424); omitted parameter matrices are zero there. |
| `Tcij` | `Tarakad_Danner_virial_CSP_Tcijs` (428). |
| `Pcij` | `Tarakad_Danner_virial_CSP_Pcijs` (429). |
| `Vcij` | `Lee_Kesler_virial_CSP_Vcijs` (430). |
| `omegaij` | `Tarakad_Danner_virial_CSP_omegaijs` (431). |
| `bInter` | `B_interactions_at_T` (499-540). |
| `bPure` | `B_pures_at_T` (553-594) with the diagonals `B_model_Meng_as_pure` and so on (403, 410, 417). |
| `cInter` | `C_interactions_at_T` (715-739); the parameters are those of the second coefficient (433-436). |
| `cPure` | `C_pures_at_T` (741-763). |
| `Model` | `VirialCSP`: constants, temperature and the coefficients calculated so far (254-257, 543-603, 766-782). |
| `at'` | `VirialCSP.to` (446-495). |
| `getPureB` | `B_pures` and its derivatives (596-658). |
| `getCrossB` | `B_interactions` and its derivatives (543-550, 660-713). |
| `getPureC` | `C_pures` and its derivatives (766-773, 784-837). |
| `getCrossC` | `C_interactions` and its derivatives (775-782, 839-895). |
| `Gas` | `VirialGas`: `theoryB` and `theoryC` are `has_cross_B_coefficients` and `has_cross_C_coefficients` (997-998), `memoB`, `memoC` the cached values `_B`, `_dB_dT`, ... |
| `bAt` | `B_at`, `dB_dT_at`, `d2B_dT2_at`, `d3B_dT3_at` (1924-2056). |
| `cAt` | `C_at`, `dC_dT_at`, `d2C_dT2_at`, `d3C_dT3_at` (2058-2188). |
| `b` | `B`, `dB_dT`, `d2B_dT2`, `d3B_dT3` (1942-1954 and so on). |
| `c` | `C`, `dC_dT`, `d2C_dT2`, `d3C_dT3` (2078-2090 and so on). |
| `toTP` | `to_TP_zs` (1847-1866) and `to` with temperature and pressure (1868-1890). |
| `toTV` | `to` with temperature and volume (1882-1884, 1891-1893). |
| `toPV` | `to` with pressure and volume (1896-1918). |
| `create` | `VirialGas.__init__` (978-1014). |
| `dBdzs` | `dB_dzs`, `d2B_dTdzs`, `d3B_dT2dzs`, `d4B_dT3dzs` (2206-2327). |
| `d2Bdzizjs` | `d2B_dzizjs`, `d3B_dTdzizjs`, `d4B_dT2dzizjs` (2329-2418). |
| `d3Bdzizjzks` | `d3B_dzizjzks` and its aliases (2420-2451): all zero. |
| `dCdzs` | `dC_dzs` (2498-2528) for `k = 0` and `d2C_dTdzs` (2530-2560) for `k = 1`. |
| `d2Cdzizjs` | `d2C_dzizjs` (2565-2598). |
| `d3Cdzizjzks` | `d3C_dzizjzks` (2601-2632). |
| `dns` | `dB_dns`, `dC_dns` (2453-2473, 2634-2654). |
| `dnns` | `dnB_dns`, `dnC_dns` (2475-2496, 2656-2677). |

## Verif/Serialize/Arrays.lean

Arrays in saved objects (`/repo/thermo/serialize.py` 77-121, 254-262, 313-324, 344-379)

| definition | source |
|---|---|
| `Leaf` | The values without parts that a JSON document can hold (`primitive_serialization_types_no_containers`, 51). |
| `Val` | Python values: `npInt` and `npFlt` are the numpy scalars of `int_types` and `float_types` (38-41); an array has a type and its content as nested lists. |
| `toLists` | `arrays_to_lists` (77-96). |
| `toListsAll` | The loops of lines 82-83 and 85. |
| `arrayAll` | `tuple(array(v) for v in obj)` (117). |
| `len` | `len` (114, 116); `none` is the `TypeError` of a value without a length. |
| `differs` | The loop of lines 115-117: does an element with another length come before one without a length? |
| `fromList` | The branch for lists (110-120). |
| `fromLists` | `naive_lists_to_arrays` (99-121). |
| `fromListsAll` | The loops of lines 104-105, 107 and 109. |
| `saved` | A value of a `vectorized` object saved, written as text, read and loaded (313-314, 345-346). |
| `isTag` | `o.startswith('pyid_')` (354, 360, 369). |
| `findAll` | The objects with the given names, each loaded when it is not in the table (361-365, 370-374); `find` is the table after loading, `none` the exception for a name that is not in the document. |
| `resolve` | The branches of lines 353-375. |
| `loadField` | One searched field in `from_json`: the conversion to arrays of a `vectorized` object comes first (345-346), the names are replaced afterwards (348-375). |
| `names` | The names `as_json` writes for a list of objects (279-289). |
| `written` | The field names written for an object and all objects below it, in the order of writing; an object passes `cache` and not `option` to the objects it refers to (287, 299, 310). |

## Verif/Serialize/Json.lean

`as_json` / `from_json` (`/repo/thermo/serialize.py` 213-382): C08

| definition | source |
|---|---|
| `pyid` | `f'pyid_{num}'` (serialize.py 285, 297, 308). |
| `isTag` | `o.startswith('pyid_')` (serialize.py 354, 360, 369). |
| `Searched` | Which fields of a class are searched for objects: `obj_references`, or every field when it is `None` (serialize.py 265, 344). |
| `encodable` | What `as_json` can handle in one field (serialize.py 268-311): in a searched field a container of primitives makes `v.as_json` raise `AttributeError`; in a field that is not searched an object reference stays in the output and the JSON text cannot be written. |
| `renderVal` | Writing a walked value: references become strings (serialize.py 288-289, 300-301, 311). |
| `renderObj` | Writing an object with its class path (serialize.py 315). |
| `asJson` | `as_json` (serialize.py 233-324). |
| `parseVal` | Reading a field value (serialize.py 348-375): in a searched field a string starting with `pyid_` is a reference; a list (dict) is a list of references when its first entry is such a string. A non-empty list of other strings stays as data. |
| `decSrc` | The document as seen by `from_json`: a missing name or a missing `py/object` entry raises `KeyError` (serialize.py 330-333). |
| `fromJson` | `from_json` (serialize.py 326-382): the new objects, numbered in order of creation, and the document afterwards, in which the `py/object` entry of every visited object has been deleted in place (334-335). |

## Verif/Serialize/Traverse.lean

Depth-first copy of an object graph with a memo table

| definition | source |
|---|---|
| `Obj` | An object: class name and fields in order (`object_data`, serialize.py 248). |
| `visitRef` | One reference (serialize.py 281-288, 293-300, 304-311; 355-357, 363-365, 372-374): known objects are looked up; a new object claims the next name first, then is walked, then stored. |
| `visitList` | The loop over a list of references (280-288, 362-365). |
| `visitVal` | One field value (273-311, 353-375). |
| `visitFields` | All fields in order (268-311, 348-375). |
| `walk` | The whole walk from a root, which claims name 0 (242-243, 322; 329, 339). |

## Verif/Stream/Args.lean

Model of `StreamArgs` specification bookkeeping (`/repo/thermo/stream.py`)

| definition | source |
|---|---|
| `SV` | The nineteen thermodynamic-state keys of `StreamArgs.specifications` (stream.py 244-253). |
| `CV` | The eight composition keys (stream.py 240-241); the last four are also flow keys. |
| `FV` | The five scalar flow keys (stream.py 242). |
| `Args` | `StreamArgs.specifications` together with `multiple_composition_basis` (stream.py 240-257). `Vf_TP`, `Q_TP`, `flasher` and the flash memo are not part of this record (the memo is modelled in `Verif.Stream.Flash`). |
| `stateSpecifiedKeys` | Key list counted by `StreamArgs.state_specified` (stream.py 1580-1618). |
| `specifiedStateVarsKeys` | Key list counted by `StreamArgs.specified_state_vars` (stream.py 1562-1565). `H_reactive` is not in it. |
| `stateSpecified` | `StreamArgs.state_specified` (stream.py 1569-1619): exactly two. |
| `specifiedStateVars` | `StreamArgs.specified_state_vars` (stream.py 1552-1565). |
| `compositionSpecKeys` | Lookup order of `StreamArgs.composition_spec` (stream.py 1421-1437). |
| `compositionSpec` | Name part of `StreamArgs.composition_spec` (stream.py 1411-1437). |
| `FlowKey` | Keys that specify a flow: four component lists, then five scalars, in the order of `StreamArgs.flow_spec` (stream.py 1664-1682). |
| `flowSpecKeys` | Order of `StreamArgs.flow_spec` (stream.py 1664-1682). |
| `flowSpec` | Name part of `StreamArgs.flow_spec` (stream.py 1655-1682). |
| `flowSpecified` | `StreamArgs.flow_specified` (stream.py 1700-1727). |
| `guardOf` | The guard used by each state setter: energy 403, energy_reactive 419, T 434, P 482, V 496, rho 510, rho_mass 524, VF 538, H 553, H_reactive 578, H_mass 603, U 628, U_mass 642, G 656, G_mass 670, A 684, A_mass 698, S 712, S_mass 726 (stream.py). |
| `setState` | State setters (stream.py 395-728): `None` clears, a refused value raises `ValueError` before anything is written, otherwise the value is stored. |
| `emptyToNone` | `if not arg: arg = None` (stream.py 741, 816, 850, 886, 909). |
| `storedList` | The value stored for a non-`None` argument: `zs`, `ws`, `Vfls`, `Vfgs` and `ns` turn an empty list into `None` (741, 816, 850, 886, 909); `ms`, `Qls`, `Qgs` do not (1005-1010, 1036-1041, 1061-1068). |
| `setComp` | Composition setters: `zs` 735-750, `ws` 809-825, `Vfls` 843-859, `Vfgs` 879-895, `ns` 902-915, `ms` 1000-1010, `Qls` 1031-1041, `Qgs` 1057-1068 (stream.py). |
| `setFlow` | Scalar flow setters: `m` 1085-1095, `n` 1116-1126, `Ql` 1150-1160, `Qg` 1181-1191, `Q` 1212-1222 (stream.py). |
| `clearCompositionSpec` | `clear_composition_spec` (stream.py 1399-1408). |
| `clearStateSpecs` | `clear_state_specs` (stream.py 1471-1486): every key of the listed eighteen; `H_reactive` is not listed. |
| `clearFlowSpec` | `clear_flow_spec` (stream.py 1642-1652). |
| `Op` | Public mutating operations. `update(**kwargs)` (stream.py 1729-1761) is a sequence of setter calls, so histories of operations cover it. |
| `Given` | Keyword arguments given to `StreamArgs.__init__` (stream.py 229-239). |
| `initSpecs` | The dictionary built by the constructor (stream.py 240-253). Note the last entry: `'H_reactive': energy_reactive`. |
| `ctorCompositionSpecs` | `composition_specs` counted by the constructor (stream.py 265-286). |
| `ctorFlowSpecs` | `flow_specs` counted by the constructor (stream.py 275-297). |
| `ctorStateSpecs` | `state_specs` counted by the constructor (stream.py 299-336). |
| `ctor` | `StreamArgs.__init__` (stream.py 229-343). `reconcile` is `reconcile_flows` (modelled in `Verif.Stream.Reconcile`), returning `none` when it raises. |
| `copy` | `StreamArgs.copy` (stream.py 345-386): rebuilds through the constructor from the stored dictionary. |

## Verif/Stream/EnergyBalance.lean

Model of `energy_balance` (`/repo/thermo/stream.py` 3400-3650): C07

| definition | source |
|---|---|
| `Kind` | What `energy_balance` reads of a stream. `kind`: `EnergyStream`, `StreamArgs` or an already flashed stream. `H`: molar enthalpy (`f.H()`, else `f.H_calc`; 3493-3500). `energy`: `f.energy`, else `f.energy_calc` (3516-3518). `m`: mass flow specification. `Hm`: mass enthalpy of `flash_state()`, present exactly when `state_specified` (3588-3591; a failing flash is left out). `n`: molar flow. `twoStates`: two state variables are specified (the guard of the `H` setter, stream.py 548-555 via `state_specified`); `flowGiven`: a flow is specified (with `twoStates`, the guard of the `energy` setter, 403-404 and 419-420). |
| `Strm` | See `Kind` above for the meaning of the fields (stream.py 3471-3540). |
| `lastUnknown` | Last flagged index (3523, 3539). |
| `energyRefused` | The `energy` setter refuses (stream.py 396-405, 412-421). |
| `setEnergy` | Storing the `energy` specification (3557-3559, 3566-3569). |
| `setMass` | Setting the mass flow of a stream whose state is specified: `energy_calc` then yields `m * H_mass` (3596-3597; stream.py 1236-1272). |
| `massSum` | `sum(v.m ...)` over the streams outside `skip` that are not energy streams; `None` (a `TypeError` in the code) when one of them has no mass flow (3594-3595, 3625-3626, 3644-3645). |
| `twoUnknown` | The two-unknown branch on one side (3599-3630 and 3631-3649), `other` being the fully known side with total energy `eo`. Returns the updated side. Division by a zero enthalpy difference raises. |
| `general` | The part of `energy_balance` after the one-in-one-out shortcut (3509-3650). |
| `setH` | Setting the molar enthalpy; `energy_calc` then yields `n * H` when the flow is known (3487, 3490, 3503, 3506). |
| `energyBalance` | `energy_balance`: the one-in-one-out shortcut copies the molar enthalpy (3471-3507), otherwise the general part. |

## Verif/Stream/Flash.lean

Model of the flash memo of `StreamArgs` (`/repo/thermo/stream.py` 1790-1882) and C04

| definition | source |
|---|---|
| `compositionSpecified` | `StreamArgs.composition_specified` (stream.py 1448-1469): for fraction lists the entries must all be known and the sum non-zero; for flow lists the entries must all be known. |
| `FlashArgs` | Arguments handed to `self.flasher.flash(...)` (stream.py 1872-1879). `hot_start` is left out: it is a starting guess, not a specification. |
| `Key` | The memo key `state_cache` (stream.py 1863-1865). |
| `Env` | Parts of the object this module does not model: mole fractions derived from whatever composition is specified (`zs_calc`, stream.py 753-802) and total mole flow (`n_calc`, stream.py 1129-1143), as arbitrary functions of the specifications. Simplification: they are pure (`n_calc` may itself trigger a flash when only `Q` is given). |
| `flashSpecKeys` | Keys counted by `spec_count` (stream.py 1811-1845). |
| `perMole` | Specific value from a stream energy: `energy/n` when the mole flow is known (stream.py 1848-1859); the outer `none` is a `ZeroDivisionError`. |
| `resolve` | The values resolved before the key is formed: `(H_flash, H_reactive, zs)` (stream.py 1807-1862); `none` when an exception is raised (including `tuple(None)` at 1865). |
| `keyOf` | `state_cache` (stream.py 1863-1865); `H_mass` is not in it. |
| `flashArgs` | The call to the flasher (stream.py 1872-1879). |
| `flashState` | `flash_state` (stream.py 1790-1882); `flash` is the flasher's method. |

## Verif/Stream/Flows.lean

Flow rates and composition of `EquilibriumStream` (`thermo/stream.py` 2595-2959) (C126)

| definition | source |
|---|---|
| `Comp` | Arguments that give a composition, in the order in which they are counted (2617-2640). |
| `Tot` | Total flow rates, in the order in which they are counted (2669-2683). |
| `flowComps` | The compositions that are flow rates at the same time (2657-2668). |
| `compCount` | The number of compositions given (2616-2640). |
| `flowCount` | The number of flow rates given (2656-2683), one less if an energy and an enthalpy are given (2685-2687). |
| `zsOf` | The mole fractions (2641-2645, 2700-2719). |
| `mwOf` | `_MW` (2721-2726). |
| `nEnergy` | The mole flow needed for an energy (2731-2744). |
| `nReactive` | The same for `energy_reactive` (2747-2752): the volumes are missing. |
| `energyStage` | The mole flow, the enthalpy and the reactive enthalpy after 2729-2753; `none / number` is a `TypeError`. |
| `nOf` | The mole flow (2787-2845); `V` is the molar volume of the state found. Nothing is left over at the end, because one flow rate is given. |
| `stream` | `EquilibriumStream.__init__` (2595-2851). |
| `Out.Q` | `Q` (2858), `Qgs` (2863-2869), `Qls` (2873-2876), `Ql` (2881). |
| `flashH` | The molar enthalpy the flash works with (`flash/flash_base.py` 293-294): a mass enthalpy takes the place of a molar one. |
| `compSpec` | `composition_spec` (2616-2640): the last composition given. |
| `flowSpec` | `flow_spec` (2656-2683): the last flow rate given, totals after vectors. |
| `streamArgs` | `StreamArgs()` (2890-2906): the enthalpy the flash was made with, the composition and the flow rate; `Vf_TP`, `Q_TP` and the energy are left out. A vector of flows is the composition at the same time. The flash turns a mass or reactive enthalpy into a molar one; they are kept as they are here. |
| `stateSpecs` | `state_specs` of a stream (2936-2948): specifications of the flash listed by name. |

## Verif/Stream/Legacy.lean

The `Stream` class (`thermo/stream.py` 2081-2436) (C127)

| definition | source |
|---|---|
| `molesOf` | The flow of a component as `__add__` looks it up (2381-2386): nothing if it is not there. |
| `union` | The components of the sum (2373-2376). |
| `add` | `__add__` (2368-2390) with the composition of the new stream: `zs = normalize(ns)`, `n = sum(ns)` (2144-2145, 2189-2192). |
| `subOne` | One component of `__sub__` (2412-2425): what is left of `a` after `b` is taken, `p` being the difference of the totals. |
| `extensive` | The phase flows set by `set_extensive_flow` (2262-2273): those of phases that are not there stay as they were. |
| `flash` | `flash` (2333-2345): the new state; only the energy flow is set again. |
| `calculate` | `calculate` (2358-2366). |
| `enthalpy` | The molar enthalpy a stream is flashed with (2221-2225, 2339-2340): the energy gives a molar enthalpy, and a mass enthalpy takes its place. |
| `flowOk` | The check of the flow rates (2120-2142): `k` of `ns, ms, Qls, Qgs, m, n, Q` are given. |
| `stored` | The specifications of a flash in the order they are stored (2335), and the names `state_specs` gives them (2316). |
| `stateSpecs` | `state_specs` (2310-2320). |
| `construct` | The construction of a stream without temperature or pressure (2157-2162) as a change of `Mixture.autoflash`, which all mixtures share; `ok` says whether the mixture could be built. |

## Verif/Stream/MoleBalance.lean

Model of `mole_balance` (`/repo/thermo/stream.py` 3097-3397): C05, C06, C45

| definition | source |
|---|---|
| `Strm` | The part of a `StreamArgs` object read and written by `mole_balance`: component lists with possibly unknown entries, the fully computed mole flows `ns_calc` available when `ns` is `None` (`nsCalc`; stream.py 918-993), the total mole flow (`n` or `n_calc`, 3365-3367), and constants of the flasher: molecular weights, reference liquid molar volumes, reference gas molar volume. |
| `baseNs` | `ns`, else `ns_calc` if allowed (stream.py 3224-3229 and 3240-3245). |
| `isUnknown` | `ns is None or None in ns` (stream.py 3230, 3246). |
| `fillFrom` | One stage of `_mole_balance_process_ns` (stream.py 3098-3108, 3110-3119, 3120-3129): if the list has a known entry, fill the unknown entries of `ns` from it. |
| `processNs` | `_mole_balance_process_ns` (stream.py 3097-3130); `property_molar_to_mass(m, MW)` is `1000*m/MW`. |
| `effNs` | The entry of `all_ns_in` / `all_ns_out` (stream.py 3222-3252). |
| `setNs` | The `ns` setter with a complete list (stream.py 902-915, single composition basis): every other specification is cleared. (`compounds = 0` would store `None`; left out.) |
| `lastIdx` | Last index flagged (the loops keep overwriting `*_unknown_idx`, 3235, 3251). |
| `writeBack` | Writing one component back (stream.py 3318-3334 for inlets, 3336-3352 for outlets): into `ns` if present, else `ms`, else `Qls`, else `Qgs`, else nowhere. `x j = some v` means component `j` of this stream is to receive mole flow `v`. The loop over components touches different entries in different iterations, so it is done at once. |
| `missing` | Streams in which component `j` is missing (stream.py 3301-3314). |
| `soleMissing` | `missing_count == 1` (stream.py 3315). |
| `totals` | `sum_i n_i` over streams with known total, and the number without (stream.py 3357-3389). |
| `componentwise` | The component-wise loop (stream.py 3297-3352). |
| `totalStage` | The last stage, total mole flow only (stream.py 3357-3397). When all inlets (outlets) are known the total is the sum of their component flows; the model reads the same number from `total`. |
| `moleBalance` | `mole_balance` (stream.py 3132-3397). |

## Verif/Stream/Reconcile.lean

Model of `StreamArgs.reconcile_flows` (`/repo/thermo/stream.py` 1289-1396): C43, C44

| definition | source |
|---|---|
| `scanFrom` | The counting loop (stream.py 1341-1349 and 1357-1365): running sum of the known entries, number of unknown entries, index of the last unknown entry. |
| `fillTotal` | Reconciling a total with a component list (stream.py 1340-1354 for `n, ns`; 1356-1370 for `m, ms`). `none`: an exception (inconsistent, or division by a zero total). |
| `matchMoles` | Component-by-component comparison of `ns` with `ms` (stream.py 1377-1383). `property_molar_to_mass(m, MW)` is `1000*m/MW` (package `chemicals`). `none`: an exception. An index past the end of `ns` or `MWs` raises `IndexError` where `ms` has a known entry. |
| `reconcileFlows` | `reconcile_flows` (stream.py 1289-1396). `MWs = none`: no flasher available (1372-1376, returns without raising). `mix` is `solve_flow_composition_mix` of package `chemicals` (`none` when it raises, which is swallowed, 1385-1396). |

## Verif/TDep/Allotropes.lean

C164: the methods of the allotropes of a solid

| definition | source |
|---|---|
| `raw` | The correlations of a dictionary under their new names (4951-4954). |
| `copies` | `json_based_data_copy` for every keyword (4949-4954). |
| `note` | One correlation of the allotrope at a position among the transitions (4952-4961). |
| `sync` | Dictionaries of the database that are also in `kwargs` (4929). |
| `step` | One allotrope (4940-4965). |
| `start` | Before the allotropes (4922-4938). |
| `shared` | Keywords whose dictionary in `kwargs` is the one of the database (4926-4929). |
| `load` | All of it (4922-4965). |
| `joined` | The joining method (4983-4987, 3616-3619): `none` is a `ValueError`, `some none` is no such method. |

## Verif/TDep/AutoName.lean

C51: automatic names of tabular data

| definition | source |
|---|---|
| `auto` | `'Tabular data series #' + str(k)` (t_dependent_property.py 3804, tp_dependent_property.py 379). |
| `addTable` | The name and dictionary update of `add_tabular_data` (t_dependent_property.py 3803-3805): the invented name counts the series stored so far. |
| `addTableP` | The name and dictionary update of `add_tabular_data_P` (tp_dependent_property.py 378-380): the invented name counts `self.tabular_data`, the temperature series (`nT` of them), not the pressure series. |

## Verif/TDep/Construct.lean

Construction of temperature dependent properties: which method is active (C124)

| definition | source |
|---|---|
| `lookup` | `json_correlation_lookup` (266-282) for one keyword: the entries of the data files for a substance and class, `none` if a file has none. The first dictionary found is the one of the file itself, and it is updated with the later ones. Returns what is found and the files afterwards. |
| `fitOrder` | The twelve fits in the order in which the constructor handles them (5003-5052). |
| `mergeKw` | `kwargs[key].update(json_based_data)` or `kwargs[key] = json_based_data` (4925-4929). |
| `addCorr` | `add_correlation` (3678-3704) for a well formed correlation: `none` is the `ValueError` for a name in use. |
| `addCorrs` | The loop over the correlations (4971-4978). |
| `addTable` | `add_tabular_data` (3805-3810). |
| `addPiece` | `add_piecewise_method` (3611-3630). |
| `addPieces` | The loop over the piecewise methods (4986-4993). |
| `addFit` | One fit (5003-5052): every setter but that of the plain polynomial raises if a limit is missing; that one does nothing (2887-2888). |
| `ranking` | The ranking with the methods of `_add_extra_correlations` in front (5072-5077). |
| `again` | Whether the method so far is passed over for a ranked one (5058). |
| `chosen` | The method to be set (5058-5063). |
| `finish` | The choice among the ranked methods and the method setter (5058-5064): `none` is the `ValueError` of the setter. |
| `construct` | The constructor (4877-5064). |
| `userAfter` | The dictionaries of the caller after the construction: those they passed have been updated in place (4927, 4963). |
| `printed` | The fits that `as_string` writes (1633-1652). |
| `reprArgs` | `as_string` as arguments of the constructor: the active method, the fits of four kinds, and the rest of the arguments (1594-1683). |
| `PolyFit` | `as_poly_fit` (2912-2951): the fit whose constructor call is returned; `error` is the `ValueError` without any fit; the branches test the active method rather than the fit found. |
| `fromJson` | `_custom_from_json` (1826-1862): the restored attributes, then `_add_extra_correlations`, whose `add_method` sets `_method` (3766). |
| `addChecked` | `add_correlation` with coefficients that `_optimize_added_correlation` refuses (3486-3488): the state left behind, and whether it raised. The method is registered (3694-3700) before the check (3701-3702). |

## Verif/TDep/CpPieces.lean

C148 — heat capacities in pieces, their limits, and the arguments they export

| definition | source |
|---|---|
| `pieceName` | `name = BASE if len(Cp_dat) == 1 else f'{BASE}_{i+1}'` (heat_capacity.py 358, 845, 932, 1276). |
| `ranges` | `T_ranges = [Cp_dat[0][0]]`, then one upper limit per piece (356, 364). |
| `ascending` | `T_ranges == list(sorted(T_ranges))` (t_dependent_property.py 3618). |
| `addPiecewise` | `add_piecewise_method` (3611-3630) for freshly added pieces: the names exist and the lengths agree, so the only test which can fail is the order of `T_ranges`. |
| `build` | heat_capacity.py 355-366: the pieces as given. |
| `gas` | Gas and solid (351-366, 1269-1284): file order. |
| `liquid` | Liquid and splines (838-877, 921-965): sorted by lower limit, a stable sort. |
| `used` | t_dependent_property.py 3026-3031: the first piece whose upper limit is not passed, else the last one. |
| `internal` | `WEBBOOK_SHOMATE_INTERVALS` and its relatives: `BASE` and `BASE_0` to `BASE_5` (heat_capacity.py 166, 574-576). |
| `printed` | `as_string` without parameters (t_dependent_property.py 1655-1677): the correlations printed and whether the piecewise method over them is printed. |
| `six` | Six pieces that meet, 100 K each. |
| `joback` | heat_capacity.py 345-347: `Tmin = Tm`, `Tmax = 2.5*Tc` or 10000 K; the upper limit only is tested for not-a-number. |
| `inRange` | `T_low <= T <= T_high` (t_dependent_property.py 3048). |
| `side` | Which end the value is extrapolated from (3144-3167) with the default `in_range='error'`; `none` is the exception, which 3061-3062 turns into no value. |
| `Obj` | An object as far as 1704-1782 read it. `π` are parameters of a correlation, `τ` tables. |
| `kwargs` | `as_method_kwargs` (1685-1782). |
| `rebuild` | The constructor given these arguments without loading any data: the object rebuilt, or `none` when `add_piecewise_method` does not find a part (3611-3613). |
| `reads` | The data behind the current method. Names are unique over the kinds of methods (3614-3615 and its siblings), so the order of the tests is immaterial. |
| `joined` | Two correlations joined at 500 K. |
| `printsLimits` | 1605, 1633-1678: `single_method = len(self.all_methods)` is used as a truth value, so the limits of the current method are printed only when no correlation or fit is printed or there is no method at all. |

## Verif/TDep/Derivatives.lean

Derivatives, transforms and inversion of a property (`thermo/utils/t_dependent_property.py`)

| definition | source |
|---|---|
| `side` | The side on which `extrapolate` (4579-4604) and `extrapolate_transform` (3142-3167) work: `true` is below, `none` an exception. |
| `sideD` | The side on which `extrapolate_derivative` (4680-4695) works. |
| `sideI` | The side on which `extrapolate_integral` (4773-4789) and `extrapolate_integral_over_T` (4837-4853) work. |
| `closed` | Is there a derivative of this order in closed form (4696-4742)? |
| `Obj.clamp` | The clamp (4649-4652). |
| `Obj.extrapolate` | `extrapolate` (4556-4653). |
| `Obj.extrapolateDerivative` | `extrapolate_derivative` (4656-4747). |
| `Obj.property` | `T_dependent_property` (3088-3115). |
| `Obj.plotted` | `_calculate_extrapolate` (3043-3065), used for plots. |
| `Obj.derivative` | `T_dependent_property_derivative` (4107-4130). |
| `Obj.extrapolateTransform` | `extrapolate_transform` (3140-3233): for Antoine and DIPPR101 forms from the coefficients (`cl`, see `C13_antoine_transforms`, `C13_dippr101_transforms`), else from the extrapolation. |
| `Obj.extrapolateIntegral` | `extrapolate_integral` (4790-4811): `quad` evaluates the extrapolation with the default `in_range`. |
| `solveInside` | `solve_property` without extrapolation (3830-3841): `brenth` with the error at a temperature; `none` is an exception. |
| `start` | `solve_property` with extrapolation: the two points the secant solver starts from (3843-3858). |
| `validMethods` | `valid_methods` (2582-2592). |

## Verif/TDep/Exports.lean

Pressure correlations and exported polynomial fits (C152)

| definition | source |
|---|---|
| `Corr` | Keywords of one pressure correlation (159): each of the three read may be absent. |
| `args` | `args` of `add_P_correlation` (159); `none` is `KeyError`. |
| `addP` | `add_P_correlation` (148-161): the object afterwards, and whether it came to its end without an exception. |
| `addAllP` | The loop over the correlations given to the constructor (115-123). |
| `setP` | The setter of the method (176-182); `none` is an exception. |
| `addTableP` | Registration of a table (380-382). |
| `chosenP` | The method looked up at the end of the constructor (131-136): the keyword, else the method selected by a table, else by rank. |
| `construct` | The constructor (107-137) after the part for temperatures: correlations, tables, selection. |
| `Form` | `fit_form` (2114-2138). |
| `lnTau` | `interpolation_T` for the logarithm of the distance from the critical point (2127, 2133). |
| `lnTauInv` | Its inverse (2128, 2134). |
| `maps` | The transformations of a form (2111-2138); `cls` are those of the class. `none` is an exception. |
| `recovered` | The value a fit stands for (the inverse transformations of 2116-2136 around a polynomial `p`). |
| `target` | The function a fit is made of (`fit_polynomial` with the maps of 2152-2158); `none` is calling `None`. |
| `fromMethod` | `polynomial_from_method` (2091-2099, 2143-2166): number of coefficients and limits. `auto` is the selection of the number between two bounds; `none` is an exception. |
| `dataLimits` | Limits of `polynomial_from_data` (2103-2104); `none` is `min` of nothing. |
| `Fit` | What a fit returns: coefficients, limits, and mean, deviation, least and greatest ratio (2026). |
| `Record` | A record of the export (2029-2031). |
| `maxError` | Line 2028. |
| `request` | Number of coefficients asked for and the greatest allowed (2021-2022). |
| `methodDat` | The fits of a method (2020-2031): `fit CAS method n max_n`; `none` is an exception. |
| `loop` | The loop over methods (2019-2038): what is returned, and the documents written. |
| `export_` | `_fit_export_polynomials` (2003-2040). |
| `taitB` | `B_fun` and `C` of `Tait_parameters_COSTALD` (165-180). |

## Verif/TDep/Extrapolate.lean

Extrapolation forms (`thermo/utils/t_dependent_property.py`)

| definition | source |
|---|---|
| `linear` | `'linear'` (4612-4615), coefficients `(v, d)` = value and slope at the limit (4471-4474). |
| `logLinear` | `'log(linear)'` (4616-4620). |
| `logLinearCoeffs` | `'log(linear)'` coefficients (4475-4478): logarithm of the value and derivative of the logarithm. |
| `antoineAB` | `'AntoineAB'` (4626-4628): `Antoine(T, A, B, C=0, base=e)`. |
| `antoineCoeffs` | `Antoine_AB_coeffs_from_point(T, Psat, dPsat_dT, base=e)` (4487-4490). |
| `dippr101` | `'DIPPR101_ABC'` (4631-4633): `EQ101(T, A, B, C, 0, 0)`. |
| `dippr101Coeffs` | `DIPPR101_ABC_coeffs_from_point(T, P, dP, d2P)` (4491-4495): the solution of the three matching equations for `ln P`. |
| `watson` | `'Watson'` (4640-4643): `Watson(T, Hvap_ref, T_ref, Tc, exponent)`. |
| `watsonN` | `Watson_n(T1, T2, Hvap1, Hvap2, Tc)` (4496-4502). |
| `dippr106` | `'DIPPR106_AB'` (4634-4636): `EQ106(T, Tc, A, B)`. |
| `dippr106Coeffs` | `EQ106_AB(T, Tc, val, der)` (4512-4515). |
| `expLnTau` | `'EXP_POLY_LN_TAU2'` / `'EXP_POLY_LN_TAU3'` (4644-4645): `exp_horner_backwards_ln_tau`, with coefficients in order of increasing power of `ln τ`. |
| `expLnTau2Coeffs` | `exp_poly_ln_tau_coeffs2(T, Tc, val, der)` (4503-4506). |
| `expLnTau3Coeffs` | `exp_poly_ln_tau_coeffs3(T, Tc, val, der, der2)` (4507-4511): the quadratic in `u = ln τ` matching the value and two derivatives. With `h(u) = ln P`, `du/dT = 1/(T − Tc)`. |
| `arrhenius` | `'Arrhenius'` (4621-4623): `Arrhenius_extrapolation(T, T_ref, P_ref, slope)`, logarithm linear in `1/T`. |
| `arrheniusCoeffs` | `Arrhenius_parameters(T, P, dP_dT)` (4479-4482): reference point and slope. |
| `dippr106ABC` | `'DIPPR106_ABC'` (4637-4639): `EQ106(T, Tc, A, B, C)`, exponent linear in the reduced temperature. |
| `dippr106ABCCoeffs` | `EQ106_ABC(T, Tc, val, der, der2)` (4516-4520): the solution of the matching equations for the logarithm in `x = T/Tc`. |
| `clampLow` | The clamp at the end of `extrapolate` (4649-4652) with a lower bound. |
| `constIntegral` | `extrapolate_integral` for `'constant'` (4790-4797) and `'linear'` (4798-4809). |
| `constIntegralOverT` | `extrapolate_integral_over_T` for `'constant'` (4854-4861) and `'linear'` (4862-4873). |
| `dAntoine` | `extrapolate_derivative` for `'AntoineAB'` (4724-4729): `dAntoine_dT` and `d2Antoine_dT2` with `C = 0`, `base = e`. |
| `antoineLog` | `extrapolate_transform` for `'AntoineAB'` (3177-3179, 3187-3189, 3195-3197, 3202-3204, 3211-3214). |
| `dipprLog` | `extrapolate_transform` for `'DIPPR101_ABC'` (3180-3186, 3191-3194, 3199-3201, 3206-3210). |

## Verif/TDep/FitModel.lean

Fitting a correlation to data (`thermo/utils/t_dependent_property.py`, `thermo/fitting.py`, C146)

| definition | source |
|---|---|
| `template` | The list that is reused (384-393): given values, 1 for fitted ones, 0 for the rest. |
| `dest` | `arg_dest_idxs` (389-391). |
| `write` | One call (430-440): the values are written into the list, which is kept for the next call. |
| `callArgs` | `reusable_args.append(0)` (394-396): the argument `order` of functions that start with `EQ`. |
| `models` | `correlation_models` (699-1517): name, required arguments, optional arguments and fitted parameters of all models that can be fitted. |
| `skipped` | The columns that are removed from the Jacobian (398-416). |
| `useFit` | `use_fit_parameters` (2306-2315). |
| `fits` | Whether a fit is possible (2456-2458). |
| `result` | The dictionary that is returned (fitting.py 848-850, 2492-2498). |
| `requiredFitting` | `required_args_fitting` (2320-2325). |
| `candidatesFrom` | The loop over the numbers of optional parameters (2343-2354). |
| `candidates` | All candidates (2326, 2341-2354). |
| `counted` | `used_fit_parameters` (2369). |
| `adjusted` | The parameters that the fit of a candidate really adjusts (2350-2352, 2357-2364). |
| `Cand` | What is known of a candidate's fit (2395): criteria, squared errors of the fit and of cross-validation, mean deviation, number of parameters. |
| `kf` | `k_fold_mae` (2375-2392). |
| `foldCount` | Number of folds (2331-2338); one fold or none is no cross-validation. |
| `select` | Lines 2399-2445; `none` is an exception. |
| `distinct` | Distinct guesses in their order (fitting.py 733-741). |
| `bestGuess` | The best guess (743-749); `none` is the exception of line 751. |
| `ordered` | Guesses sorted by error and then by value (752). |
| `tried` | `multiple_tries`: `True`, or a number of tries (803-804). |
| `tryAll` | The loop over starting points (805-840): parameters and their error for those that converge. |
| `bounds` | `working_bounds` of one parameter (771-778), from its values in all guesses. |
| `popBounds` | Bounds given by the user are taken out of their dictionary (768-769): bounds used and what remains. |
| `maxfev` | `maxfev` (791-798), which stays in the dictionary of the user. |

## Verif/TDep/Fits.lean

Polynomial and Chebyshev fits of a temperature dependent property (C123)

| definition | source |
|---|---|
| `setFit` | The setters of the fits (2622-2911): the plain polynomial has neither offset nor scale; the others map `[Tmin, Tmax]`, or the logarithms at `Tmin` and `Tmax` in that order (2692-2694, 2717-2720, 2795-2797, 2817-2819). |
| `setCorr` | The correlations of the same forms (`_optimize_added_correlation` 3543-3581): the logarithms are sorted first (3564-3567, 3570-3572, 3579-3581). |
| `Fit.d` | Coefficients of the `n`th derivative in `u`: `d1_coeffs`, `d2_coeffs`, ... (2642-2645, 3582-3584). |
| `maxFit` | Highest order with a formula for a fit (3992-4076). |
| `fitDerivative` | A fit: a formula, or the finite difference (4077-4083). |
| `keywords` | The keywords of the calls in `correlation_models` (971-973, 980-982, 989-991, 998-999) and how many arguments are positional. |
| `corrDerivative` | A correlation: the stable and Chebyshev forms have formulas of their own (3917-3972), the Chebyshev one up to order 3, the polynomial ones those of `correlation_models` (3975-3981). |
| `asCorrelation` | The conversion of a fit to a correlation by `as_method_kwargs` keeps limits, critical temperature and coefficients (1749-1774, 2953-2962). |
| `Extra` | The extrapolations and the orders of derivative that their coefficients take (4466-4523). The transformed derivative of `log(linear)` is a finite difference. |
| `extrapolates` | The coefficients of an extrapolation can be computed: otherwise `T_dependent_property` is `None` outside the limits (3107-3112). |
| `transformFit` | `calculate_transform` of an `EXP_POLY_FIT` (3119-3132): logarithm, its first and its second derivative, from the polynomial alone. |
| `transformOther` | The other methods (3123, 3127, 3131-3133): logarithm of the value, and ratio of the derivative to the value. |
| `polyintOverX` | `polyint_over_x` (2896, 3496): the integral of everything but the constant, divided by the variable, and the constant as the factor of the logarithm. |
| `polyintStable` | `polyint_stable` (3548): the integral in the scaled variable divided by the scale. |
| `IntOutcome` | The outcome of `calculate_integral` (4166-4209) for the plain polynomial and the stable one: the stored coefficients, the quadrature, or a `KeyError`. |
| `integralOutcome` | `isCp` is the test of the units (3493, 3545): only heat capacities store integral coefficients in a correlation. |

## Verif/TDep/Fitting.lean

Fits: folds, criteria, statistics, selection, consistent attraction functions (`thermo/fitting.py`, C145)

| definition | source |
|---|---|
| `deal` | Indices of the points in each fold (76-81). |
| `splitData` | `split_data` (67-83); `none` is a `ValueError` or a division by zero. The indices shuffled with `seed` are not used. |
| `assemble` | `assemble_fit_test_groups` (85-105), for one coordinate: training and test points of each fold. |
| `AICc` | `AICc` (108-119). |
| `BIC` | `BIC` (121-126). |
| `wrapped` | `func_fun` of `fit_polynomial` (213-244). |
| `coefficients` | Number of coefficients `fit_polynomial` returns (246-279). |
| `made` | Where a stable or Chebyshev form of `fit_polynomial` is made (253, 272): between the ends `a`, `b`. Where `poly_fit_statistics` evaluates it (356-371). |
| `dev` | Relative deviations (284-287, 381). |
| `mae` | The first two values of `data_fit_statistics` (289-290): mean and standard deviation. |
| `Stat.err` | The larger deviation of the ratios (403). |
| `Low` | Lowest value so far with its index (394-406). |
| `better` | One comparison (397-406). |
| `vote` | The choice at the end (411-418). |
| `selectFrom` | The loop of `select_index_from_stats` (396-418); `crit` is `selection_criteria`. |
| `select` | `select_index_from_stats` (393-418). |
| `First` | The first of the fits with the lowest value, if any value is below `1e100`. |
| `fitMany` | `fit_many_cheb_poly` (438-448): the fits that worked; `fit` is `none` when it raises. |
| `fitAuto` | `fit_cheb_poly_auto` (455-463); `none` is an exception. `data` is the number of points given. |
| `twuCheck` | `Twu91_check_params` (493-506). |
| `twu0` | The function and the derivatives `alpha_Twu91_objfc` computes (525-549). |
| `twuPlain` | `alpha_Twu91_objf` (515): the function fitted without constraints. |
| `constrain` | `alpha_constrain_err` (598-626): errors with penalties. |
| `polyCheck` | `poly_check_params` (557-571) with the meaning of `is_poly_positive` and `is_poly_negative` on the domain. |
| `startAt` | The start of coefficient `i` (655): `x0[-i]`. |
| `keep` | The best result so far (677-680): mean deviation and coefficients. |
| `fitFunction` | `fit_function` (633-687): `first` are the results of the first pass in order, `again` those of the pass from the best coefficients. `none` is an exception. |

## Verif/TDep/HelmholtzGas.lean

Ideal gas heat capacities from reduced Helmholtz energies (`thermo/coolprop.py`)

| definition | source |
|---|---|
| `Coeffs` | The keyword arguments of the functions (`thermo/coolprop.py` 424-435). |
| `A0` | `Helmholtz_A0` (`thermo/coolprop.py` 441-464). |
| `dA0` | `Helmholtz_dA0_dtau` (`thermo/coolprop.py` 477-503). |
| `d2A0` | `Helmholtz_d2A0_dtau2` (`thermo/coolprop.py` 516-540). |
| `d3A0` | `Helmholtz_d3A0_dtau3` (`thermo/coolprop.py` 553-577). |
| `Cp` | `Cp_ideal_gas_Helmholtz` (`thermo/coolprop.py` 589-604). |
| `H` | `H_ideal_gas_Helmholtz` (`thermo/coolprop.py` 617-632). |
| `S` | `S_ideal_gas_Helmholtz` (`thermo/coolprop.py` 650-678): the reduced density is the constant 1. |
| `put` | `if name in kwargs: kwargs[name].extend(arg) else: kwargs[name] = arg` (`thermo/coolprop.py` 384-387, 405-408). |
| `putFour` | The loop over the four lists (`thermo/coolprop.py` 380-387, 401-408). |
| `step` | One round of the loop (`thermo/coolprop.py` 370-414). |
| `convert` | `CoolProp_json_alpha0_to_kwargs` (`thermo/coolprop.py` 366-421), without the conversion to arrays. |
| `Call` | The state in the call of `PropsSI`: temperature with the pressure 101325 Pa, or with a quality; or an exception. |
| `call` | `CoolProp_T_dependent_property` for a supported fluid and a property other than the ideal gas heat capacity (`thermo/coolprop.py` 325-347); `lib` is the phase the library reports at `T` and 101325 Pa. |
| `limits` | The temperature limits of the method (`thermo/heat_capacity.py` 411-436): `useA0` when the coefficients are stored. |

## Verif/TDep/Integrals.lean

Property integrals (`thermo/utils/t_dependent_property.py` 4140-4300, 4302-4464)

| definition | source |
|---|---|
| `Cfg.fail` | The outcome of a failure: `RuntimeError` or `None` (4251-4257, 4258-4264, ...). |
| `Cfg.finish` | `integral += self.calculate_integral(T1, T2, method)` and `return integral` (4290-4300). |
| `Cfg.high` | The part for `T2 > Tmax` (4266-4289). |
| `Cfg.forward` | The body of `T_dependent_property_integral` for `T1 ≤ T2` (4236-4300). |
| `Cfg.integral` | `T_dependent_property_integral(T1, T2)` (4211-4300). Negating `None` raises `TypeError` (4235). |
| `demo` | A method linear in temperature between 300 and 400 with constant extrapolations. |
| `pw` | `calculate` of a piecewise method (3026-3031): pairs of transition temperature and method, and the last method. |
| `pwLoop` | The loop of `calculate_integral` (4199-4208). |
| `pwIntegral` | `calculate_integral` for a piecewise method (4194-4208). |

## Verif/TDep/MixMethods.lean

Methods of mixture properties (`thermo/utils/mixture_property.py` and its subclasses)

| definition | source |
|---|---|
| `aqueous` | `len(self.CASs) > 1 and '7732-18-5' in self.CASs`. |
| `checkCas` | `none_and_length_check([self.Tcs, self.CASs])` (volume.py 1121, 1129); identifiers given are not `None`. |
| `sigmasTb` | `self.sigmas_Tb` (interface.py 571): `zip` stops at the shorter list. |
| `add` | `add_excess_correlation` (199-212). |
| `init` | `MixtureProperty.__init__` (124-127, 170-196): `rk` are the keys of `redlick_kister_parameters`, `kw` the keyword `method` (`none`: absent, `some none`: `None`). |
| `baseValid` | The base `test_method_validity` (283-295) without limits: `none` is the `ValueError`. |
| `known` | Whether `calculate` has a branch for a method, in the class or the base class (216-228); else it raises `ValueError` (234). |
| `limits` | The temperature limits a class takes from its pure components (viscosity.py 1197-1202 and alike): a limit of zero or `None` is dropped. |
| `solidLimits` | The limits `VolumeSolidMixture` has after construction: its own (volume.py 1887-1888) are set before the base constructor, which resets them (114-117). |
| `pures` | `calculate_pures_corrected` (236-259): `none` is the `IndexError` of an empty list. A call with only a temperature is the value without pressure. |
| `extensive` | `prop_extensive` (561-566). |
| `partialProperty` | `partial_property` (559-567). |
| `repr` | What `__repr__` (70-85) prints of the methods: the name in quotes, `None` included, and no correlation. |

## Verif/TDep/Mixture.lean

Mixture properties (`thermo/utils/mixture_property.py`)

| definition | source |
|---|---|
| `Flags` | The flags of the class (mixture_property.py 42-62). |
| `testProp` | `test_property_validity(prop)` (419-441): comparing `None` with a number raises. |
| `afterGuard` | Lines 481-489 of `mixture_property`. |
| `mixtureProperty` | `mixture_property(T, P, zs, ws)` (444-491) as a function of what `test_method_validity` would answer (`none`: it raises) and of what `calculate` gives. The guard is line 480, `if not self.skip_method_validity_check or self.test_method_validity(...)`. |
| `Obj` | The object: what `mixture_property` depends on (`W`: selected method, flags, pure-component objects, ...) and the memo `TP_zs_ws_cached`, `prop_cached` (48-49, 411-415). |
| `call` | `__call__` (386-416) for completed compositions; `A` is the type of argument quadruples. The key compared is a tuple, the key stored is a list. |
| `Op` | A history: calls, the method and pressure-correction setters, which reset the memo to a list of `None` (359-376), and changes of anything else the property depends on, which do not. |
| `new` | After construction: `self.method = method` (196) has replaced the class-level tuple by a list. |
| `linear` | `calculate` with method `LINEAR` (216-217; `chemicals.utils.mixing_simple`: the sum of the products, modelled from its documentation). |
| `logMix` | `calculate` with method `MIXING_LOG_MOLAR` or (with mass fractions) `MIXING_LOG_MASS` (218-227). `trunc_log` and `trunc_exp` are taken as `log` and `exp`, as they are for positive properties in range. |
| `excessProp` | `calculate_excess_property` (493-501) for a rule `f` of the composition. |
| `excessCorrelation` | `calculate` for a Redlich–Kister excess correlation (228-233): the loop bound of `redlich_kister_excess_inner` is given `N_T`, the number of temperature parameters, where that function expects the number of components (231). `A` is the tensor at the temperature, with `N` rows; a row or mole fraction beyond `N` is an `IndexError` (`none`). |

## Verif/TDep/Model.lean

Temperature-dependent property objects (`thermo/utils/t_dependent_property.py`)

| definition | source |
|---|---|
| `Src` | How a method computes its value: `fn` is a correlation, a local method or a piecewise method (t_dependent_property.py `_base_calculate`, 2964-3033); `table` is a series of tabular data `d`, evaluated through an interpolator built from the data (3400-3474, `interpolate`). Simplified: a piecewise method is the function it is when added (the code looks its parts up by name at each evaluation), and re-using a name across kinds replaces the method (in the code the older kind can keep precedence, 2965-3031). |
| `Meth` | A method known to the object: an entry of `all_methods` with its source, its entry in `T_limits` (`none`: absent, which raises `KeyError` at 3094) and the answer of `test_method_validity` (5105-5137; simplified: that call does not raise). |
| `Params` | The parts of the class which the evaluation logic treats as black boxes. * `pmin`, `pmax`: `property_min`, `property_max` (2613-2616); `strict`: `RAISE_PROPERTY_CALCULATION_ERROR`. * `fit e f Tmin Tmax low`: `_get_extrapolation_coeffs` (4466-4523) for the method function `f`. * `form e k f Tlim T`: the value of the extrapolation form (4612-4647), `none` for an unknown form. * `usesFn e`: whether the form evaluates the method itself (`nolimit`, 4629-4630). * `emin`, `emax`: `_extrapolation_min`, `_extrapolation_max` (4649-4652). * `build d`: the interpolator made from a data series (3433-3455). |
| `Config` | The configuration of an object: what the user chose. `meths` merges `all_methods`, `T_limits`, `correlations`, `local_methods`, `piecewise_methods` and `tabular_data`; `ext` is the pair `_extrapolation_low`, `_extrapolation_high`, `none` when `_extrapolation is None` (4533-4554). |
| `Obj` | The object: configuration and memo tables (1828, 1841, 1843). |
| `methFun` | `calculate(T, method)` as a function of `T` (3022-3025, 3427-3456): a tabular method uses the interpolator stored under its name if there is one. |
| `touch` | The side effect of `calculate` on the interpolator table (3456). |
| `clamp` | The clamp at the end of `extrapolate` (4649-4652). |
| `side` | The side of the range on which `extrapolate` with `in_range='error'` works (4579-4604): `some true` below, `some false` above, `none` when it raises. |
| `extrapolate` | `extrapolate(T, method)` (4556-4653): side, coefficients from the memo or fitted and stored, the form's value, the clamp. The result is `none` when it raises. |
| `plausible` | `test_property_validity` for a real number (2613-2617). |
| `inRange` | Is the method used at `T` (3093-3097)? |
| `evaluate` | `T_dependent_property(T)` (3067-3115). A selected method absent from the table behaves like a failing one. |
| `call` | `__call__(T)` (1784-1806): the memoised value when `T` is the temperature of the last call, else an evaluation which is memoised unless it raised. |
| `setMethod` | `prop.method = m` (2553-2559): an unknown name raises (`none`). |
| `setExtrapolation` | `prop.extrapolation = ...` (4533-4554) with the string already split at `\|`; the call memo is not touched. |
| `addMethod` | `add_method` (3722-3770): stored and selected, the call memo cleared, the other memos kept. |
| `addData` | `add_tabular_data` (3772-3810) and, with `fresh = true`, `add_correlation` (3633-3704) and `add_piecewise_method` (3589-3630), which refuse a name in use: stored, and selected through the method setter if `select`. Argument checks are omitted. |
| `new` | A new object (1818-1960): methods loaded, empty memos. |

## Verif/TDep/Offered.lean

Methods that property objects offer, and the data these methods need

| definition | source |
|---|---|
| `default` | The default method (`t_dependent_property.py` 5058-5064 and the loops at the end of the pressure-dependent `load_all_methods`): the first ranked one that is available. |
| `lakshmiPrasadMax` | Its upper limit (`thermal_conductivity.py` 441). |
| `jasper` | `Jasper` (documented formula) with its upper limit when the table has none (`interface.py` 354-356). |
| `jasperLimits` | `interface.py` 354-358: a missing or equal upper limit is replaced by the zero, a missing lower one by 0 K. |

## Verif/TDep/PhaseChange.lean

Enthalpies of vaporisation and sublimation, sublimation pressure, limits of a viscosity equation

| definition | source |
|---|---|
| `exponent` | `Watson_exponent` (phase_change.py 279). |
| `Method` | Methods of the class with a value at one temperature (425-439), those from corresponding states (406-413) and the Clapeyron equation. |
| `deltaZ` | `dZ` (418-422); `none`: the name is unbound. |
| `hvap` | `EnthalpyVaporization.calculate` (403-451). |
| `valid` | `EnthalpyVaporization.test_method_validity` (483-505). |
| `limits` | `T_limits` (341-368). |
| `Sub` | The object (`phase_change.py` 624-632) with its data. |
| `addHvap` | Lines 717-720: the object is called; if that fails the attribute itself is added, which fails for an object. |
| `addCp` | Lines 724-729: both integrals; if either fails the difference of the attributes, which fails for objects. |
| `SubMethod` | The two methods with an own formula (711-729). |
| `psub` | `Psub_Clapeyron` of `chemicals` (documented), called at `vapor_pressure.py` 717. |
| `boilingCritical` | `boiling_critical_relation` of `chemicals` (documented), called at `vapor_pressure.py` 498. |
| `EosOut` | What evaluating the method `EOS` can give (`vapor_pressure.py` 510-515): the handler raises the number e of `math`, which is a `TypeError`. |
| `psatEos` | `vapor_pressure.py` 509-515. |
| `adjust` | The last step (`viscosity.py` 201-212): if the slope changes sign between the limits, one of them moves to the zero found by the solver. |
| `ppds9` | `determine_PPDS9_limits` (`viscosity.py` 144-212) with the coefficients `C`, `D`, the slope `d` of the viscosity, whether it is infinite, and the solver. `none` is the `UnboundLocalError` at 181. |

## Verif/TDep/Pressure.lean

Pressure-dependent property objects (`thermo/utils/tp_dependent_property.py`)

| definition | source |
|---|---|
| `PMeth` | A pressure-dependent method (tp_dependent_property.py 384-417; t_dependent_property.py 3035-3041): a table on a grid with its four bounds, `NEGLECT_P` (the temperature-dependent value), or a method of the subclass with its temperature limits. |
| `PParams` | Black boxes of the pressure part: `buildP` makes an interpolator from a grid (455-494); `extrap` is `tabular_extrapolation_permitted` (124). |
| `PObj` | The object: the temperature part, the pressure configuration, the call memo and the interpolators (92-107). The temperature part's own call memo is never used: `__call__` is overridden (184). |
| `tValid` | `test_method_validity(T, self._method) if self._method else False` (411). |
| `validP` | `test_method_validity_P` (384-417): strict comparisons, unlike the temperature-only test. |
| `gridFun` | `interpolate_P`'s interpolator for a grid stored under a name (448-494): the memoised one if any. |
| `touchP` | Its side effect (494). |
| `calcP` | `calculate_P` for the methods of the base class (t_dependent_property.py 3035-3041) and subclass methods. The result `none` is `None` or an exception; the exception of a strict object under `NEGLECT_P` is caught by the caller (tp 279), which then raises itself. |
| `evaluateP` | `TP_dependent_property(T, P)` (250-288). |
| `evaluateTP` | The evaluation a call makes: `TP_dependent_property(T, P)`, or `T_dependent_property(T)` when `P` is `None` (206-209). |
| `remember` | Remember the result of a call unless it raised (206-211). |
| `callP` | `__call__(T, P)` (184-211). |
| `setMethodP` | `prop.method_P = m` (177-182). |
| `addTableP` | `add_tabular_data_P` (342-382): stored and selected; the interpolator of an earlier table of the same name is kept. Argument checks are omitted. |
| `SafeP` | Histories for which the memo stays right: temperature-side changes are made only while nothing is memoised (and meet the conditions of C10; there is no temperature-side call), and a pressure table gets a new name. |

## Verif/TDep/Props.lean

C10 (the call memo is unobservable) and C11 (the decision table)

| definition | source |
|---|---|
| `demoCfg` | One method `0`, the identity on `[10, 20]`, constant extrapolation. |

## Verif/TDep/Tables.lean

Tables of values (`thermo/utils/t_dependent_property.py` 3400-3474, 3772-3810; `tp_dependent_property.py` 342-514)

| definition | source |
|---|---|
| `inverseT` | `VaporPressure` 318-336, `SublimationPressure` 631-633, `ViscosityLiquid` 390-408. |
| `accepted` | `add_tabular_data` (3796-3801), with the check of the values as a flag. |
| `points` | Points given to the spline (3436-3451). |
| `interpolate` | `interpolate` (3400-3474). `spline` is `make_interp_spline`. The points given to `interp` are not sorted (3447). |
| `Grid.Outside` | Outside of the grid (451, 500). |
| `interpolateP` | `interpolate_P` (419-514); `linear` is the linear interpolation with the transformations of the class applied. From five pressures on, a spline is called with the pair of coordinates as its only argument (503, 509). |
| `validP` | `test_method_validity_P` (404-409). |
| `addT` | `add_tabular_data` (3803-3805). |
| `addP` | `add_tabular_data_P` (378-380): numbered by the temperature series. |

## Verif/TDep/VolumeObj.lean

Molar volume objects (`thermo/volume.py`)

| definition | source |
|---|---|
| `points` | `linspace(Tmin, Tmax, 25)` at 445. |
| `scan` | The loop of `_custom_set_poly_fit` (volume.py 445-462). The derivatives at `Tmin` of the first quadratic are those of the fit at the trial point. A division by zero ends the attempt (464: every exception is swallowed). |
| `setLow` | `_custom_set_poly_fit` (volume.py 440-465); `none`: nothing is stored. |
| `parabola` | A parabola with its minimum inside the range: value `1 + (T - 200)²/10⁴` between 100 K and 340 K. |
| `crcInorg` | `DIPPR100_rho_to_Vm` with the two coefficients set at 495-505: `Vm = MW/(1000 (A + B T))`. |
| `compressed` | `VolumeLiquid.calculate_P`, the branch `COSTALD_COMPRESSED` (690-694). |
| `TaitData` | One of the two lists of `Tait_data` (767-769, 774-776): temperature, slope and value at both ends and the three lists of coefficients. |
| `taitData` | `VolumeLiquid.Tait_data` (745-778): own coefficients if there are any, else those fitted to COSTALD; limits at reduced temperatures 0.27 and 0.95. |
| `virialVolume` | `ideal_gas(T, P) + B` (1452-1466). |
| `crcB` | The polynomial of the CRC table (1463-1465). |
| `validGas` | `VolumeGas.test_method_validity_P` (1510-1528); `stable` says whether the equation of state finds the pressure below its vapour pressure, `gaseous` what CoolProp answers. |
| `supVolume` | `VolumeSupercriticalLiquid.calculate_P` (946-956); `tables` are the names in `tabular_data`. `none` is an exception, that of an unbound name among them. |
| `supValid` | `test_method_validity_P` for the equation of state (987-988). |
| `linear` | `VolumeLiquidMixture.calculate`, `LINEAR` (1198-1207): pure volumes under pressure, or at saturation if that gives `None` or the correction is switched off. |
| `MixMethod` | `VolumeGasMixture.calculate` (1656-1667) without the equation of state. |
| `eosCall` | The equation of state of a gas mixture is kept in a list shared with whoever passed it (1668-1670): state after a call. `E` are equation of state objects, `to` is `to_TP_zs`, and the answer the gas root, `none` if there is none. |
| `validMix` | `VolumeLiquidMixture.test_method_validity` (1225-1232) for own methods. |
| `rankedMix` | Strings as ranked (1081-1082) and as exported (998): the module's list has the function `COSTALD` where the name `COSTALD_MIXTURE` belongs; a non-string is `none`. |
| `exportedMix` | `volume_liquid_mixture_methods` (998). |

## Verif/Util/Identity.lean

Equality and hashes of objects

| definition | source |
|---|---|
| `eosModel` | `GCEOS.model_hash` (`eos.py` 940-951), `VirialCSP.model_hash` (`phases/virial_phase.py` 310-322), without the memo: attributes that are missing are skipped, with their names. |
| `gibbsModel` | `GibbsExcess.model_hash` (`activity.py` 354-361): the name of the class, the number of components, the values. |
| `phaseModel` | `Phase.model_hash` (`phases/phase.py` 352-360), without the memo. |
| `eosState` | `GCEOS.state_hash` (`eos.py` 920-924): `V` is the attribute, `None` unless it was specified. |
| `flashHash` | `Flash.__hash__` (`flash/flash_base.py` 122-134): values whose hash raises anything are skipped; names are not hashed. |
| `flashRefs` | `hash_references` (120). |
| `packageHash` | `__hash__` of packages (`chemical_package.py` 654-657, 1573-1578). |
| `eosKeys` | Attributes of pure equations of state that are hashed (`eos.py` 897). |
| `mixKeys` | Attributes of mixture equations of state that are hashed (`eos_mix.py` 320). |
| `pures` | Pure equations of state, with their `kwargs` (`eos.py` 7217, 7482, 8058, 8139, 8237, 8328, 8502, 8626, 8885, 9186, 9498, 9828, 10115, 10241, 10390, 10496, 10597, 10807, 10901). `M` and `N` become `alpha_coeffs`. |
| `mixes` | Mixture equations of state (`eos_mix.py` 6263-11374). |
| `models` | Models of the excess Gibbs energy (`nrtl.py` 607, `wilson.py` 758, `uniquac.py` 670, `unifac.py` 5480, `regular_solution.py` 552, 1648), virial coefficients (`phases/virial_phase.py`). |
| `unifac` | `UNIFAC` (`unifac.py` 5469, 5480). |
| `liquidKeys` | Attributes of `GibbsExcessLiquid` that are hashed (`phases/gibbs_excess.py` 233-242). |
| `liquidSets` | Attributes that `GibbsExcessLiquid.__init__` sets (342-560). |
| `liquid` | `GibbsExcessLiquid` (300-321). |
| `phases` | `IdealGas` (`ideal_gas.py` 86-110), `CEOSGas` and `CEOSLiquid` (`ceos.py` 88-100, 133-165), `VirialGas` (`virial_phase.py` 970-1013), `CoolPropGas` and `CoolPropLiquid` (`coolprop_phase.py` 195-215), and the fixed models of water and air (`iapws_phase.py` 42, 205, 661, `air_phase.py` 36). |
| `unhashable` | `GibbsExcessSolid` (`gibbs_excess.py` 3380-3404): the constructor is that of the liquid, which does not set the names of the solid. `GraysonStreed` and `ChaoSeader` (`petroleum.py` 46, 88-100): critical constants are stored with an underscore. `HumidAirRP1485` (`air_phase.py` 178-207): attributes of `VirialGas` that it does not have. |
| `sameModel` | `Phase.is_same_model` (`phases/phase.py` 303-324) for two objects that are not the same one; `none` for an exception. The tuples `model_attributes` are `ka`, `kb`. |
| `Memo.hash` | `model_hash` with the memo (`eos.py` 940-951, `activity.py` 350-361, `chemical_package.py` 649-658). |
| `tdepHash` | `TDependentProperty.__hash__` (`utils/t_dependent_property.py` 1561-1577): attributes outside the ignored ones, with their names; `__dict__` is given by the list of its names. |
| `ignoreProps` | `hash_ignore_props` (1561-1563). |
| `mixPropHash` | `MixtureProperty.__hash__` (`utils/mixture_property.py` 91-94): all of `__dict__`. |

## Verif/Util/Repr.lean

C154: the printed form of an object recreates the object

| definition | source |
|---|---|
| `Mode` | How a class prints an attribute: `always`/`ifSet` with `repr` (`true`) or `str` (`false`); `joined`: `'[' + ', '.join(...) + ']'`, which raises for `None`; `joinedOrEmpty`: the same in `try` with `''` on failure (ceos.py 122-125); `presence`: only whether it is set (stream.py 1281); `unset`: an attribute that never exists (`AttributeError`). |
| `tDefault` | `T_DEFAULT` and `P_DEFAULT` of phases (thermo/phases/phase.py 136-137). |
| `idealGas` | `IdealGas` (ideal_gas.py 93, 147-151). |
| `ceosPhase` | `CEOSPhase` (ceos.py 121-136). |
| `virialGas` | `VirialGas` (virial_phase.py 978-980, 1029-1039). |
| `gibbsExcess` | `GibbsExcessLiquid` (gibbs_excess.py 233-234, 272-291, 295-322). |
| `gibbsSolid` | `GibbsExcessSolid` (3380-3405): the constructor hands its correlations on under other names and never stores `SublimationPressures`, `VolumeSolids`, `EnthalpySublimations`. |
| `iapws95Gas` | `HelmholtzEOS.__repr__` for `IAPWS95Gas` and `IAPWS95Liquid` (helmholtz_eos.py 54). |
| `iapws95` | The same for `IAPWS95` itself (iapws_phase.py 49-51, 88). |
| `dryAir` | `DryAirLemmon` (air_phase.py 75): the default pressure is the default temperature. |
| `equilibriumState` | `EquilibriumState` (equilibrium.py 252-267). |
| `flashPure` | `FlashPureVLS` (flash_pure_vls.py 249-260). |
| `streamArgs` | `StreamArgs` (stream.py 1280-1287); `specs` are the names of the specifications. |
| `bulkSettings` | `BulkSettings` (bulk.py 437-460); `ns` are the settings with their defaults. |
| `energyStream` | `EnergyStream` (3006-3012). |
| `idealSolution` | `IdealSolution` (activity.py 330, 1185) and `HansenSolution` (regular_solution.py 1648-1681). |
| `ceosN` | Number of components of a `CEOSPhase` (ceos.py 144-147). |
| `entropies` | `Sfs` of an ideal gas (ideal_gas.py 101-107) from lists without `None`. |
| `printed` | Printed constants (chemical_package.py 825-827): those with any value. |
| `package` | The constructor (1077-1100): as many components as molecular weights, which must be given; constants not given are lists of `None`. |
| `makeStr` | `_make_str` of the constants (824-829) with the parts `k=value` to print: the last two characters are cut whatever they are. |
| `phaseStr` | Phases cut only a trailing comma and blank (ideal_gas.py 148-154). |
| `correlationsStr` | `_make_str` of the correlations (1591-1603): each part but the last is followed by the delimiter and a line break. |
