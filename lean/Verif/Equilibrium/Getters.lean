import Verif.Equilibrium.Reports
import Mathlib.Tactic
import Mathlib.Analysis.SpecialFunctions.Pow.Real

/-!
# Generated getters and composition averages of states, phases and bulks (`thermo/equilibrium.py`)

* C136: element and component getters, averages, heating values, K-values, and the getters set on the classes at the
  end of the module.

A phase or bulk is represented by its composition. Attributes are resolved by name; the three lists of generated
derivative names appended to `bulk_props` (3437-3439) and the getters of constants and correlations (3325-3352) are
not modelled. All atoms are elements of the periodic table.
-/

namespace Verif.Getters

open Verif.Equil

/-! ## Model: elements -/

section Atoms
variable {A : Type} [DecidableEq A]

/-- `mass_fractions(atoms, MW)` of `chemicals` for a non-zero `MW`: `periodic_table[i].MW*count/MW` for every atom;
`aMW` is the atomic weight. -/
noncomputable def massFractions (aMW : A → ℝ) (things : List (A × ℝ)) (MW : ℝ) : List (A × ℝ) :=
  things.map fun x => (x.1, aMW x.1 * x.2 / MW)

/-- `atom_mass_fractions` (equilibrium.py 837-865) with `MW` (996-1019) -/
noncomputable def atomMassFractions {N : ℕ} (aMW : A → ℝ) (atomss : Fin N → List (A × ℕ)) (MWs zs : Fin N → ℝ) :
    List (A × ℝ) :=
  massFractions aMW (atomContent atomss zs) (mixSum zs MWs)

/-- `atom_flows` (equilibrium.py 868-890) -/
noncomputable def atomFlows {N : ℕ} (atomss : Fin N → List (A × ℕ)) (zs : Fin N → ℝ) (n : ℝ) : List (A × ℝ) :=
  (atomContent atomss zs).map fun x => (x.1, x.2 * n)

/-- `atom_count_flows` (equilibrium.py 892-909); `NA` is Avogadro's number. -/
noncomputable def atomCountFlows {N : ℕ} (NA : ℝ) (atomss : Fin N → List (A × ℕ)) (zs : Fin N → ℝ) (n : ℝ) :
    List (A × ℝ) :=
  (atomContent atomss zs).map fun x => (x.1, x.2 * n * NA)

/-- `atom_mass_flows` (equilibrium.py 911-928) -/
noncomputable def atomMassFlows {N : ℕ} (aMW : A → ℝ) (atomss : Fin N → List (A × ℕ)) (MWs zs : Fin N → ℝ) (m : ℝ) :
    List (A × ℝ) :=
  (atomMassFractions aMW atomss MWs zs).map fun x => (x.1, x.2 * m)

/-- What a getter can end with. -/
inductive Err | keyError | attributeError | typeError | valueError | zeroDivision | indexError
  deriving DecidableEq, Repr

/-- `d[key]` -/
def lookup (d : List (A × ℝ)) (k : A) : Except Err ℝ :=
  match d.find? fun x => x.1 = k with
  | some x => .ok x.2
  | none => .error .keyError

/-- The nested `try` blocks of `get_atom_fraction` and `get_atom_mass_fraction` (equilibrium.py 3481-3489,
3505-3513): the stored dictionary, or the dictionary computed by the method; a missing element is `0.0`. -/
def elementFraction (stored : Option (List (A × ℝ))) (computed : List (A × ℝ)) (k : A) : Except Err ℝ :=
  match stored with
  | some d =>
    match lookup d k with
    | .error .keyError => .ok 0
    | r => r
  | none =>
    match lookup computed k with
    | .error .keyError => .ok 0
    | r => r

/-- `d[key]*self.n*c`, evaluated from left to right; a flow rate which is not a number (`None` or a bound method)
raises `TypeError`. -/
def lookupTimes (d : List (A × ℝ)) (k : A) (flow : Option ℝ) (c : ℝ) : Except Err ℝ :=
  match lookup d k with
  | .error e => .error e
  | .ok v =>
    match flow with
    | some n => .ok (v * n * c)
    | none => .error .typeError

/-- `get_atom_mass_flow`, `get_atom_flow` (`c = 1`) and `get_atom_count_flow` (`c = N_A`)
(equilibrium.py 3529-3537, 3553-3561, 3577-3585). -/
def elementFlow (stored : Option (List (A × ℝ))) (computed : List (A × ℝ)) (k : A) (flow : Option ℝ) (c : ℝ) :
    Except Err ℝ :=
  match stored with
  | some d =>
    match lookupTimes d k flow c with
    | .error .keyError => .ok 0
    | r => r
  | none =>
    match lookupTimes computed k flow c with
    | .error .keyError => .ok 0
    | r => r

end Atoms

/-! ## Model: components -/

section Components
variable {N : ℕ}

/-- `self.CASs.index(CAS)` -/
def casIndex (CASs : Fin N → String) (cas : String) : Option (Fin N) :=
  (List.finRange N).find? fun i => CASs i = cas

/-- `get` of `_make_getter_partial_pressure` (equilibrium.py 3611-3619) -/
def partialPressure (CASs : Fin N → String) (P : ℝ) (zs : Fin N → ℝ) (cas : String) : ℝ :=
  match casIndex CASs cas with
  | none => 0
  | some i => P * zs i

/-- `get` of `_make_getter_component_molar_weight` (equilibrium.py 3631-3639) -/
noncomputable def componentMolarWeight (CASs : Fin N → String) (MWs zs : Fin N → ℝ) (cas : String) : ℝ :=
  match casIndex CASs cas with
  | none => 0
  | some i => mixSum zs MWs * toWs MWs zs i

/-- `pseudo_Tc`, `pseudo_Pc`, `pseudo_Vc`, `pseudo_Zc`, `pseudo_omega` (equilibrium.py 1021-1149): the composition
is that of the state or of the phase given, the constants those of the state. -/
def pseudo (consts bulk : Fin N → ℝ) (phase : Option (Fin N → ℝ)) : ℝ := mixSum (phase.getD bulk) consts

/-! ## Model: gas volumes, heating values, gravities -/

/-- `V_gas_standard`, `V_gas_normal`, `V_gas` (equilibrium.py 2030-2082) with the temperature and pressure of the
settings; the phase is ignored. -/
noncomputable def V_gas (R T P : ℝ) : ℝ := R * T / P

/-- `rho_gas_standard`, `rho_gas_normal`, `rho_gas` (equilibrium.py 2084-2124) -/
noncomputable def rho_gas (R T P : ℝ) : ℝ := 1 / V_gas R T P

/-- `Vm_to_rho(Vm, MW)` of `chemicals`: `Vm**-1*MW/1000.` -/
noncomputable def Vm_to_rho (Vm MW : ℝ) : ℝ := Vm⁻¹ * MW / 1000

/-- `rho_mass_gas_standard`, `rho_mass_gas_normal`, `rho_mass_gas` (equilibrium.py 2126-2172) -/
noncomputable def rho_mass_gas (R T P : ℝ) (MWs bulk : Fin N → ℝ) (phase : Option (Fin N → ℝ)) : ℝ :=
  Vm_to_rho (V_gas R T P) (mixSum (phase.getD bulk) MWs)

/-- `rho_mass_liquid_ref` (equilibrium.py 761-779) with `V_liquid_ref` (733-759) -/
noncomputable def rho_mass_liquid_ref (Vls MWs bulk : Fin N → ℝ) (phase : Option (Fin N → ℝ)) : ℝ :=
  Vm_to_rho (mixSum (phase.getD bulk) Vls) (mixSum (phase.getD bulk) MWs)

/-- `mixing_simple(props, fracs)` of `fluids`: the weighted sum, `None` if a property is `None`. -/
noncomputable def mixingSimple (props : Fin N → Option ℝ) (fracs : Fin N → ℝ) : Option ℝ :=
  if ∀ i, (props i).isSome then some (∑ i, fracs i * (props i).getD 0) else none

/-- `Hc`, `Hc_lower` (equilibrium.py 2480-2494, 2544-2558) -/
noncomputable def Hc (Hcs : Fin N → Option ℝ) (bulk : Fin N → ℝ) (phase : Option (Fin N → ℝ)) : Option ℝ :=
  mixingSimple Hcs (phase.getD bulk)

/-- `Hc_mass`, `Hc_lower_mass` (equilibrium.py 2496-2510, 2560-2574) -/
noncomputable def HcMass (HcsMass : Fin N → Option ℝ) (MWs bulk : Fin N → ℝ) (phase : Option (Fin N → ℝ)) : Option ℝ :=
  mixingSimple HcsMass (toWs MWs (phase.getD bulk))

/-- `Hcs_mass` (chemical_package.py 326): `Hc*1000.0/MW if Hc is not None else None` -/
noncomputable def HcsMass (Hcs : Fin N → Option ℝ) (MWs : Fin N → ℝ) : Fin N → Option ℝ :=
  fun i => (Hcs i).map fun h => h * 1000 / MWs i

/-- `Hc_normal`, `Hc_standard` and their lower forms (equilibrium.py 2512-2542, 2576-2606): heating value over the
volume of the reference gas; dividing `None` raises `TypeError`. -/
noncomputable def HcVolume (R T P : ℝ) (Hcs : Fin N → Option ℝ) (bulk : Fin N → ℝ) (phase : Option (Fin N → ℝ)) :
    Except Err ℝ :=
  match Hc Hcs bulk phase with
  | some h => .ok (h / V_gas R T P)
  | none => .error .typeError

/-- `SG_gas` (equilibrium.py 2001-2025): `MW/28.9586` -/
noncomputable def SG_gas (MWs bulk : Fin N → ℝ) (phase : Option (Fin N → ℝ)) : ℝ :=
  mixSum (phase.getD bulk) MWs / 28.9586

/-- The common part of the eight `Wobbe_index` methods (equilibrium.py 2609-2787): `abs(Hc)*SG_gas**-0.5`;
`abs(None)` raises `TypeError`. -/
noncomputable def wobbe (hc : Except Err (Option ℝ)) (SG : ℝ) : Except Err ℝ :=
  match hc with
  | .error e => .error e
  | .ok none => .error .typeError
  | .ok (some h) => .ok (|h| * SG ^ (-(1 / 2) : ℝ))

/-- `Wobbe_index`, `Wobbe_index_lower` (equilibrium.py 2624-2628, 2667-2672) -/
noncomputable def wobbeMolar (Hcs : Fin N → Option ℝ) (MWs bulk : Fin N → ℝ) (phase : Option (Fin N → ℝ)) :
    Except Err ℝ :=
  wobbe (.ok (Hc Hcs bulk phase)) (SG_gas MWs bulk phase)

/-- `Wobbe_index_mass`, `Wobbe_index_lower_mass` (equilibrium.py 2645-2650, 2689-2694) -/
noncomputable def wobbeMass (Hcsm : Fin N → Option ℝ) (MWs bulk : Fin N → ℝ) (phase : Option (Fin N → ℝ)) :
    Except Err ℝ :=
  wobbe (.ok (HcMass Hcsm MWs bulk phase)) (SG_gas MWs bulk phase)

/-- `Wobbe_index_standard`, `Wobbe_index_normal` and their lower forms (equilibrium.py 2713-2718, 2736-2741,
2759-2764, 2782-2787) -/
noncomputable def wobbeVolume (R T P : ℝ) (Hcs : Fin N → Option ℝ) (MWs bulk : Fin N → ℝ)
    (phase : Option (Fin N → ℝ)) : Except Err ℝ :=
  wobbe ((HcVolume R T P Hcs bulk phase).map some) (SG_gas MWs bulk phase)

/-- `rhol_60Fs_mass` (chemical_package.py 234): `1e-3*MW/V` -/
noncomputable def rhol60 (MWs Vls : Fin N → ℝ) : Fin N → ℝ := fun i => 1e-3 * MWs i / Vls i

/-- The loop of `SG` (equilibrium.py 1993-1998): mass fraction average of the liquid densities at 60 °F. -/
noncomputable def rhoMass60 (MWs rhos bulk : Fin N → ℝ) (phase : Option (Fin N → ℝ)) : ℝ :=
  ∑ i, toWs MWs (phase.getD bulk) i * rhos i

/-- `SG` (equilibrium.py 1976-1999), `SG(rho, rho_ref)` being the quotient. -/
noncomputable def SG (MWs rhos bulk : Fin N → ℝ) (phase : Option (Fin N → ℝ)) : ℝ :=
  rhoMass60 MWs rhos bulk phase / 999.0170824078306

/-- `API` (equilibrium.py 3226-3239) as a function of the gravity. -/
noncomputable def API (SG : ℝ) : ℝ := 141.5 / SG - 131.5

/-! ## Model: K-values -/

/-- The choice of the reference phase of `Ks` (equilibrium.py 2462-2471): the argument, the phase stored by the
flash, the first liquid, the first solid, the gas. -/
def refPhase {P : Type} (given stored : Option P) (liquids solids : List P) (gas : Option P) : Option P :=
  match given with
  | some p => some p
  | none =>
    match stored with
    | some p => some p
    | none =>
      match liquids with
      | l :: _ => some l
      | [] =>
        match solids with
        | s :: _ => some s
        | [] => gas

open Classical in
/-- `Ks` (equilibrium.py 2472-2478): `[g/l for l, g in zip(ref_zs, zs)]` of Python floats; a vanishing fraction in
the reference phase raises `ZeroDivisionError`. -/
noncomputable def Ks (zs ref : Fin N → ℝ) : Except Err (Fin N → ℝ) :=
  if ∃ i, ref i = 0 then .error .zeroDivision else .ok fun i => zs i / ref i

end Components

/-! ## Model: `value` -/

/-- What an attribute lookup can return, up to what indexing and calling do with it. -/
inductive Val | num (x : ℝ) | list (xs : List ℝ) | method

/-- An attribute of the state: data, or a method with the outcome of calling it without arguments (`none`: it
raises). -/
inductive Attr | data (v : Val) | method (result : Option Val)

/-- `v[i]` -/
def index (v : Val) (i : ℕ) : Except Err ℝ :=
  match v with
  | .num _ => .error .typeError
  | .method => .error .typeError
  | .list xs =>
    match xs[i]? with
    | some x => .ok x
    | none => .error .indexError

/-- `v = getattr(self, name)` and `try: v = v() except: pass` (equilibrium.py 3211-3215, phase.py 385-390) -/
def called : Attr → Val
  | .data v => v
  | .method (some v) => v
  | .method none => .method

/-- `EquilibriumState.value(name, phase)` (equilibrium.py 3183-3218): `attr` is the attribute of the state of that
name, `position` the result of `self.phases.index(phase)` if a phase is given (`some none`: not in the list). -/
def stateValue (attr : Option Attr) (position : Option (Option ℕ)) : Except Err (Val ⊕ ℝ) :=
  match position with
  | some none => .error .valueError
  | none =>
    match attr with
    | none => .error .attributeError
    | some a => .ok (.inl (called a))
  | some (some i) =>
    match attr with
    | none => .error .attributeError
    | some a => (index (called a) i).map Sum.inr

/-- `Phase.value(name)` (phase.py 362-390): for `'beta_mass'` the state is asked for an attribute of that name. -/
def phaseValue (stateAttrs phaseAttrs : String → Option Attr) (position : Option ℕ) (name : String) :
    Except Err (Val ⊕ ℝ) :=
  if name ∈ ["beta_mass"] then stateValue (stateAttrs name) (some position)
  else
    match phaseAttrs name with
    | none => .error .attributeError
    | some a => .ok (.inl (called a))

/-! ## Model: the getters set on the classes -/

/-- `phases_properties_to_EquilibriumState` (equilibrium.py 3357-3378) -/
def phaseNames : List String :=
   ["atom_content", "atom_fractions", "atom_mass_fractions", "atom_flows", "atom_mass_flows", "atom_count_flows",
    "API", "Hc", "Hc_mass", "Hc_lower", "Hc_lower_mass", "SG", "SG_gas", "pseudo_Tc", "pseudo_Pc", "pseudo_Vc",
    "pseudo_Zc", "pseudo_omega", "V_gas_standard", "V_gas_normal", "V_gas", "rho_gas_standard", "rho_gas_normal",
    "rho_gas", "rho_mass_gas_standard", "rho_mass_gas_normal", "rho_mass_gas", "Hc_normal", "Hc_standard",
    "Hc_lower_normal", "Hc_lower_standard", "Wobbe_index_lower_normal", "Wobbe_index_lower_standard",
    "Wobbe_index_normal", "Wobbe_index_standard", "Wobbe_index_lower_mass", "Wobbe_index_lower", "Wobbe_index_mass",
    "Wobbe_index", "V_mass", "rho_mass_liquid_ref", "V_liquid_ref", "molar_water_content", "ws_no_water",
    "zs_no_water", "humidity_ratio", "H_C_ratio", "H_C_ratio_mass", "Vfls", "Vfgs", "H_flow", "G_flow", "S_flow",
    "U_flow", "A_flow", "H_dep_flow", "S_dep_flow", "G_dep_flow", "U_dep_flow", "A_dep_flow"]

/-- `Bulk_properties_to_EquilibriumState` (equilibrium.py 3394-3399) -/
def bulkNames : List String :=
   ["V_ideal_gas", "G_ideal_gas", "U_ideal_gas", "Cv_ideal_gas", "Cp_Cv_ratio_ideal_gas", "A_ideal_gas",
    "H_formation_ideal_gas", "S_formation_ideal_gas", "G_formation_ideal_gas", "U_formation_ideal_gas",
    "A_formation_ideal_gas", "H_dep", "S_dep", "Cp_dep", "Cv_dep"]

/-- `bulk_props` (equilibrium.py 3405-3433) -/
def bulkProps : List String :=
   ["V", "Z", "rho", "Cp", "Cv", "H", "S", "U", "G", "A", "H_reactive", "S_reactive", "G_reactive", "U_reactive",
    "A_reactive", "H_reactive_mass", "S_reactive_mass", "G_reactive_mass", "U_reactive_mass", "A_reactive_mass",
    "H_ideal_gas_mass", "S_ideal_gas_mass", "G_ideal_gas_mass", "U_ideal_gas_mass", "A_ideal_gas_mass",
    "H_formation_ideal_gas_mass", "S_formation_ideal_gas_mass", "G_formation_ideal_gas_mass",
    "U_formation_ideal_gas_mass", "A_formation_ideal_gas_mass", "H_dep_mass", "S_dep_mass", "G_dep_mass",
    "U_dep_mass", "A_dep_mass", "Cp_Cv_ratio", "log_zs", "isothermal_bulk_modulus", "dP_dT_frozen", "dP_dV_frozen",
    "d2P_dT2_frozen", "d2P_dV2_frozen", "d2P_dTdV_frozen", "d2P_dTdV", "d2P_dV2", "d2P_dT2", "dP_dV", "dP_dT",
    "isentropic_exponent", "alpha", "thermal_diffusivity", "PIP", "kappa", "isobaric_expansion", "Joule_Thomson",
    "speed_of_sound", "speed_of_sound_mass", "speed_of_sound_ideal_gas", "speed_of_sound_ideal_gas_mass", "U_dep",
    "G_dep", "A_dep", "V_dep", "B_from_Z", "Cp_dep_mass", "Cp_ideal_gas_mass", "Cv_dep_mass", "G_min_criteria", "mu",
    "k", "sigma", "Prandtl", "isentropic_exponent", "isentropic_exponent_PV", "isentropic_exponent_TV",
    "isentropic_exponent_PT", "concentrations_mass", "concentrations", "Qls", "ms", "ns", "Q", "m", "n", "nu",
    "kinematic_viscosity", "partial_pressures", "H_ideal_gas_standard_state", "Hs_ideal_gas_standard_state",
    "G_ideal_gas_standard_state", "Gs_ideal_gas_standard_state", "S_ideal_gas_standard_state",
    "Ss_ideal_gas_standard_state", "concentrations_mass_gas", "concentrations_mass_gas_normal",
    "concentrations_mass_gas_standard", "concentrations_gas_standard", "concentrations_gas_normal",
    "concentrations_gas"]

/-- `bulk_properties` (equilibrium.py 3447-3452) -/
def bulkProperties : List String :=
   ["Ql", "Ql_calc", "Qls_calc", "Qls", "Qg_calc", "Qg", "Qgs_calc", "Qgs", "ms_calc", "ns_calc", "Q_calc", "Q",
    "m_calc", "n_calc", "H_calc", "T_calc", "P_calc", "VF_calc", "zs_calc", "ws_calc", "Vfls_calc", "Vfgs_calc",
    "energy_reactive_calc", "energy_reactive", "energy_calc", "energy"]

/-- The names of these lists which the class body of `EquilibriumState` defines as methods with one optional
argument `phase` (equilibrium.py 781-3239). -/
def stateMethods : List String :=
   ["atom_content", "atom_fractions", "atom_mass_fractions", "atom_flows", "atom_mass_flows", "atom_count_flows",
    "API", "Hc", "Hc_mass", "Hc_lower", "Hc_lower_mass", "SG", "SG_gas", "pseudo_Tc", "pseudo_Pc", "pseudo_Vc",
    "pseudo_Zc", "pseudo_omega", "V_gas_standard", "V_gas_normal", "V_gas", "rho_gas_standard", "rho_gas_normal",
    "rho_gas", "rho_mass_gas_standard", "rho_mass_gas_normal", "rho_mass_gas", "Hc_normal", "Hc_standard",
    "Hc_lower_normal", "Hc_lower_standard", "Wobbe_index_lower_normal", "Wobbe_index_lower_standard",
    "Wobbe_index_normal", "Wobbe_index_standard", "Wobbe_index_lower_mass", "Wobbe_index_lower", "Wobbe_index_mass",
    "Wobbe_index", "V_mass", "rho_mass_liquid_ref", "V_liquid_ref", "ws_no_water", "zs_no_water", "humidity_ratio",
    "H_C_ratio", "H_C_ratio_mass", "Vfls", "Vfgs", "H_flow", "G_flow", "S_flow", "U_flow", "A_flow", "H_dep_flow",
    "S_dep_flow", "G_dep_flow", "U_dep_flow", "A_dep_flow", "V_ideal_gas", "G_ideal_gas", "U_ideal_gas",
    "Cv_ideal_gas", "Cp_Cv_ratio_ideal_gas", "A_ideal_gas", "H_formation_ideal_gas", "S_formation_ideal_gas",
    "G_formation_ideal_gas", "U_formation_ideal_gas", "A_formation_ideal_gas", "H_dep", "S_dep", "Cp_dep", "Cv_dep",
    "nu"]

/-- The names of `bulk_props` and `bulk_properties` which are properties of `Bulk` or of its base class `Phase`
(bulk.py 650-760, phase.py 5304-5720; the names ending in `_calc` are mostly aliases of a property). -/
def bulkIsProperty : List String :=
   ["Qls", "ms", "ns", "Q", "m", "n", "Ql", "Ql_calc", "Qls_calc", "Qg_calc", "Qg", "Qgs_calc", "Qgs", "ms_calc",
    "ns_calc", "Q_calc", "m_calc", "n_calc", "H_calc", "T_calc", "P_calc", "VF_calc", "zs_calc", "ws_calc",
    "Vfls_calc", "Vfgs_calc", "energy_reactive_calc", "energy_reactive", "energy_calc", "energy"]

/-- The names of `bulk_props` which neither `Bulk` nor `Phase` defines. -/
def bulkMissing : List String := ["B_from_Z"]

/-- How a name is bound in a class. -/
inductive Binding
  /-- a method of the class body with an optional phase -/
  | ownMethod
  /-- `get_bulk_prop` (3296-3298): `getattr(self.bulk, name)()`, without further arguments -/
  | bulkCall
  /-- `get_bulk_property` (3308-3311): a property, `getattr(self.bulk, name)` -/
  | bulkProperty
  deriving DecidableEq, Repr

/-- `setattr` on a class, most recent first. -/
abbrev ClassDict := List (String × Binding)

/-- The class body, then the two loops (equilibrium.py 3441-3444, 3453-3456). -/
def stateDict : ClassDict :=
  let body : ClassDict := stateMethods.map fun s => (s, .ownMethod)
  let d1 := bulkProps.foldl (fun d s => (s, Binding.bulkCall) :: d) body
  bulkProperties.foldl (fun d s => (s, Binding.bulkProperty) :: d) d1

/-- What `EquilibriumState.name` is bound to after the module has been imported. -/
def stateBinding (name : String) : Option Binding := (stateDict.find? fun x => x.1 = name).map Prod.snd

/-- How the bulk answers `getattr(self.bulk, name)` for a name of these lists. -/
inductive BulkAttr | method | property | missing
  deriving DecidableEq, Repr

/-- see `bulkIsProperty`, `bulkMissing` -/
def bulkAttr (name : String) : BulkAttr :=
  if name ∈ bulkMissing then .missing else if name ∈ bulkIsProperty then .property else .method

/-- Outcome of using a name on a state, with the exceptions of the lookup and of the call itself. -/
inductive Use | ok | attributeError | typeError
  deriving DecidableEq, Repr

/-- `state.name()`: a property is read and its value, a number, a list or `None`, is called. -/
def callState (name : String) : Use :=
  match stateBinding name with
  | none => .attributeError
  | some .ownMethod => .ok
  | some .bulkCall =>
    match bulkAttr name with
    | .method => .ok
    | .property => .typeError
    | .missing => .attributeError
  | some .bulkProperty => .typeError

/-- `state.name(phase)`, as the getters of `phases_properties_to_EquilibriumState` and
`Bulk_properties_to_EquilibriumState` do (3277-3279): `get_bulk_prop` takes no such argument. -/
def callStateWithPhase (name : String) : Use :=
  match stateBinding name with
  | none => .attributeError
  | some .ownMethod => .ok
  | some .bulkCall => .typeError
  | some .bulkProperty => .typeError

/-- Whether reading `state.name` without a call gives the value of the bulk (rather than a bound method). -/
def readState (name : String) : Use :=
  match stateBinding name with
  | none => .attributeError
  | some .ownMethod => .typeError
  | some .bulkCall => .typeError
  | some .bulkProperty => if bulkAttr name = .property then .ok else .typeError

/-- `Phase.n` and `Phase.m` (phase.py 5357-5404) of a phase of a state: `self.result.n*self.beta`, every exception
giving `None`. `own` is the flow rate an `EquilibriumStream` stores on itself (`none` for a plain
`EquilibriumState`, whose `n` is then the bound method and cannot be multiplied). -/
def phaseFlow (own : Option ℝ) (beta : ℝ) : Option ℝ :=
  match own with
  | some n => some (n * beta)
  | none => none

/-- `_comonent_specific_properties` (equilibrium.py 3600-3610), the registry numbers split at the hyphens. -/
def components : List (String × ℕ × ℕ × ℕ) :=
  [("water", 7732, 18, 5), ("carbon_dioxide", 124, 38, 9), ("hydrogen_sulfide", 7783, 6, 4),
   ("hydrogen", 1333, 74, 0), ("helium", 7440, 59, 7), ("nitrogen", 7727, 37, 9), ("oxygen", 7782, 44, 7),
   ("argon", 7440, 37, 1), ("methane", 74, 82, 8), ("ammonia", 7664, 41, 7)]

/-! ## Lemmas -/

section
variable {A : Type} [DecidableEq A]

theorem weighted_add (w : A → ℝ) (d : List (A × ℝ)) (a : A) (v : ℝ) (h : (d.map Prod.fst).Nodup) :
    ((dictAdd d a v).map fun x => w x.1 * x.2).sum = (d.map fun x => w x.1 * x.2).sum + w a * v := by
  rw [dictAdd]
  split
  · rename_i ha
    induction d with
    | nil => simp at ha
    | cons x d ih =>
      simp only [List.map_cons, List.nodup_cons] at h
      by_cases hx : x.1 = a
      · have hd : d.map (fun x => if x.1 = a then (x.1, x.2 + v) else x) = d := by
          conv_rhs => rw [← List.map_id d]
          refine List.map_congr_left fun y hy => ?_
          have : y.1 ≠ a := fun e => h.1 (hx ▸ List.mem_map.mpr ⟨y, hy, e⟩)
          simp [this]
        rw [List.map_cons, hd, if_pos hx]
        simp only [List.map_cons, List.sum_cons, hx]
        ring
      · have ha' : a ∈ d.map Prod.fst := by
          simp only [List.map_cons, List.mem_cons] at ha
          exact ha.resolve_left fun e => hx e.symm
        rw [List.map_cons, if_neg hx]
        simp only [List.map_cons, List.sum_cons]
        rw [ih h.2 ha']
        ring
  · simp

theorem weighted_fold (w : A → ℝ) (l d : List (A × ℝ)) (h : (d.map Prod.fst).Nodup) :
    ((l.foldl (fun t x => dictAdd t x.1 x.2) d).map fun x => w x.1 * x.2).sum
      = (d.map fun x => w x.1 * x.2).sum + (l.map fun x => w x.1 * x.2).sum := by
  induction l generalizing d with
  | nil => simp
  | cons x l ih =>
    rw [List.foldl_cons, ih _ (dictAdd_keys d x.1 x.2 h).1, weighted_add w d x.1 x.2 h, List.map_cons, List.sum_cons]
    ring

theorem weighted_content {N : ℕ} (w : A → ℝ) (atomss : Fin N → List (A × ℕ)) (zs : Fin N → ℝ) :
    ((atomContent atomss zs).map fun x => w x.1 * x.2).sum
      = ∑ i, zs i * ((atomss i).map fun x => w x.1 * (x.2 : ℝ)).sum := by
  rw [atomContent_eq, weighted_fold w _ [] (by simp), contributions, sum_flatMap]
  simp only [List.map_nil, List.sum_nil, zero_add]
  refine Finset.sum_congr rfl fun i _ => ?_
  rw [List.map_map, ← List.sum_map_mul_left]
  refine congrArg List.sum (List.map_congr_left fun x _ => ?_)
  simp only [Function.comp]
  ring

theorem lookup_eq (d : List (A × ℝ)) (k : A) :
    lookup d k = if k ∈ d.map Prod.fst then .ok (dictGet d k) else .error .keyError := by
  induction d with
  | nil => rfl
  | cons x d ih =>
    by_cases hx : x.1 = k
    · simp [lookup, dictGet, hx]
    · have hx' : k ≠ x.1 := fun e => hx e.symm
      simp only [lookup, dictGet, List.find?_cons, hx, decide_false, List.map_cons, List.mem_cons, hx',
        false_or] at ih ⊢
      exact ih

theorem dictGet_mass (aMW : A → ℝ) (things : List (A × ℝ)) (MW : ℝ) (k : A) :
    dictGet (massFractions aMW things MW) k = aMW k * dictGet things k / MW := by
  induction things with
  | nil => simp [dictGet, massFractions]
  | cons x l ih =>
    rw [massFractions, List.map_cons, dictGet_cons, dictGet_cons]
    rw [massFractions] at ih
    dsimp only
    split
    · rename_i h
      rw [h]
    · exact ih

end

/-! ## C136: elements -/

section Atoms
variable {A : Type} [DecidableEq A] {N : ℕ}

/-- **C136.** The mass fraction of an element is its atomic weight times its content over the molecular weight of the
phase; together the mass fractions are the ratio of the weight of the formulas to the weight of the constants, and
sum to one if the molecular weights of the constants are those of the formulas. -/
theorem C136_atom_mass (aMW : A → ℝ) (atomss : Fin N → List (A × ℕ)) (MWs zs : Fin N → ℝ) :
    (∀ k, dictGet (atomMassFractions aMW atomss MWs zs) k
      = aMW k * dictGet (atomContent atomss zs) k / ∑ i, zs i * MWs i) ∧
    ((atomMassFractions aMW atomss MWs zs).map Prod.snd).sum
      = (∑ i, zs i * ((atomss i).map fun x => aMW x.1 * (x.2 : ℝ)).sum) / ∑ i, zs i * MWs i ∧
    ((∀ i, MWs i = ((atomss i).map fun x => aMW x.1 * (x.2 : ℝ)).sum) → ∑ i, zs i * MWs i ≠ 0 →
      ((atomMassFractions aMW atomss MWs zs).map Prod.snd).sum = 1) := by
  have key : ((atomMassFractions aMW atomss MWs zs).map Prod.snd).sum
      = (∑ i, zs i * ((atomss i).map fun x => aMW x.1 * (x.2 : ℝ)).sum) / ∑ i, zs i * MWs i := by
    rw [← weighted_content, atomMassFractions, massFractions, mixSum, List.map_map]
    generalize atomContent atomss zs = l
    induction l with
    | nil => simp
    | cons x l ih =>
      rw [List.map_cons, List.sum_cons, ih, List.map_cons, List.sum_cons]
      simp only [Function.comp]
      ring
  refine ⟨fun k => ?_, key, fun h h0 => ?_⟩
  · rw [atomMassFractions, dictGet_mass, mixSum]
  · rw [key, ← Finset.sum_congr rfl fun i _ => congrArg (zs i * ·) (h i), div_self h0]

/-- **C136.** Elements are conserved by mass: the mass fractions of the phases, weighted with the mass fractions
`beta*MW/MW_bulk` of the phases, give the mass fraction of the bulk. -/
theorem C136_mass_conserved (aMW : A → ℝ) (atomss : Fin N → List (A × ℕ)) (hd : ∀ i, ((atomss i).map Prod.fst).Nodup)
    (MWs zs : Fin N → ℝ) (phases : List (ℝ × (Fin N → ℝ)))
    (hz : ∀ i, (phases.map fun p => p.1 * p.2 i).sum = zs i) (hM : ∀ p ∈ phases, ∑ i, p.2 i * MWs i ≠ 0) (k : A) :
    (phases.map fun p => p.1 * (∑ i, p.2 i * MWs i) / (∑ i, zs i * MWs i)
      * dictGet (atomMassFractions aMW atomss MWs p.2) k).sum
      = dictGet (atomMassFractions aMW atomss MWs zs) k := by
  rw [(C136_atom_mass aMW atomss MWs zs).1, ← C72_atoms_conserved atomss hd phases zs hz k]
  simp only [(C136_atom_mass aMW atomss MWs _).1]
  clear hz
  induction phases with
  | nil => simp
  | cons p ps ih =>
    rw [List.map_cons, List.sum_cons, ih fun q hq => hM q (List.mem_cons_of_mem _ hq), List.map_cons, List.sum_cons]
    have h0 := hM p (List.mem_cons_self ..)
    field_simp

/-- **C136.** Flows of elements: the molar flow is content times molar flow, the count flow Avogadro's number times
that, and the mass flow (with the mass flow `n*MW/1000` of the stream) the molar flow times the atomic weight over
1000. -/
theorem C136_flows (aMW : A → ℝ) (NA : ℝ) (atomss : Fin N → List (A × ℕ)) (MWs zs : Fin N → ℝ) (n : ℝ)
    (hM : ∑ i, zs i * MWs i ≠ 0) (k : A) :
    dictGet (atomFlows atomss zs n) k = dictGet (atomContent atomss zs) k * n ∧
    dictGet (atomCountFlows NA atomss zs n) k = NA * dictGet (atomFlows atomss zs n) k ∧
    dictGet (atomMassFlows aMW atomss MWs zs (n * (∑ i, zs i * MWs i) / 1000)) k
      = dictGet (atomFlows atomss zs n) k * aMW k / 1000 := by
  have h1 : dictGet (atomFlows atomss zs n) k = dictGet (atomContent atomss zs) k * n := by
    rw [atomFlows, dictGet_scale]
  refine ⟨h1, ?_, ?_⟩
  · have : atomCountFlows NA atomss zs n = (atomContent atomss zs).map fun x => (x.1, x.2 * (n * NA)) := by
      simp only [atomCountFlows, mul_assoc]
    rw [this, dictGet_scale, h1]
    ring
  · rw [atomMassFlows, dictGet_scale, (C136_atom_mass aMW atomss MWs zs).1, h1]
    field_simp

/-- **C136.** The getters of single elements, whether or not the dictionary has been stored before: the fraction is
the entry of the dictionary, zero for an absent element; a flow is the entry times the flow rate, zero for an absent
element whatever the flow rate, and an exception for a present one if the flow rate is not a number. -/
theorem C136_element (d : List (A × ℝ)) (stored : Option (List (A × ℝ))) (hs : stored = none ∨ stored = some d)
    (k : A) (flow : Option ℝ) (c : ℝ) :
    elementFraction stored d k = .ok (dictGet d k) ∧
    elementFlow stored d k flow c =
      (match flow with
        | some n => .ok (dictGet d k * n * c)
        | none => if k ∈ d.map Prod.fst then .error .typeError else .ok 0) := by
  by_cases hk : k ∈ d.map Prod.fst
  · rcases hs with rfl | rfl <;> cases flow <;> simp [elementFraction, elementFlow, lookupTimes, lookup_eq, hk]
  · have h0 := dictGet_not_mem hk
    rcases hs with rfl | rfl <;> cases flow <;> simp [elementFraction, elementFlow, lookupTimes, lookup_eq, hk, h0]

/-- water and methane, with rounded atomic weights -/
example : (∀ i, ![18, (16 : ℝ)] i = (((![[("H", 2), ("O", 1)], [("C", 1), ("H", 4)]] : Fin 2 → List (String × ℕ)) i).map
      fun x => (if x.1 = "H" then 1 else if x.1 = "O" then 16 else 12) * (x.2 : ℝ)).sum) ∧
    ∑ i, ![1/2, (1/2 : ℝ)] i * ![18, (16 : ℝ)] i ≠ 0 ∧
    (∀ i, (([(1/2, ![1/4, 3/4]), (1/2, ![3/4, 1/4])] : List (ℝ × (Fin 2 → ℝ))).map fun p => p.1 * p.2 i).sum
      = ![1/2, (1/2 : ℝ)] i) := by
  refine ⟨fun i => ?_, ?_, fun i => ?_⟩
  · fin_cases i
    · simp
      norm_num
    · simp
      norm_num
  · norm_num [Fin.sum_univ_two]
  · fin_cases i <;> norm_num

example : elementFraction none [("H", (2 : ℝ)), ("O", 1)] "O" = .ok 1 ∧
    elementFlow (some [("H", (2 : ℝ)), ("O", 1)]) [("H", (2 : ℝ)), ("O", 1)] "H" none 1 = .error .typeError ∧
    elementFlow none [("H", (2 : ℝ)), ("O", 1)] "C" none 1 = .ok 0 := by
  simp [elementFraction, elementFlow, lookupTimes, lookup]

end Atoms

/-! ## C136: components and averages -/

section Components
variable {N : ℕ}

theorem casIndex_self (CASs : Fin N → String) (h : Function.Injective CASs) (i : Fin N) :
    casIndex CASs (CASs i) = some i := by
  have : ∀ l : List (Fin N), i ∈ l → l.find? (fun j => CASs j = CASs i) = some i := by
    intro l
    induction l with
    | nil => simp
    | cons a l ih =>
      intro hi
      by_cases ha : a = i
      · simp [ha]
      · have hne : CASs a ≠ CASs i := fun e => ha (h e)
        rw [List.find?_cons, decide_eq_false hne]
        exact ih ((List.mem_cons.mp hi).resolve_left fun e => ha e.symm)
  exact this _ (List.mem_finRange i)

theorem casIndex_none (CASs : Fin N → String) (cas : String) (h : ∀ i, CASs i ≠ cas) : casIndex CASs cas = none := by
  rw [casIndex, List.find?_eq_none]
  intro i _
  simpa using h i

/-- **C136.** The partial pressure and molar weight getters: a component of the mixture gives its mole fraction times
the pressure, or times its molecular weight; a compound not in the mixture gives zero; over all components the
partial pressures sum to the pressure and the molar weights to the molecular weight of the mixture. -/
theorem C136_component (CASs : Fin N → String) (h : Function.Injective CASs) (P : ℝ) (MWs zs : Fin N → ℝ)
    (hM : ∑ i, zs i * MWs i ≠ 0) :
    (∀ i, partialPressure CASs P zs (CASs i) = zs i * P) ∧
    (∀ i, componentMolarWeight CASs MWs zs (CASs i) = zs i * MWs i) ∧
    (∀ cas, (∀ i, CASs i ≠ cas) → partialPressure CASs P zs cas = 0 ∧ componentMolarWeight CASs MWs zs cas = 0) ∧
    (∑ i, zs i = 1 → ∑ i, partialPressure CASs P zs (CASs i) = P) ∧
    ∑ i, componentMolarWeight CASs MWs zs (CASs i) = ∑ i, zs i * MWs i := by
  have h1 : ∀ i, partialPressure CASs P zs (CASs i) = zs i * P := fun i => by
    simp only [partialPressure, casIndex_self CASs h]
    ring
  have h2 : ∀ i, componentMolarWeight CASs MWs zs (CASs i) = zs i * MWs i := fun i => by
    simp only [componentMolarWeight, casIndex_self CASs h, toWs, mixSum]
    field_simp
  refine ⟨h1, h2, fun cas hc => ?_, fun hz => ?_, ?_⟩
  · simp [partialPressure, componentMolarWeight, casIndex_none CASs cas hc]
  · simp only [h1, ← Finset.sum_mul, hz, one_mul]
  · simp only [h2]

example : Function.Injective ![("7732-18-5" : String), "74-82-8"] ∧
    ∑ i, ![1/2, (1/2 : ℝ)] i * ![18, (16 : ℝ)] i ≠ 0 ∧ ∑ i, ![1/2, (1/2 : ℝ)] i = 1 := by
  refine ⟨by decide, ?_, ?_⟩ <;> norm_num [Fin.sum_univ_two]

/-- **C136.** The check digits of the registry numbers of the ten named components are right, and no two of them
agree. -/
theorem C136_cas : (∀ c ∈ components,
      (let a := c.2.1
       let b := c.2.2.1
       (1 * (b % 10) + 2 * (b / 10) + 3 * (a % 10) + 4 * (a / 10 % 10) + 5 * (a / 100 % 10) + 6 * (a / 1000 % 10)) % 10
        = c.2.2.2)) ∧
    (components.map Prod.snd).Nodup ∧ (components.map Prod.fst).Nodup := by decide +kernel

example : ("water", 7732, 18, 5) ∈ components := by decide

/-- **C136.** A pseudo-critical property lies between the smallest and the largest of the components (in a phase with
non-negative fractions summing to one), that of a pure phase is the constant of its component, and the values of the
phases recombine to that of the state. -/
theorem C136_pseudo (c bulk zs : Fin N → ℝ) (h0 : ∀ i, 0 ≤ zs i) (h1 : ∑ i, zs i = 1) :
    (∀ lo, (∀ i, lo ≤ c i) → lo ≤ pseudo c bulk (some zs)) ∧
    (∀ hi, (∀ i, c i ≤ hi) → pseudo c bulk (some zs) ≤ hi) ∧
    (∀ k, (∀ i, i ≠ k → zs i = 0) → pseudo c bulk (some zs) = c k) ∧
    (∀ phases : List (ℝ × (Fin N → ℝ)), (∀ i, (phases.map fun p => p.1 * p.2 i).sum = bulk i) →
      (phases.map fun p => p.1 * pseudo c bulk (some p.2)).sum = pseudo c bulk none) := by
  simp only [pseudo, mixSum, Option.getD_some, Option.getD_none]
  refine ⟨fun lo h => ?_, fun hi h => ?_, fun k hk => ?_, fun phases hp => ?_⟩
  · calc lo = ∑ i, zs i * lo := by rw [← Finset.sum_mul, h1, one_mul]
      _ ≤ _ := Finset.sum_le_sum fun i _ => mul_le_mul_of_nonneg_left (h i) (h0 i)
  · calc _ ≤ ∑ i, zs i * hi := Finset.sum_le_sum fun i _ => mul_le_mul_of_nonneg_left (h i) (h0 i)
      _ = hi := by rw [← Finset.sum_mul, h1, one_mul]
  · have hz : zs k = 1 := by
      rw [← h1, Finset.sum_eq_single k (fun i _ hi => hk i hi) (by simp)]
    rw [Finset.sum_eq_single k (fun i _ hi => by rw [hk i hi, zero_mul]) (by simp), hz, one_mul]
  · simp only [← hp]
    clear hp
    induction phases with
    | nil => simp
    | cons p ps ih =>
      simp only [List.map_cons, List.sum_cons]
      rw [ih, Finset.mul_sum, ← Finset.sum_add_distrib]
      refine Finset.sum_congr rfl fun i _ => ?_
      ring

example : (∀ i, 0 ≤ ![1/4, (3/4 : ℝ)] i) ∧ ∑ i, ![1/4, (3/4 : ℝ)] i = 1 ∧
    pseudo ![100, 300] ![1/2, 1/2] (some ![1/4, (3/4 : ℝ)]) = 250 ∧ pseudo ![100, 300] ![1/2, (1/2 : ℝ)] none = 200 := by
  refine ⟨fun i => by fin_cases i <;> norm_num, ?_, ?_, ?_⟩
  · norm_num [Fin.sum_univ_two]
  · norm_num [pseudo, mixSum, Fin.sum_univ_two]
  · norm_num [pseudo, mixSum, Fin.sum_univ_two]

/-! ## C136: gas volumes, heating values, gravities -/

theorem mixing_some (props : Fin N → Option ℝ) (fracs : Fin N → ℝ) (x : ℝ) :
    mixingSimple props fracs = some x ↔ ∃ f : Fin N → ℝ, (∀ i, props i = some (f i)) ∧ x = ∑ i, fracs i * f i := by
  rw [mixingSimple]
  constructor
  · intro h
    split at h
    · rename_i hs
      refine ⟨fun i => (props i).getD 0, fun i => ?_, (Option.some.inj h).symm⟩
      obtain ⟨v, hv⟩ := Option.isSome_iff_exists.mp (hs i)
      simp only [hv, Option.getD_some]
    · cases h
  · rintro ⟨f, hf, rfl⟩
    simp [hf]

/-- **C136.** The gas at reference conditions: molar density times molar volume is one, the equation of state of the
ideal gas holds, and the mass density of a phase is its molecular weight (in kg) times the molar density. -/
theorem C136_gas_reference {R T P : ℝ} (hR : 0 < R) (hT : 0 < T) (hP : 0 < P) (MWs bulk : Fin N → ℝ)
    (phase : Option (Fin N → ℝ)) :
    P * V_gas R T P = R * T ∧ rho_gas R T P * V_gas R T P = 1 ∧
    rho_mass_gas R T P MWs bulk phase
      = (match phase with | some zs => ∑ i, zs i * MWs i | none => ∑ i, bulk i * MWs i) / 1000 * rho_gas R T P ∧
    SG_gas MWs bulk phase * 28.9586 = (match phase with | some zs => ∑ i, zs i * MWs i | none => ∑ i, bulk i * MWs i) := by
  have hV : V_gas R T P ≠ 0 := by rw [V_gas]; positivity
  refine ⟨by rw [V_gas]; field_simp, by rw [rho_gas, one_div_mul_cancel hV], ?_, ?_⟩
  · cases phase <;> simp only [rho_mass_gas, Vm_to_rho, rho_gas, mixSum, Option.getD] <;> ring
  · cases phase <;> simp only [SG_gas, mixSum, Option.getD] <;> norm_num

example : (0 : ℝ) < 8.314 ∧ (0 : ℝ) < 288.15 ∧ (0 : ℝ) < 101325 := by norm_num

/-- **C136.** Heating values: the molar and the mass heating value of a phase agree up to its molecular weight when
the mass constants are those the package computes; the volumetric ones are the molar one times the molar density of
the reference gas, so that values at two reference conditions are in the inverse ratio of the gas volumes; all are
missing exactly if the heating value of a component is missing. -/
theorem C136_heating {R T P T' P' : ℝ} (hR : 0 < R) (hT : 0 < T) (hP : 0 < P) (hT' : 0 < T') (hP' : 0 < P')
    (Hcs : Fin N → Option ℝ) (MWs bulk : Fin N → ℝ) (phase : Option (Fin N → ℝ)) (hM : ∀ i, MWs i ≠ 0)
    (hMW : ∑ i, (phase.getD bulk) i * MWs i ≠ 0) :
    (∀ h, Hc Hcs bulk phase = some h ↔
      ∃ f : Fin N → ℝ, (∀ i, Hcs i = some (f i)) ∧ h = ∑ i, (phase.getD bulk) i * f i) ∧
    (∀ h, Hc Hcs bulk phase = some h → ∃ hm v v', HcMass (HcsMass Hcs MWs) MWs bulk phase = some hm ∧
      hm * ((∑ i, (phase.getD bulk) i * MWs i) / 1000) = h ∧
      HcVolume R T P Hcs bulk phase = .ok v ∧ v = h * rho_gas R T P ∧
      HcVolume R T' P' Hcs bulk phase = .ok v' ∧ v * V_gas R T P = v' * V_gas R T' P') ∧
    (Hc Hcs bulk phase = none ↔ ∃ i, Hcs i = none) ∧
    ((∃ i, Hcs i = none) → HcMass (HcsMass Hcs MWs) MWs bulk phase = none ∧
      HcVolume R T P Hcs bulk phase = .error .typeError) := by
  have hV : V_gas R T P ≠ 0 := by rw [V_gas]; positivity
  have hV' : V_gas R T' P' ≠ 0 := by rw [V_gas]; positivity
  have hnone : Hc Hcs bulk phase = none ↔ ∃ i, Hcs i = none := by
    rw [Hc, mixingSimple]
    split
    · rename_i hs
      constructor
      · intro h; cases h
      · rintro ⟨i, hi⟩
        have := hs i
        rw [hi] at this
        cases this
    · rename_i hs
      push Not at hs
      obtain ⟨i, hi⟩ := hs
      exact ⟨fun _ => ⟨i, by simpa using hi⟩, fun _ => rfl⟩
  refine ⟨fun h => mixing_some _ _ _, fun h hh => ?_, hnone, fun hn => ⟨?_, ?_⟩⟩
  · obtain ⟨f, hf, rfl⟩ := (mixing_some _ _ _).mp hh
    refine ⟨∑ i, toWs MWs (phase.getD bulk) i * (f i * 1000 / MWs i), _, _,
      (mixing_some _ _ _).mpr ⟨fun i => f i * 1000 / MWs i, fun i => by simp [HcsMass, hf], rfl⟩, ?_,
      by rw [HcVolume, hh], by rw [rho_gas]; ring, by rw [HcVolume, hh], ?_⟩
    · rw [Finset.sum_mul]
      refine Finset.sum_congr rfl fun i _ => ?_
      have := hM i
      rw [toWs]
      field_simp
    · field_simp
  · obtain ⟨i, hi⟩ := hn
    rw [HcMass, mixingSimple, if_neg]
    intro h
    have := h i
    simp [HcsMass, hi] at this
  · rw [HcVolume, hnone.mpr hn]

example : Hc ![some (-800000), (some (-1500000) : Option ℝ)] ![1/2, 1/2] none = some (-1150000) ∧
    ∑ i, ![1/2, (1/2 : ℝ)] i * ![16, (30 : ℝ)] i ≠ 0 := by
  constructor
  · rw [Hc, mixing_some]
    refine ⟨![-800000, -1500000], fun i => by fin_cases i <;> rfl, ?_⟩
    norm_num [Fin.sum_univ_two]
  · norm_num [Fin.sum_univ_two]

/-- **C136.** Wobbe indices: non-negative, their square times the gas gravity is the square of the heating value, so
they ignore its sign; mass and volumetric indices are in the same ratio to the molar index as the heating values. A
missing heating value raises. -/
theorem C136_wobbe {R T P : ℝ} (hR : 0 < R) (hT : 0 < T) (hP : 0 < P) (Hcs : Fin N → Option ℝ)
    (MWs bulk : Fin N → ℝ) (phase : Option (Fin N → ℝ)) (hM : ∀ i, MWs i ≠ 0)
    (hMW : 0 < ∑ i, (phase.getD bulk) i * MWs i) :
    (∀ h, Hc Hcs bulk phase = some h → ∃ w wm wv, wobbeMolar Hcs MWs bulk phase = .ok w ∧ 0 ≤ w ∧
      w ^ 2 * ((∑ i, (phase.getD bulk) i * MWs i) / 28.9586) = h ^ 2 ∧
      wobbeMass (HcsMass Hcs MWs) MWs bulk phase = .ok wm ∧
      wm * ((∑ i, (phase.getD bulk) i * MWs i) / 1000) = w ∧
      wobbeVolume R T P Hcs MWs bulk phase = .ok wv ∧ wv * V_gas R T P = w) ∧
    ((∃ i, Hcs i = none) → wobbeMolar Hcs MWs bulk phase = .error .typeError ∧
      wobbeMass (HcsMass Hcs MWs) MWs bulk phase = .error .typeError ∧
      wobbeVolume R T P Hcs MWs bulk phase = .error .typeError) := by
  obtain ⟨-, h2, h3, h4⟩ := C136_heating hR hT hP hT hP Hcs MWs bulk phase hM hMW.ne'
  have hV : 0 < V_gas R T P := by rw [V_gas]; positivity
  have hS : 0 < SG_gas MWs bulk phase := by rw [SG_gas, mixSum]; positivity
  refine ⟨fun h hh => ?_, fun hn => ?_⟩
  · obtain ⟨hm, v, v', e1, e2, e3, e4, -, -⟩ := h2 h hh
    refine ⟨_, _, _, by rw [wobbeMolar, hh]; rfl, by positivity, ?_, by rw [wobbeMass, e1]; rfl, ?_,
      by rw [wobbeVolume, e3]; rfl, ?_⟩
    · rw [mul_pow, sq_abs, ← Real.rpow_natCast (SG_gas MWs bulk phase ^ (-(1 / 2) : ℝ)) 2, ← Real.rpow_mul hS.le]
      norm_num
      rw [Real.rpow_neg_one, SG_gas, mixSum]
      norm_num
      field_simp
    · rw [← e2, abs_mul, abs_of_pos (show 0 < (∑ i, (phase.getD bulk) i * MWs i) / 1000 by positivity)]
      ring
    · rw [e4, rho_gas, abs_mul, abs_of_pos (show 0 < 1 / V_gas R T P by positivity)]
      field_simp
  · obtain ⟨a, b⟩ := h4 hn
    refine ⟨by rw [wobbeMolar, h3.mpr hn]; rfl, by rw [wobbeMass, a]; rfl, by rw [wobbeVolume, b]; rfl⟩

/-- **C136.** The specific gravity never falls below that of the volume-additive mixture: the average of the liquid
densities by mass is at least the density `MW/(1000*V)` with the volumes of the components added, and equals it for a
pure phase. -/
theorem C136_SG (MWs Vls bulk zs : Fin N → ℝ) (h0 : ∀ i, 0 ≤ zs i) (h1 : ∑ i, zs i = 1) (hM : ∀ i, 0 < MWs i)
    (hV : ∀ i, 0 < Vls i) :
    rho_mass_liquid_ref Vls MWs bulk (some zs) / 999.0170824078306 ≤ SG MWs (rhol60 MWs Vls) bulk (some zs) ∧
    (∀ k, (∀ i, i ≠ k → zs i = 0) →
      SG MWs (rhol60 MWs Vls) bulk (some zs) = rho_mass_liquid_ref Vls MWs bulk (some zs) / 999.0170824078306) := by
  have pM : 0 < ∑ i, zs i * MWs i := mixSum_pos h0 h1 hM
  have pV : 0 < ∑ i, zs i * Vls i := mixSum_pos h0 h1 hV
  have e1 : rhoMass60 MWs (rhol60 MWs Vls) bulk (some zs)
      = (∑ i, zs i * MWs i ^ 2 / Vls i) / (1000 * ∑ i, zs i * MWs i) := by
    simp only [rhoMass60, toWs, rhol60, Option.getD_some]
    rw [Finset.sum_div]
    refine Finset.sum_congr rfl fun i _ => ?_
    have := hV i
    field_simp
    norm_num
    ring
  have e2 : rho_mass_liquid_ref Vls MWs bulk (some zs) = (∑ i, zs i * MWs i) / (1000 * ∑ i, zs i * Vls i) := by
    simp only [rho_mass_liquid_ref, Vm_to_rho, mixSum, Option.getD_some]
    field_simp
  refine ⟨?_, fun k hk => ?_⟩
  · rw [SG]
    refine div_le_div_of_nonneg_right ?_ (by norm_num)
    rw [e1, e2, div_le_div_iff₀ (by positivity) (by positivity)]
    have cs := Finset.sum_sq_le_sum_mul_sum_of_sq_eq_mul Finset.univ
      (r := fun i => zs i * MWs i) (f := fun i => zs i * MWs i ^ 2 / Vls i) (g := fun i => zs i * Vls i)
      (fun i _ => by have := h0 i; have := hV i; positivity) (fun i _ => by have := h0 i; have := hV i; positivity)
      (fun i _ => by have := hV i; field_simp)
    nlinarith
  · rw [SG, e1, e2]
    have hz : zs k = 1 := by
      rw [← h1, Finset.sum_eq_single k (fun i _ hi => hk i hi) (by simp)]
    have hs : ∀ c : Fin N → ℝ, ∑ i, zs i * c i = c k := fun c => by
      rw [Finset.sum_eq_single k (fun i _ hi => by rw [hk i hi, zero_mul]) (by simp), hz, one_mul]
    have hq : ∑ i, zs i * MWs i ^ 2 / Vls i = MWs k ^ 2 / Vls k := by
      rw [← hs fun i => MWs i ^ 2 / Vls i]
      refine Finset.sum_congr rfl fun i _ => ?_
      ring
    rw [hs, hs, hq]
    have := hV k
    have := hM k
    field_simp

example : (∀ i, 0 ≤ ![1/4, (3/4 : ℝ)] i) ∧ ∑ i, ![1/4, (3/4 : ℝ)] i = 1 ∧ (∀ i, 0 < ![18, (100 : ℝ)] i) ∧
    (∀ i, 0 < ![18e-6, (150e-6 : ℝ)] i) := by
  refine ⟨fun i => by fin_cases i <;> norm_num, by norm_num [Fin.sum_univ_two], fun i => by fin_cases i <;> norm_num,
    fun i => by fin_cases i <;> norm_num⟩

/-- **C136 (violation).** The specific gravity of a mixture is not the density the same state reports for its
reference volume over that of water: the density is averaged by mass and not by volume. -/
theorem C136_SG_fails : ∃ (MWs Vls zs : Fin 2 → ℝ), (∀ i, 0 < zs i) ∧ ∑ i, zs i = 1 ∧ (∀ i, 0 < MWs i) ∧
    (∀ i, 0 < Vls i) ∧
    rho_mass_liquid_ref Vls MWs zs none / 999.0170824078306 < SG MWs (rhol60 MWs Vls) zs none := by
  refine ⟨![1, 1], ![1, 2], ![1/2, 1/2], fun i => by fin_cases i <;> norm_num, by norm_num [Fin.sum_univ_two],
    fun i => by fin_cases i <;> norm_num, fun i => by fin_cases i <;> norm_num, ?_⟩
  norm_num [rho_mass_liquid_ref, Vm_to_rho, mixSum, SG, rhoMass60, toWs, rhol60, Fin.sum_univ_two]

/-- **C136.** The API gravity is a strictly decreasing function of the specific gravity, is 10 for the reference
water, and can be inverted. -/
theorem C136_API : (∀ a b : ℝ, 0 < a → a < b → API b < API a) ∧ API 1 = 10 ∧
    (∀ a : ℝ, 0 < a → 141.5 / (API a + 131.5) = a) := by
  refine ⟨fun a b ha hab => ?_, by norm_num [API], fun a ha => ?_⟩
  · rw [API, API]
    have : (141.5 : ℝ) / b < 141.5 / a := div_lt_div_of_pos_left (by norm_num) ha hab
    linarith
  · rw [API, sub_add_cancel]
    field_simp

example : (0 : ℝ) < 0.8 ∧ (0.8 : ℝ) < 0.9 := by norm_num

/-! ## C136: K-values -/

/-- **C136.** The reference phase of `Ks` is the one given, else the one stored by the flash, else the first liquid,
else the first solid, else the gas; there is one whenever the state has a phase. -/
theorem C136_reference {P : Type} (given stored : Option P) (liquids solids : List P) (gas : Option P) :
    (∀ p, given = some p → refPhase given stored liquids solids gas = some p) ∧
    (∀ p, given = none → stored = some p → refPhase given stored liquids solids gas = some p) ∧
    (given = none → stored = none → liquids ≠ [] → refPhase given stored liquids solids gas = liquids.head?) ∧
    (given = none → stored = none → liquids = [] → solids ≠ [] →
      refPhase given stored liquids solids gas = solids.head?) ∧
    (given = none → stored = none → liquids = [] → solids = [] → refPhase given stored liquids solids gas = gas) ∧
    (gas ≠ none ∨ liquids ≠ [] ∨ solids ≠ [] → (refPhase given stored liquids solids gas).isSome) := by
  cases given <;> cases stored <;> cases liquids <;> cases solids <;> cases gas <;> simp [refPhase]

example : refPhase (none : Option ℕ) none [] [3, 4] (some 5) = some 3 := rfl

/-- **C136.** K-values: they exist exactly if no component is absent from the reference phase; times the fraction in
the reference phase they give the fraction in the phase; against itself they are one; exchanging the phases inverts
them; they compose over a third phase; and if the component has equal fugacities `z*phi*P` in both phases, the
K-value is the ratio of the fugacity coefficients. -/
theorem C136_Ks (zs ref : Fin N → ℝ) :
    (Ks zs ref = .error .zeroDivision ↔ ∃ i, ref i = 0) ∧
    (∀ K, Ks zs ref = .ok K → (∀ i, K i * ref i = zs i) ∧
      (∀ K', Ks ref zs = .ok K' → ∀ i, K i * K' i = 1) ∧
      (∀ mid K1 K2, Ks zs mid = .ok K1 → Ks mid ref = .ok K2 → ∀ i, K i = K1 i * K2 i) ∧
      (∀ (P : ℝ) (phi phiRef : Fin N → ℝ), P ≠ 0 → (∀ i, phi i ≠ 0) →
        (∀ i, zs i * phi i * P = ref i * phiRef i * P) → ∀ i, K i = phiRef i / phi i)) ∧
    ((∀ i, ref i ≠ 0) → Ks ref ref = .ok fun _ => 1) := by
  have ok : ∀ a b K : Fin N → ℝ, Ks a b = .ok K → (∀ i, b i ≠ 0) ∧ K = fun i => a i / b i := by
    intro a b K h
    rw [Ks] at h
    split at h
    · cases h
    · rename_i hn
      push Not at hn
      cases h
      exact ⟨hn, rfl⟩
  refine ⟨?_, fun K hK => ?_, fun hr => ?_⟩
  · rw [Ks]
    split
    · rename_i h
      exact ⟨fun _ => h, fun _ => rfl⟩
    · rename_i h
      exact ⟨fun e => (by cases e), fun e => absurd e h⟩
  · obtain ⟨hr, rfl⟩ := ok _ _ _ hK
    refine ⟨fun i => div_mul_cancel₀ _ (hr i), fun K' hK' i => ?_, fun mid K1 K2 h1 h2 i => ?_,
      fun P phi phiRef hP hphi he i => ?_⟩
    · obtain ⟨hz, rfl⟩ := ok _ _ _ hK'
      have := hr i
      have := hz i
      field_simp
    · obtain ⟨hm, rfl⟩ := ok _ _ _ h1
      obtain ⟨-, rfl⟩ := ok _ _ _ h2
      have := hm i
      have := hr i
      field_simp
    · have e := mul_right_cancel₀ hP (he i)
      dsimp only
      rw [div_eq_div_iff (hr i) (hphi i)]
      linarith
  · rw [Ks, if_neg (by push Not; exact hr)]
    congr 1
    funext i
    exact div_self (hr i)

example : Ks ![1/4, (3/4 : ℝ)] ![1/2, 1/2] = .ok fun i => ![1/4, (3/4 : ℝ)] i / ![1/2, 1/2] i := by
  rw [Ks, if_neg]
  rintro ⟨i, hi⟩
  fin_cases i <;> norm_num at hi

end Components

/-! ## C136: `value` -/

/-- **C136.** `value` of a state: without a phase it is the datum, or the result of the method of that name; with a
phase it is the entry at the position of the phase of a list with one entry per phase. Missing: for other attributes
see `C136_value_fails`. -/
theorem C136_value_partial (xs : List ℝ) (i : ℕ) (hi : i < xs.length) (v : Val) :
    stateValue (some (.data v)) none = .ok (.inl v) ∧
    stateValue (some (.method (some v))) none = .ok (.inl v) ∧
    stateValue (some (.data (.list xs))) (some (some i)) = .ok (.inr xs[i]) ∧
    stateValue (some (.method (some (.list xs)))) (some (some i)) = .ok (.inr xs[i]) ∧
    (∀ a, stateValue a (some none) = .error .valueError) ∧ stateValue none none = .error .attributeError := by
  refine ⟨rfl, rfl, ?_, ?_, fun a => rfl, rfl⟩ <;>
    simp [stateValue, called, index, List.getElem?_eq_getElem hi, Except.map]

example : (1 : ℕ) < [(3 : ℝ), 4].length := by norm_num

/-- **C136 (violation).** `value(name, phase)` is not the property of the phase: of a list over components (such as
`zs`) it is the value of the whole state for one component, the same for every phase composition; of a number
(such as `H`) it raises; and the exception of a method which cannot be called is hidden, the bound method being
returned as value. `value('beta_mass')` of a phase raises whenever the state has no attribute of that name, although
the phase has. -/
theorem C136_value_fails :
    (∀ (zs : List ℝ) (phaseZs : List (List ℝ)) (i : ℕ) (hi : i < zs.length), i < phaseZs.length →
      stateValue (some (.data (.list zs))) (some (some i)) = .ok (.inr zs[i])) ∧
    (∀ (x : ℝ) (i : ℕ), stateValue (some (.method (some (.num x)))) (some (some i)) = .error .typeError) ∧
    stateValue (some (.method none)) none = .ok (.inl .method) ∧
    (∀ (sa pa : String → Option Attr) (x : ℝ) (i : ℕ), sa "beta_mass" = none →
      pa "beta_mass" = some (.data (.num x)) → phaseValue sa pa (some i) "beta_mass" = .error .attributeError) := by
  refine ⟨fun zs _ i hi _ => ?_, fun x i => rfl, rfl, fun sa pa x i hs _ => ?_⟩
  · simp [stateValue, called, index, List.getElem?_eq_getElem hi, Except.map]
  · simp [phaseValue, hs, stateValue]

/-- **C136.** `value` of a phase, for every other name, is the datum or the result of the method of the phase. -/
theorem C136_phase_value (sa pa : String → Option Attr) (p : Option ℕ) (name : String) (hn : name ≠ "beta_mass")
    (v : Val) :
    (pa name = some (.data v) → phaseValue sa pa p name = .ok (.inl v)) ∧
    (pa name = some (.method (some v)) → phaseValue sa pa p name = .ok (.inl v)) ∧
    (pa name = none → phaseValue sa pa p name = .error .attributeError) := by
  refine ⟨fun h => ?_, fun h => ?_, fun h => ?_⟩ <;> simp [phaseValue, hn, h, called]

example : "H" ≠ "beta_mass" := by decide

/-! ## C136: the getters set on the classes -/

/-- **C136.** Every name in the tables, with the names which do not work. `phase.name()` reaches a method of the state
taking the phase for all names of `phases_properties_to_EquilibriumState` but one, and `bulk.name()` for all names of
`Bulk_properties_to_EquilibriumState`; `state.name()` works for the names of `bulk_props` but seven; `state.name` is
the value of the bulk for all names of `bulk_properties`. -/
theorem C136_tables_partial :
    phaseNames.filter (fun s => callStateWithPhase s ≠ .ok) = ["molar_water_content"] ∧
    bulkNames.filter (fun s => callStateWithPhase s ≠ .ok) = [] ∧
    bulkProps.filter (fun s => callState s ≠ .ok) = ["B_from_Z", "Qls", "ms", "ns", "Q", "m", "n"] ∧
    bulkProperties.filter (fun s => readState s ≠ .ok) = [] ∧
    (∀ s ∈ bulkProps, s ∉ bulkProperties → stateBinding s = some .bulkCall) := by
  refine ⟨by decide +kernel, by decide +kernel, by decide +kernel, by decide +kernel, by decide +kernel⟩

/-- **C136 (violation).** Getters which cannot be used: `phase.molar_water_content()` and `state.B_from_Z()` find no
such method; `state.n`, `state.m`, `state.ns` and `state.ms` of a plain `EquilibriumState` are methods which raise
when called, though `state.Q` and `state.Qls` are values; `state.nu(phase)`, a method of the class body, is replaced
by a getter without argument. -/
theorem C136_getters_fails :
    callStateWithPhase "molar_water_content" = .attributeError ∧ callState "B_from_Z" = .attributeError ∧
    (∀ s ∈ ["n", "m", "ns", "ms"], callState s = .typeError ∧ readState s = .typeError) ∧
    (∀ s ∈ ["Q", "Qls"], readState s = .ok) ∧
    "nu" ∈ stateMethods ∧ callState "nu" = .ok ∧ callStateWithPhase "nu" = .typeError := by
  refine ⟨by decide +kernel, by decide +kernel, by decide +kernel, by decide +kernel, by decide +kernel,
    by decide +kernel, by decide +kernel⟩

/-- **C136.** Flow of a phase: the share of the flow of the stream; of a plain `EquilibriumState` it is `None`, and
the element flow getters of every element present in the phase raise while those of absent elements return zero. -/
theorem C136_phase_flow {A : Type} [DecidableEq A] (own : Option ℝ) (beta : ℝ) (d : List (A × ℝ)) (k : A) (c : ℝ) :
    (∀ n, own = some n → phaseFlow own beta = some (n * beta) ∧
      elementFlow none d k (phaseFlow own beta) c = .ok (dictGet d k * (n * beta) * c)) ∧
    (own = none → phaseFlow own beta = none ∧
      (k ∈ d.map Prod.fst → elementFlow none d k (phaseFlow own beta) c = .error .typeError) ∧
      (k ∉ d.map Prod.fst → elementFlow none d k (phaseFlow own beta) c = .ok 0)) := by
  refine ⟨fun n hn => ?_, fun hn => ?_⟩
  · subst hn
    exact ⟨rfl, by rw [(C136_element d none (Or.inl rfl) k _ c).2]; rfl⟩
  · subst hn
    refine ⟨rfl, fun hk => ?_, fun hk => ?_⟩ <;> rw [(C136_element d none (Or.inl rfl) k _ c).2] <;>
      simp [phaseFlow, hk]

example : phaseFlow (some 10) (1 / 4) = some (10 * (1 / 4)) ∧
    elementFlow none [("H", (2 : ℝ))] "H" (phaseFlow none 1) 1 = .error .typeError := by
  simp [phaseFlow, elementFlow, lookupTimes, lookup]

end Verif.Getters
