import Mathlib.Tactic
import Mathlib.Analysis.Calculus.Deriv.Inv
import Mathlib.Analysis.Real.Sqrt
import Mathlib.Algebra.BigOperators.Field

/-!
# Mass basis, concentrations and flows of phases (`thermo/phases/phase.py`)

* `MW`, `MW_inv` (4494-4536), `speed_of_sound_mass` (4552), `rho_mass` (4569), `drho_mass_dT` (4605-4608), `drho_mass_dP` (4644-4647), the fifteen properties per mass
  (4650-4924, 3858-3876), `ws` (5140-5167);
* `beta`, `beta_mass`, `beta_volume` (5201-5286), `energy` (5318-5326), `n` (5358-5379), `m` (5384-5404), `Q` (5422-5429), `ns`, `ms` (5434-5488), `Qgs`, `Qg`, `Qls`, `Ql` (5493-5606);
* `concentrations` and the seven like it (5698-5871), `partial_pressures` (5873-5898);
* `S_phi_consistency`, `H_phi_consistency`, `G_dep_phi_consistency`, `H_dep_phi_consistency`, `S_dep_phi_consistency`, `V_phi_consistency` (616-793), `H_from_phi`, `S_from_phi` (795-844);
* `gammas` (2518-2538), `gammas_infinite_dilution` (2558-2577), `_Cpls_pure`, `_Cpl_integrals_pure`, `_Cpl_integrals_over_T_pure` (3694-3759), `as_EquilibriumState` (5651-5690);
* for bulk phases `Bulk.beta`, `betas_mass`, `beta_mass` (bulk.py 651-689), `V`, `H` (bulk.py 996-1001, 1068-1073) and how `EquilibriumState.__init__` (equilibrium.py 284-332) makes them.

Simplified: real numbers, lists as functions on `Fin N`; a stored value is what would be computed; the molar properties of a phase are parameters; `None` and exceptions are values where
a theorem speaks of them.
-/

namespace Verif.MassFlows

variable {N : ℕ}

/-! ### The code: mass basis -/

/-- `MW` (4509-4515). -/
def MW (zs MWs : Fin N → ℝ) : ℝ := ∑ i, zs i * MWs i

/-- `MW_inv` (4535). -/
noncomputable def MWinv (zs MWs : Fin N → ℝ) : ℝ := 1 / MW zs MWs

/-- `ws` (5162-5165). -/
noncomputable def ws (zs MWs : Fin N → ℝ) (i : Fin N) : ℝ :=
  let Mavg := 1 / ∑ j, zs j * MWs j
  zs i * MWs i * Mavg

/-- `H_mass`, `S_mass`, `U_mass`, `A_mass`, `G_mass`, their `_reactive` forms, `Cp_mass`, `Cp_dep_mass`, `Cv_mass`, `Cv_dep_mass`, `Cp_ideal_gas_mass` of the molar property `X`. -/
noncomputable def perMass (zs MWs : Fin N → ℝ) (X : ℝ) : ℝ := X * 1000 * MWinv zs MWs

/-- `rho_mass` (4569). -/
noncomputable def rhoMass (zs MWs : Fin N → ℝ) (V : ℝ) : ℝ := MW zs MWs / (1000 * V)

/-- `drho_mass_dT` (4608), `drho_mass_dP` (4647) with the derivative of the volume. -/
noncomputable def drhoMass (zs MWs : Fin N → ℝ) (V dV : ℝ) : ℝ := -MW zs MWs * dV / (1000 * V * V)

/-- The molar `speed_of_sound` (3255, documentation of `chemicals`). -/
noncomputable def sound (V dPdV Cp Cv : ℝ) : ℝ := √(-V * V * dPdV * Cp / Cv)

/-- `speed_of_sound_mass` (4552). -/
noncomputable def soundMass (zs MWs : Fin N → ℝ) (c : ℝ) : ℝ := 31.622776601683793 / √(MW zs MWs) * c

/-- `concentrations` (5715-5720) and those with the molar density at a reference state. -/
def conc (rho : ℝ) (zs : Fin N → ℝ) (i : Fin N) : ℝ := rho * zs i

/-- `concentrations_mass` (5802-5807) and those with the density at a reference state. -/
noncomputable def concMass (zs MWs : Fin N → ℝ) (V : ℝ) (i : Fin N) : ℝ := rhoMass zs MWs V * ws zs MWs i

/-- `partial_pressures` (5893-5897). -/
def partialPressures (P : ℝ) (zs : Fin N → ℝ) (i : Fin N) : ℝ := zs i * P

/-! ### The code: flows -/

/-- A phase of a result: its mole fraction in the result, composition, volume and enthalpy. -/
structure Ph (N : ℕ) where
  /-- phase fraction -/
  beta : ℝ
  /-- `zs` -/
  zs : Fin N → ℝ
  /-- `V()` -/
  V : ℝ
  /-- `H()` -/
  H : ℝ

/-- `betas_mass` of a result (equilibrium.py 556-565) or of a bulk phase (bulk.py 678-685). -/
noncomputable def betasMass (MWs : Fin N → ℝ) (ps : List (Ph N)) : List ℝ :=
  let tot := (ps.map fun p => MW p.zs MWs * p.beta).sum
  ps.map fun p => p.beta * MW p.zs MWs * (1 / tot)

/-- `n` (5376). -/
def flow (n : ℝ) (p : Ph N) : ℝ := n * p.beta

/-- `m` (5401): `bm` is `beta_mass`. -/
def massFlow (m bm : ℝ) : ℝ := m * bm

/-- `Q` (5426). -/
def Q (n : ℝ) (p : Ph N) : ℝ := flow n p * p.V

/-- `energy` (5323). -/
def energy (n : ℝ) (p : Ph N) : ℝ := flow n p * p.H

/-- `ns` (5451-5455). -/
def ns (n : ℝ) (p : Ph N) (i : Fin N) : ℝ := n * p.beta * p.zs i

/-- `ms` (5481-5485). -/
noncomputable def ms (MWs : Fin N → ℝ) (m bm : ℝ) (p : Ph N) (i : Fin N) : ℝ := m * bm * ws p.zs MWs i

/-- `Qgs` (5513-5519). -/
noncomputable def Qgs (R Tref Pref n : ℝ) (p : Ph N) (i : Fin N) : ℝ := p.zs i * (R * Tref / Pref * flow n p)

/-- `Qls` (5572-5577). -/
def Qls (Vmls : Fin N → ℝ) (n : ℝ) (p : Ph N) (i : Fin N) : ℝ := ns n p i * Vmls i

/-- The mole flow, when there may be no result or no flow in it (5371-5379). -/
def flow? (n beta : Option ℝ) : Option ℝ :=
  match n, beta with
  | some n, some b => some (n * b)
  | _, _ => none

/-- A property that may be a number, `None` or an exception. -/
inductive Val (α : Type)
  | val (a : α)
  | pyNone
  | raised
  deriving DecidableEq

/-- `Qgs` (5508-5520) without a result (`settings` raises) or without a flow (`None` times a number raises); no exception is caught. -/
noncomputable def Qgs? (hasResult : Bool) (V : ℝ) (n : Option ℝ) (zs : Fin N → ℝ) : Val (Fin N → ℝ) :=
  if hasResult then
    match n with
    | some n => .val fun i => zs i * (V * n)
    | none => .raised
  else .raised

/-- `Qg` (5540-5548): exceptions become `None`. -/
noncomputable def Qg? (hasResult : Bool) (V : ℝ) (n : Option ℝ) (zs : Fin N → ℝ) : Val ℝ :=
  match Qgs? hasResult V n zs with
  | .val q => .val (∑ i, q i)
  | _ => .pyNone

/-! ### The code: bulk phases -/

/-- `Bulk.beta` (bulk.py 662). -/
def bulkBeta (ps : List (Ph N)) : ℝ := (ps.map (·.beta)).sum

/-- `Bulk.beta_mass` (bulk.py 689). -/
noncomputable def bulkBetaMass (MWs : Fin N → ℝ) (ps : List (Ph N)) : ℝ := (betasMass MWs ps).sum

/-- `Bulk.V` (bulk.py 996-1001). -/
def bulkV (ps : List (Ph N)) : ℝ := (ps.map fun p => p.beta * p.V).sum

/-- `Bulk.H` (bulk.py 1068-1073). -/
def bulkH (ps : List (Ph N)) : ℝ := (ps.map fun p => p.beta * p.H).sum

/-- The composition of a bulk phase (equilibrium.py 298-299): normalised. -/
noncomputable def bulkZs (ps : List (Ph N)) (i : Fin N) : ℝ :=
  (ps.map fun p => p.beta * p.zs i).sum / ∑ j, (ps.map fun p => p.beta * p.zs j).sum

/-- The bulk phase of the liquids as a phase (equilibrium.py 300): the phase fractions are those of the result. -/
noncomputable def bulkPhase (ps : List (Ph N)) : Ph N := ⟨bulkBeta ps, bulkZs ps, bulkV ps, bulkH ps⟩

/-! ### The code: consistency checks -/

/-- `S_from_phi` (835-844), also inside `S_phi_consistency` (636-644). -/
def SfromPhi (R T S0 : ℝ) (zs lnphis dlnphis : Fin N → ℝ) : ℝ := S0 - ∑ i, zs i * (R * lnphis i + R * T * dlnphis i)

/-- `H_from_phi` (810-818). -/
def HfromPhi (R T H0 : ℝ) (zs dlnphis : Fin N → ℝ) : ℝ := H0 - ∑ i, R * T * T * zs i * dlnphis i

/-- `abs(1.0 - a/b)`: `none` is `ZeroDivisionError`. -/
noncomputable def relative (a b : ℝ) : Option ℝ := open Classical in if b = 0 then none else some |1 - a / b|

/-- `G_dep_phi_consistency` (689-697). -/
noncomputable def Gcheck (R T Gdep : ℝ) (zs lnphis : Fin N → ℝ) : Option ℝ := relative ((∑ i, zs i * lnphis i) * R * T) Gdep

/-- `H_dep_phi_consistency` (719-728). -/
noncomputable def Hcheck (R T Hdep : ℝ) (zs dlnphis : Fin N → ℝ) : Option ℝ := relative Hdep (-(∑ i, zs i * dlnphis i) * R * T * T)

/-- `V_phi_consistency` (783-792). -/
noncomputable def Vcheck (R T P V : ℝ) (zs dlnphis : Fin N → ℝ) : Option ℝ :=
  let Z := (∑ i, zs i * dlnphis i) * P + 1
  relative (Z * R * T / P) V

/-! ### The code: activity coefficients -/

/-- `gammas` (2528-2535) for fugacity coefficients as a function of composition. -/
noncomputable def gammas (phis : (Fin N → ℝ) → Fin N → ℝ) (zs : Fin N → ℝ) (i : Fin N) : ℝ :=
  phis zs i / phis (Pi.single i 1) i

/-- The composition at which `gammas_infinite_dilution` (2570-2572) evaluates component `i`: `none` is `ZeroDivisionError`. -/
noncomputable def diluted (zs : Fin N → ℝ) (i : Fin N) : Option (Fin N → ℝ) :=
  open Classical in
  let z := Function.update zs i 0
  if ∑ j, z j = 0 then none else some fun j => z j / ∑ k, z k

/-- `gammas_infinite_dilution` (2569-2576). -/
noncomputable def gammasInf (phis : (Fin N → ℝ) → Fin N → ℝ) (zs : Fin N → ℝ) (i : Fin N) : Option ℝ :=
  (diluted zs i).map fun z => gammas phis z i

/-! ### The code: stored lists -/

/-- What an attribute of an object can be. -/
inductive Attr
  | list (l : List ℝ)
  | method (name : String)

/-- Attribute access: the instance first, then the methods of the class. -/
noncomputable def attr (methods : List String) (inst : String → Option (List ℝ)) (name : String) : Option Attr :=
  match inst name with
  | some l => some (.list l)
  | none => if name ∈ methods then some (.method name) else none

/-- The methods concerned. -/
def methods : List String := ["_Cpls_pure", "_Cpl_integrals_pure", "_Cpl_integrals_over_T_pure"]

/-- `_Cpls_pure`, `_Cpl_integrals_pure`, `_Cpl_integrals_over_T_pure` (3694-3759): `stored` is the name under which the list is kept. What is returned and the new instance. -/
noncomputable def getList (stored : String) (compute : List ℝ) (inst : String → Option (List ℝ)) : Attr × (String → Option (List ℝ)) :=
  match attr methods inst stored with
  | some a => (a, inst)
  | none => (.list compute, Function.update inst stored (some compute))

/-! ### The code: `as_EquilibriumState` -/

/-- What `as_EquilibriumState` looks at. -/
structure View where
  /-- the phase belongs to a result -/
  hasResult : Bool
  /-- a flasher is given -/
  flasher : Bool
  /-- `assigned_phase`; absent for solids -/
  assigned : Option String
  /-- `is_gas`, `is_liquid`, `is_solid`: the first that holds -/
  kind : Option String
  /-- `bulk_phase_type` -/
  bulk : Bool
  /-- `phase_bulk` -/
  phaseBulk : Option String
  /-- `phase_fractions` -/
  fractions : List ℝ

/-- A state: number of gases, liquids and solids, and phase fractions. -/
structure St where
  /-- gas -/
  gas : ℕ
  /-- liquids -/
  liquids : ℕ
  /-- solids -/
  solids : ℕ
  /-- `betas` -/
  betas : List ℝ

/-- `as_EquilibriumState` (5651-5690): `none` is an exception. Of a bulk phase `assigned_phase` is `phase_bulk` (bulk.py 648). -/
noncomputable def asState (v : View) : Option St :=
  if !v.hasResult && !v.flasher then none
  else
    let state := if v.hasResult then (if v.bulk then some (v.phaseBulk.getD "") else v.assigned) else v.kind
    match state with
    | none => if v.hasResult || !v.bulk then none else
        (match v.phaseBulk with
        | some "l" => some ⟨0, v.fractions.length, 0, v.fractions⟩
        | some "s" => some ⟨0, 0, v.fractions.length, v.fractions⟩
        | _ => none)
    | some s =>
      if v.bulk then
        match v.phaseBulk with
        | some "l" => some ⟨0, v.fractions.length, 0, v.fractions⟩
        | some "s" => some ⟨0, 0, v.fractions.length, v.fractions⟩
        | _ => none
      else
        match s with
        | "l" => some ⟨0, 1, 0, [1]⟩
        | "g" => some ⟨1, 0, 0, [1]⟩
        | "s" => some ⟨0, 0, 1, [1]⟩
        | _ => none

/-! ### Mass basis -/

/-- **C131.** Mass fractions: they add up to one, stand in the ratio of the masses, and give back the molecular weight by the reciprocal rule. -/
theorem C131_ws (zs MWs : Fin N → ℝ) (h : MW zs MWs ≠ 0) (hM : ∀ i, MWs i ≠ 0) (hz : ∑ i, zs i = 1) :
    ∑ i, ws zs MWs i = 1 ∧ (∀ i, ws zs MWs i * MW zs MWs = zs i * MWs i) ∧ ∑ i, ws zs MWs i / MWs i = MWinv zs MWs := by
  have h' : ∑ j, zs j * MWs j ≠ 0 := h
  refine ⟨?_, ?_, ?_⟩
  · unfold ws
    rw [← Finset.sum_mul, mul_one_div_cancel h']
  · intro i
    unfold ws MW
    field_simp
  · unfold ws MWinv MW
    have : ∀ i, zs i * MWs i * (1 / ∑ j, zs j * MWs j) / MWs i = zs i * (1 / ∑ j, zs j * MWs j) := by
      intro i
      have := hM i
      field_simp
    simp only [this]
    rw [← Finset.sum_mul, hz, one_mul]

example : ∑ i, ws ![(1 / 4 : ℝ), 3 / 4] ![16, 44] i = 1 :=
  (C131_ws _ _ (by simp [MW]; norm_num) (by intro i; fin_cases i <;> simp) (by simp; norm_num)).1

/-- **C131.** Properties per mass: multiplied by the mass of a mole they are the molar property. -/
theorem C131_mass (zs MWs : Fin N → ℝ) (X : ℝ) (h : MW zs MWs ≠ 0) : perMass zs MWs X * (MW zs MWs / 1000) = X := by
  unfold perMass MWinv
  field_simp

/-- **C131.** The relations between energies hold per mass: `U = H - P/rho`, `G = H - T S`, `A = U - T S`. -/
theorem C131_mass_energies (zs MWs : Fin N → ℝ) (T P V H S : ℝ) :
    perMass zs MWs (H - P * V) = perMass zs MWs H - P / rhoMass zs MWs V ∧
    perMass zs MWs (H - T * S) = perMass zs MWs H - T * perMass zs MWs S ∧
    perMass zs MWs (H - P * V - T * S) = perMass zs MWs (H - P * V) - T * perMass zs MWs S := by
  refine ⟨?_, ?_, ?_⟩
  · unfold perMass MWinv rhoMass
    rw [div_div_eq_mul_div]
    ring
  · unfold perMass; ring
  · unfold perMass; ring

/-- **C131.** Mass density: molar density times molecular weight, and its derivatives. -/
theorem C131_density (zs MWs : Fin N → ℝ) (V : ℝ → ℝ) (x dV : ℝ) (hV : V x ≠ 0) (h : HasDerivAt V dV x) :
    rhoMass zs MWs (V x) = 1 / V x * MW zs MWs / 1000 ∧ HasDerivAt (fun t => rhoMass zs MWs (V t)) (drhoMass zs MWs (V x) dV) x := by
  constructor
  · unfold rhoMass; field_simp
  · have h1 := (h.const_mul 1000).inv (by simpa using hV)
    have h2 := h1.const_mul (MW zs MWs)
    refine (h2.congr_of_eventuallyEq ?_).congr_deriv ?_
    · exact Filter.Eventually.of_forall fun t => by simp [rhoMass, div_eq_mul_inv]
    · unfold drhoMass; field_simp

example : HasDerivAt (fun t : ℝ => rhoMass ![(1 : ℝ)] ![18] (2 * t)) (drhoMass ![(1 : ℝ)] ![18] (2 * 3) 2) 3 :=
  (C131_density _ _ (fun t => 2 * t) 3 2 (by norm_num) (by simpa using (hasDerivAt_id (3 : ℝ)).const_mul 2)).2

/-- **C131.** The square of the speed of sound per mass is `dP/drho` at constant entropy, `-V^2 dP/dV Cp/Cv 1000/MW`, to the fifteen digits of the constant in the code. -/
theorem C131_sound (zs MWs : Fin N → ℝ) (V dPdV Cp Cv : ℝ) (hM : 0 < MW zs MWs) (hs : 0 ≤ -V * V * dPdV * Cp / Cv) :
    |soundMass zs MWs (sound V dPdV Cp Cv) ^ 2 - 1000 / MW zs MWs * (-V * V * dPdV * Cp / Cv)|
      ≤ 1e-12 * ((-V * V * dPdV * Cp / Cv) / MW zs MWs) := by
  unfold soundMass sound
  rw [mul_pow, div_pow, Real.sq_sqrt hM.le, Real.sq_sqrt hs]
  generalize -V * V * dPdV * Cp / Cv = c at hs
  have e : (31.622776601683793 : ℝ) ^ 2 / MW zs MWs * c - 1000 / MW zs MWs * c = (31.622776601683793 ^ 2 - 1000) * (c / MW zs MWs) := by
    field_simp
  have hq : 0 ≤ c / MW zs MWs := div_nonneg hs hM.le
  rw [e, abs_mul, abs_of_nonneg hq]
  refine mul_le_mul_of_nonneg_right ?_ hq
  norm_num [abs_le]

example : |soundMass ![(1 : ℝ)] ![18] (sound 1 (-2) 3 2) ^ 2 - 1000 / MW ![(1 : ℝ)] ![18] * (-1 * 1 * (-2) * 3 / 2)|
    ≤ 1e-12 * ((-1 * 1 * (-2) * 3 / 2) / MW ![(1 : ℝ)] ![18]) :=
  C131_sound _ _ 1 (-2) 3 2 (by simp [MW]) (by norm_num)

/-- **C131.** Concentrations add up to the density; mass concentrations are those times molecular weights and add up to the mass density; partial pressures add up to the pressure. -/
theorem C131_concentrations (zs MWs : Fin N → ℝ) (V P : ℝ) (h : MW zs MWs ≠ 0) (hz : ∑ i, zs i = 1) :
    ∑ i, conc (1 / V) zs i = 1 / V ∧ (∀ i, concMass zs MWs V i = conc (1 / V) zs i * MWs i / 1000) ∧ ∑ i, concMass zs MWs V i = rhoMass zs MWs V ∧
    ∑ i, partialPressures P zs i = P := by
  have h' : ∑ j, zs j * MWs j ≠ 0 := h
  refine ⟨?_, ?_, ?_, ?_⟩
  · unfold conc
    rw [← Finset.mul_sum, hz, mul_one]
  · intro i
    unfold concMass rhoMass ws conc MW
    by_cases hV : V = 0
    · simp [hV]
    · field_simp
  · unfold concMass ws
    rw [← Finset.mul_sum, ← Finset.sum_mul, mul_one_div_cancel h', mul_one]
  · unfold partialPressures
    rw [← Finset.sum_mul, hz, one_mul]

example : ∑ i, concMass ![(1 / 4 : ℝ), 3 / 4] ![16, 44] 2 i = rhoMass ![(1 / 4 : ℝ), 3 / 4] ![16, 44] 2 :=
  (C131_concentrations _ _ 2 5 (by simp [MW]; norm_num) (by simp; norm_num)).2.2.1

/-! ### Flows -/

theorem list_sum_swap (ps : List (Ph N)) (f : Ph N → Fin N → ℝ) : (ps.map fun p => ∑ i, f p i).sum = ∑ i, (ps.map fun p => f p i).sum := by
  induction ps with
  | nil => simp
  | cons p ps ih => simp only [List.map_cons, List.sum_cons, ih, Finset.sum_add_distrib]

/-- **C131.** Flows of the phases of a result: component by component they add up to the flow of the result, volumes and energies likewise to those of the bulk. -/
theorem C131_flows (n : ℝ) (zs : Fin N → ℝ) (ps : List (Ph N)) (hb : ∀ i, (ps.map fun p => p.beta * p.zs i).sum = zs i) (i : Fin N) :
    (ps.map fun p => ns n p i).sum = n * zs i ∧ (ps.map (Q n)).sum = n * bulkV ps ∧ (ps.map (energy n)).sum = n * bulkH ps := by
  refine ⟨?_, ?_, ?_⟩
  · rw [← hb i, ← List.sum_map_mul_left]
    congr 1
    exact List.map_congr_left fun p _ => by unfold ns; ring
  · unfold bulkV
    rw [← List.sum_map_mul_left]
    congr 1
    exact List.map_congr_left fun p _ => by unfold Q flow; ring
  · unfold bulkH
    rw [← List.sum_map_mul_left]
    congr 1
    exact List.map_congr_left fun p _ => by unfold energy flow; ring

/-- **C131.** The mass flow of a phase of a result is its mole flow times its molecular weight, and so for every component. `m` is the mass flow of the result. -/
theorem C131_mass_flows (MWs : Fin N → ℝ) (n m : ℝ) (zs : Fin N → ℝ) (ps : List (Ph N)) (hb : ∀ i, (ps.map fun p => p.beta * p.zs i).sum = zs i)
    (hm : m = n * MW zs MWs / 1000) (hM : MW zs MWs ≠ 0) (k : ℕ) (hk : k < ps.length) (hp : MW (ps[k].zs) MWs ≠ 0) (i : Fin N) :
    massFlow m ((betasMass MWs ps).getD k 0) = flow n ps[k] * MW (ps[k].zs) MWs / 1000 ∧
    ms MWs m ((betasMass MWs ps).getD k 0) ps[k] i = ns n ps[k] i * MWs i / 1000 := by
  have htot : (ps.map fun p => MW p.zs MWs * p.beta).sum = MW zs MWs := by
    unfold MW
    have e : (ps.map fun p => (∑ i, p.zs i * MWs i) * p.beta) = ps.map fun p => ∑ i, p.beta * p.zs i * MWs i := by
      refine List.map_congr_left fun p _ => ?_
      rw [Finset.sum_mul]
      exact Finset.sum_congr rfl fun i _ => by ring
    rw [e, list_sum_swap]
    refine Finset.sum_congr rfl fun i _ => ?_
    rw [← hb i, ← List.sum_map_mul_right]
  have hg : (betasMass MWs ps).getD k 0 = ps[k].beta * MW (ps[k].zs) MWs * (1 / MW zs MWs) := by
    unfold betasMass
    rw [htot]
    simp [hk]
  rw [hg]
  constructor
  · unfold massFlow flow
    rw [hm]
    field_simp
  · unfold ms ns
    rw [hm]
    have hw : ws ps[k].zs MWs i = ps[k].zs i * MWs i * (1 / MW (ps[k].zs) MWs) := rfl
    rw [hw]
    field_simp

/-- A gas and two liquids. -/
noncomputable def three : List (Ph 2) := [⟨1 / 2, ![1 / 2, 1 / 2], 24, 7⟩, ⟨1 / 4, ![1, 0], 1, 1⟩, ⟨1 / 4, ![0, 1], 2, 2⟩]

example : massFlow (10 * MW ![(1 / 2 : ℝ), 1 / 2] ![16, 44] / 1000) ((betasMass ![16, 44] three).getD 1 0) = flow 10 three[1] * MW three[1].zs ![16, 44] / 1000 := by
  refine (C131_mass_flows ![16, 44] 10 _ ![1 / 2, 1 / 2] three ?_ rfl ?_ 1 (by simp [three]) ?_ 0).1
  · intro i; fin_cases i <;> simp [three] <;> norm_num
  · simp [MW]; norm_num
  · simp [MW, three]

/-- **C131.** Standard gas and liquid volume flows: those of the components add up to the mole flow times the molar volume at reference, and the phases add up to the result. -/
theorem C131_reference_flows (R Tref Pref n : ℝ) (Vmls zs : Fin N → ℝ) (ps : List (Ph N)) (hb : ∀ i, (ps.map fun p => p.beta * p.zs i).sum = zs i) (p : Ph N)
    (hz : ∑ i, p.zs i = 1) (i : Fin N) :
    ∑ j, Qgs R Tref Pref n p j = flow n p * (R * Tref / Pref) ∧ ∑ j, Qls Vmls n p j = flow n p * ∑ j, p.zs j * Vmls j ∧
    (ps.map fun p => Qgs R Tref Pref n p i).sum = n * zs i * (R * Tref / Pref) ∧ (ps.map fun p => Qls Vmls n p i).sum = n * zs i * Vmls i := by
  refine ⟨?_, ?_, ?_, ?_⟩
  · unfold Qgs
    rw [← Finset.sum_mul, hz]; ring
  · unfold Qls ns flow
    rw [Finset.mul_sum]
    exact Finset.sum_congr rfl fun j _ => by ring
  · rw [← hb i, ← List.sum_map_mul_left, ← List.sum_map_mul_right]
    congr 1
    exact List.map_congr_left fun p _ => by unfold Qgs flow; ring
  · rw [← hb i, ← List.sum_map_mul_left, ← List.sum_map_mul_right]
    congr 1
    exact List.map_congr_left fun p _ => by unfold Qls ns; ring

example : ∑ j, Qgs 8 288 100 10 three[0] j = flow 10 three[0] * (8 * 288 / 100) := by
  refine (C131_reference_flows 8 288 100 10 ![1, 1] ![1 / 2, 1 / 2] three ?_ _ ?_ 0).1
  · intro i; fin_cases i <;> simp [three] <;> norm_num
  · simp [three]; norm_num

/-- **C131.** The negation of "without a flow all flows are `None`": `Qgs` raises where `Qg`, `n`, `Q` are `None`. -/
theorem C131_missing_fails (V : ℝ) (zs : Fin N → ℝ) (b : Option ℝ) :
    flow? none b = none ∧ Qg? true V none zs = .pyNone ∧ Qg? false V none zs = .pyNone ∧ Qgs? true V none zs = .raised ∧ Qgs? false V none zs = .raised := by
  simp [flow?, Qg?, Qgs?]

/-! ### Bulk phases -/

/-- **C131** (partial). The bulk of a whole result, whose phase fractions add up to one, has the composition, flow, mass fraction and energy of the result. Missing: the bulk of some of the phases,
`C131_bulk_fails`. -/
theorem C131_bulk_partial (MWs zs : Fin N → ℝ) (n : ℝ) (ps : List (Ph N)) (hz : ∑ i, zs i = 1) (hb : ∀ i, (ps.map fun p => p.beta * p.zs i).sum = zs i)
    (h1 : bulkBeta ps = 1) (hM : MW zs MWs ≠ 0) :
    bulkZs ps = zs ∧ flow n (bulkPhase ps) = n ∧ bulkBetaMass MWs ps = 1 ∧ energy n (bulkPhase ps) = (ps.map (energy n)).sum ∧ Q n (bulkPhase ps) = (ps.map (Q n)).sum := by
  have htot : (ps.map fun p => MW p.zs MWs * p.beta).sum = MW zs MWs := by
    unfold MW
    have e : (ps.map fun p => (∑ i, p.zs i * MWs i) * p.beta) = ps.map fun p => ∑ i, p.beta * p.zs i * MWs i := by
      refine List.map_congr_left fun p _ => ?_
      rw [Finset.sum_mul]
      exact Finset.sum_congr rfl fun i _ => by ring
    rw [e, list_sum_swap]
    refine Finset.sum_congr rfl fun i _ => ?_
    rw [← hb i, ← List.sum_map_mul_right]
  refine ⟨?_, ?_, ?_, ?_, ?_⟩
  · funext i
    unfold bulkZs
    simp only [hb, hz, div_one]
  · simp [flow, bulkPhase, h1]
  · unfold bulkBetaMass betasMass
    rw [htot]
    have : (ps.map fun p => p.beta * MW p.zs MWs * (1 / MW zs MWs)).sum = (ps.map fun p => MW p.zs MWs * p.beta).sum * (1 / MW zs MWs) := by
      rw [← List.sum_map_mul_right]
      congr 1
      exact List.map_congr_left fun p _ => by ring
    rw [this, htot, mul_one_div_cancel hM]
  · unfold energy flow bulkPhase
    simp only [h1, mul_one]
    unfold bulkH
    rw [← List.sum_map_mul_left]
    congr 1
    exact List.map_congr_left fun p _ => by ring
  · unfold Q flow bulkPhase
    simp only [h1, mul_one]
    unfold bulkV
    rw [← List.sum_map_mul_left]
    congr 1
    exact List.map_congr_left fun p _ => by ring

example : bulkZs three = ![1 / 2, 1 / 2] := by
  refine (C131_bulk_partial ![16, 44] _ 10 three (by simp; norm_num) ?_ ?_ ?_).1
  · intro i; fin_cases i <;> simp [three] <;> norm_num
  · simp [bulkBeta, three]; norm_num
  · simp [MW]; norm_num

/-- **C131.** The negation of "the bulk of the liquids is a phase": its phase fractions are those of the whole result, so its molar volume and enthalpy are per mole of the result, its density is too
high, its energy and volume flows are not those of the liquids, and its mass fraction is one whatever else is there. -/
theorem C131_bulk_fails : ∃ (ps : List (Ph 2)) (MWs : Fin 2 → ℝ) (n : ℝ), bulkBeta three = 1 ∧ ps = three.drop 1 ∧
    bulkV ps < 1 ∧ (∀ p ∈ ps, 1 ≤ p.V) ∧
    energy n (bulkPhase ps) ≠ (ps.map (energy n)).sum ∧ Q n (bulkPhase ps) ≠ (ps.map (Q n)).sum ∧
    bulkBeta ps = 1 / 2 ∧ bulkBetaMass MWs ps = 1 ∧ massFlow (n * MW ![1 / 2, 1 / 2] MWs / 1000) (bulkBetaMass MWs ps) = n * MW ![1 / 2, 1 / 2] MWs / 1000 := by
  have hm : bulkBetaMass ![16, 44] (three.drop 1) = 1 := by
    simp [bulkBetaMass, betasMass, three, MW]; norm_num
  refine ⟨three.drop 1, ![16, 44], 10, ?_, rfl, ?_, ?_, ?_, ?_, ?_, hm, ?_⟩
  · simp [bulkBeta, three]; norm_num
  · simp [bulkV, three]; norm_num
  · intro p hp
    simp [three] at hp
    rcases hp with rfl | rfl <;> norm_num
  · simp [energy, flow, bulkPhase, bulkBeta, bulkH, three]; norm_num
  · simp [Q, flow, bulkPhase, bulkBeta, bulkV, three]; norm_num
  · simp [bulkBeta, three]; norm_num
  · rw [hm, massFlow, mul_one]

/-! ### Consistency checks -/

theorem relative_zero (a b : ℝ) (hb : b ≠ 0) : relative a b = some 0 ↔ a = b := by
  unfold relative
  rw [if_neg hb]
  simp only [Option.some.injEq, abs_eq_zero]
  rw [sub_eq_zero, eq_comm, div_eq_one_iff_eq hb]

/-- **C131.** Each consistency check is zero exactly if the property equals the one from the fugacity coefficients. -/
theorem C131_consistency (R T P S S0 H H0 Gdep Hdep V : ℝ) (zs lnphis dT dP : Fin N → ℝ) (hP : P ≠ 0) (hS : S ≠ 0) (hH : H ≠ 0) (hG : Gdep ≠ 0)
    (hD : (∑ i, zs i * dT i) * R * T * T ≠ 0) (hV : V ≠ 0) (hRT : R * T ≠ 0) :
    (relative (SfromPhi R T S0 zs lnphis dT) S = some 0 ↔ S = S0 - R * (∑ i, zs i * lnphis i) - R * T * ∑ i, zs i * dT i) ∧
    (relative (HfromPhi R T H0 zs dT) H = some 0 ↔ H = H0 - R * T ^ 2 * ∑ i, zs i * dT i) ∧
    (Gcheck R T Gdep zs lnphis = some 0 ↔ Gdep = R * T * ∑ i, zs i * lnphis i) ∧
    (Hcheck R T Hdep zs dT = some 0 ↔ Hdep = -(R * T ^ 2 * ∑ i, zs i * dT i)) ∧
    (Vcheck R T P V zs dP = some 0 ↔ ∑ i, zs i * dP i = (P * V / (R * T) - 1) / P) := by
  have e1 : SfromPhi R T S0 zs lnphis dT = S0 - R * (∑ i, zs i * lnphis i) - R * T * ∑ i, zs i * dT i := by
    unfold SfromPhi
    rw [Finset.mul_sum, Finset.mul_sum, sub_sub, ← Finset.sum_add_distrib]
    congr 1
    exact Finset.sum_congr rfl fun i _ => by ring
  have e2 : HfromPhi R T H0 zs dT = H0 - R * T ^ 2 * ∑ i, zs i * dT i := by
    unfold HfromPhi
    rw [Finset.mul_sum]
    congr 1
    exact Finset.sum_congr rfl fun i _ => by ring
  refine ⟨?_, ?_, ?_, ?_, ?_⟩
  · rw [relative_zero _ _ hS, e1, eq_comm]
  · rw [relative_zero _ _ hH, e2, eq_comm]
  · unfold Gcheck
    rw [relative_zero _ _ hG, eq_comm]
    constructor <;> intro h <;> linarith
  · unfold Hcheck
    rw [relative_zero _ _ (by intro h; apply hD; linarith)]
    constructor <;> intro h <;> linarith
  · unfold Vcheck
    simp only
    rw [relative_zero _ _ hV]
    generalize ∑ i, zs i * dP i = s
    rw [div_eq_iff hP, eq_div_iff hP, eq_sub_iff_add_eq, eq_div_iff hRT]
    constructor <;> intro h <;> linarith

example : Gcheck 8 300 (8 * 300 * ∑ i, ![(1 / 4 : ℝ), 3 / 4] i * ![(-1 : ℝ), -2] i) ![1 / 4, 3 / 4] ![-1, -2] = some 0 := by
  refine ((C131_consistency 8 300 1 1 1 1 1 _ 1 1 ![1 / 4, 3 / 4] ![-1, -2] ![1, 1] ![1, 1] (by norm_num) (by norm_num) (by norm_num) ?_ ?_ (by norm_num) (by norm_num)).2.2.1).mpr rfl
  · simp; norm_num
  · simp; norm_num

/-- **C131.** The negation of "the checks work for every phase": of an ideal gas, with zero departures and fugacity coefficients of one, two of them divide by zero. -/
theorem C131_consistency_fails (R T : ℝ) (zs : Fin N → ℝ) : Gcheck R T 0 zs (fun _ => 0) = none ∧ Hcheck R T 0 zs (fun _ => 0) = none := by
  constructor
  · simp [Gcheck, relative]
  · simp [Hcheck, relative]

/-! ### Activity coefficients -/

/-- **C131.** A pure component has an activity coefficient of one; with fugacity coefficients independent of composition all are one. -/
theorem C131_gammas (phis : (Fin N → ℝ) → Fin N → ℝ) (i : Fin N) (h : phis (Pi.single i 1) i ≠ 0) :
    gammas phis (Pi.single i 1) i = 1 ∧ ((∀ z, phis z i = phis (Pi.single i 1) i) → ∀ z, gammas phis z i = 1) := by
  constructor
  · exact div_self h
  · intro hc z
    unfold gammas
    rw [hc z, div_self h]

example : gammas (fun z i => 1 + z i) (Pi.single (0 : Fin 2) 1) 0 = 1 := (C131_gammas _ _ (by simp)).1

/-- **C131** (partial). Infinite dilution of a component that is not the whole mixture: the composition has none of it, adds up to one, and keeps the proportions of the others. Missing: a pure mixture. -/
theorem C131_dilution_partial (zs : Fin N → ℝ) (i : Fin N) (hz : ∑ j, zs j = 1) (hi : zs i ≠ 1) :
    ∃ z, diluted zs i = some z ∧ z i = 0 ∧ ∑ j, z j = 1 ∧ ∀ j, j ≠ i → z j = zs j / (1 - zs i) := by
  have hs : ∑ j, Function.update zs i 0 j = 1 - zs i := by
    rw [← Finset.add_sum_erase _ _ (Finset.mem_univ i), Function.update_self, zero_add]
    rw [← hz, ← Finset.add_sum_erase _ zs (Finset.mem_univ i), add_sub_cancel_left]
    exact Finset.sum_congr rfl fun j hj => Function.update_of_ne (Finset.ne_of_mem_erase hj) _ _
  have h0 : (1 : ℝ) - zs i ≠ 0 := sub_ne_zero.mpr (Ne.symm hi)
  refine ⟨fun j => Function.update zs i 0 j / (1 - zs i), ?_, by simp, ?_, ?_⟩
  · unfold diluted
    simp only
    rw [hs, if_neg h0]
  · rw [← Finset.sum_div, hs, div_self h0]
  · intro j hj
    simp only
    rw [Function.update_of_ne hj]

example : ∃ z, diluted ![(1 / 4 : ℝ), 1 / 4, 1 / 2] 2 = some z ∧ z 2 = 0 ∧ ∑ j, z j = 1 ∧ ∀ j, j ≠ 2 → z j = ![(1 / 4 : ℝ), 1 / 4, 1 / 2] j / (1 - 1 / 2) :=
  C131_dilution_partial _ 2 (by simp [Fin.sum_univ_three]; norm_num) (by simp)

/-- **C131.** The negation of "activity coefficients at infinite dilution exist in every state": in a pure component nothing is left after taking it away, and the normalisation divides by zero. -/
theorem C131_dilution_fails (phis : (Fin N → ℝ) → Fin N → ℝ) (i : Fin N) : gammasInf phis (Pi.single i 1) i = none := by
  have : Function.update (Pi.single i (1 : ℝ)) i 0 = (0 : Fin N → ℝ) := by
    funext j
    by_cases h : j = i
    · subst h; simp
    · simp [h]
  simp [gammasInf, diluted, this]

/-! ### Stored lists -/

/-- **C131** (partial). Heat capacities of the pure liquids, kept under a name of their own, are computed on the first call and returned on the next. Missing: the integrals, `C131_stored_fails`. -/
theorem C131_stored_partial (compute compute' : List ℝ) (inst : String → Option (List ℝ)) (h : inst "_Cpls" = none) :
    (getList "_Cpls" compute inst).1 = .list compute ∧ (getList "_Cpls" compute' (getList "_Cpls" compute inst).2).1 = .list compute := by
  have e : getList "_Cpls" compute inst = (.list compute, Function.update inst "_Cpls" (some compute)) := by
    unfold getList attr
    rw [h]
    rfl
  rw [e]
  refine ⟨rfl, ?_⟩
  unfold getList attr
  simp

/-- **C131.** The negation of "the integrals of the pure liquids are computed": the list is kept under the name of the method, so the method finds itself, returns itself and never computes. -/
theorem C131_stored_fails (compute : List ℝ) (inst : String → Option (List ℝ)) :
    ∀ name ∈ ["_Cpl_integrals_pure", "_Cpl_integrals_over_T_pure"], inst name = none →
      getList name compute inst = (.method name, inst) := by
  intro name hn h
  unfold getList attr
  rw [h]
  have : name ∈ methods := by
    simp only [List.mem_cons, List.not_mem_nil, or_false] at hn
    rcases hn with rfl | rfl <;> decide
  simp [this]

/-! ### Phases as states -/

/-- **C131** (partial). A gas or liquid of a result, or any phase with a flasher, becomes a state of that one phase. Missing: solids of a result, bulk phases. -/
theorem C131_state_partial (v : View) (hb : v.bulk = false) (k : String) (hk : k ∈ ["g", "l", "s"])
    (h : (v.hasResult = true ∧ v.assigned = some k) ∨ (v.hasResult = false ∧ v.flasher = true ∧ v.kind = some k)) :
    asState v = some ⟨if k = "g" then 1 else 0, if k = "l" then 1 else 0, if k = "s" then 1 else 0, [1]⟩ := by
  unfold asState
  have hk' : k = "g" ∨ k = "l" ∨ k = "s" := by simpa using hk
  rcases h with ⟨h1, h2⟩ | ⟨h1, h2, h3⟩
  · simp only [h1, hb, h2, Bool.not_true, Bool.false_and, Bool.false_eq_true, if_false, if_true]
    rcases hk' with rfl | rfl | rfl <;> simp
  · simp only [h1, hb, h2, h3, Bool.not_true, Bool.not_false, Bool.and_false, Bool.false_eq_true, if_false]
    rcases hk' with rfl | rfl | rfl <;> simp

example : asState ⟨true, false, some "l", none, false, none, []⟩ = some ⟨0, 1, 0, [1]⟩ := by
  rw [C131_state_partial _ rfl "l" (by simp) (Or.inl ⟨rfl, rfl⟩)]
  simp

/-- **C131.** The negation of "every phase of a result can become a state": a solid has no assigned phase and raises; the bulk of a whole result raises; the bulk of the liquids beside a gas becomes a
state whose phase fractions do not add up to one. Without result and flasher it is refused. -/
theorem C131_state_fails :
    asState ⟨true, false, none, some "s", false, none, []⟩ = none ∧
    (∀ f, asState ⟨true, false, none, none, true, none, f⟩ = none) ∧
    (∃ s, asState ⟨true, false, none, none, true, some "l", [1 / 4, 1 / 4]⟩ = some s ∧ s.liquids = 2 ∧ s.gas = 0 ∧ s.betas.sum ≠ 1) ∧
    ∀ a k b pb f, asState ⟨false, false, a, k, b, pb, f⟩ = none := by
  refine ⟨by simp [asState], by intro f; simp [asState], ⟨⟨0, 2, 0, [1 / 4, 1 / 4]⟩, by simp [asState], rfl, rfl, by norm_num⟩, by intros; simp [asState]⟩

end Verif.MassFlows
