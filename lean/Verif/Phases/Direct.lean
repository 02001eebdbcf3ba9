import Mathlib.Analysis.SpecialFunctions.Log.Basic
import Mathlib.Analysis.SpecialFunctions.Pow.Real
import Mathlib.Algebra.BigOperators.Fin
import Mathlib.Tactic

/-!
# Direct fugacity coefficients, humid air and phases as states (`thermo/phases`)

* `lnphis_direct`, `activity_lnphis`, `fugacities_direct` (`phase_utils.py` 68-121) with the arguments of `CEOSPhase.lnphis_args`
  (`ceos.py` 302-331) and `GibbsExcessLiquid.lnphis_args` (`gibbs_excess.py` 558, 709-722);
* the virial coefficients and reference entropies of `HumidAirRP1485` (`air_phase.py` 178-234);
* `Phase.as_EquilibriumState` (`phase.py` 5651-5690);
* the first guess of the mechanical critical point (`phase.py` 4133-4156).

Simplifications: the kernels of the equations of state (`eos_mix_methods.py`, modelled in `Eos/LnPhi`) and of the activity models are
names or parameters here.
-/

namespace Verif.Direct

open Finset

/-! ## Dispatch -/

/-- The functions called by `lnphis_direct`. -/
inductive Kernel
  | zero | PR | SRK | RK | VDW | PRtrans | SRKtrans | ideal | nrtl | wilson | uniquac | regular | unifac
deriving DecidableEq, Repr

/-- `activity_lnphis` (`thermo/phases/phase_utils.py` 72-85); `none`: `ValueError`. -/
def activityKernel (model : ℕ) : Option Kernel :=
  if 20000 ≤ model ∧ model ≤ 20099 then some .ideal
  else if 20100 ≤ model ∧ model ≤ 20199 then some .nrtl
  else if 20200 ≤ model ∧ model ≤ 20299 then some .wilson
  else if 20300 ≤ model ∧ model ≤ 20399 then some .uniquac
  else if 20400 ≤ model ∧ model ≤ 20499 then some .regular
  else if 20500 ≤ model ∧ model ≤ 20599 then some .unifac
  else none

/-- `lnphis_direct` (93-114). -/
def kernel (model : ℕ) : Option Kernel :=
  if model = 0 then some .zero
  else if model ∈ [10200, 10201, 10204, 10205, 10206] then some .PR
  else if model ∈ [10100, 10104, 10105] then some .SRK
  else if model = 10002 then some .RK
  else if model = 10001 then some .VDW
  else if model ∈ [11202, 11203, 11207] then some .PRtrans
  else if model ∈ [11101, 11102, 11103] then some .SRKtrans
  else if 20000 ≤ model ∧ model ≤ 29999 then activityKernel model
  else none

/-- The mixture classes of `thermo/eos_mix.py`. -/
inductive Eos
  | IGMIX | RKMIX | PRMIX | PRMIXTranslated | PRMIXTranslatedPPJP | PRMIXTranslatedConsistent | SRKMIX | SRKMIXTranslated
  | SRKMIXTranslatedConsistent | MSRKMIXTranslated | PSRK | PR78MIX | VDWMIX | PRSVMIX | PRSV2MIX | TWUPRMIX | TWUSRKMIX | APISRKMIX
deriving DecidableEq, Repr

/-- `model_id` (`thermo/eos_mix.py` 6077, 6516, 6849, 7897, 8305, 8474, 8658, 9027, 9448, 9658, 9806, 9971, 10103, 10570, 10816, 11071,
11228, 11372). -/
def Eos.id : Eos → ℕ
  | .IGMIX => 0 | .RKMIX => 10002 | .PRMIX => 10200 | .PRMIXTranslated => 11202 | .PRMIXTranslatedPPJP => 11207
  | .PRMIXTranslatedConsistent => 11203 | .SRKMIX => 10100 | .SRKMIXTranslated => 11101 | .SRKMIXTranslatedConsistent => 11102
  | .MSRKMIXTranslated => 11103 | .PSRK => 10300 | .PR78MIX => 10201 | .VDWMIX => 10001 | .PRSVMIX => 10205 | .PRSV2MIX => 10206
  | .TWUPRMIX => 10204 | .TWUSRKMIX => 10104 | .APISRKMIX => 10105

/-- The parent class (the one with the volume function): class statements of `thermo/eos_mix.py` 6010-11279. -/
def Eos.parent : Eos → Option Eos
  | .PRMIXTranslated => some .PRMIX | .PRMIXTranslatedPPJP => some .PRMIXTranslated
  | .PRMIXTranslatedConsistent => some .PRMIXTranslated | .SRKMIXTranslated => some .SRKMIX
  | .SRKMIXTranslatedConsistent => some .SRKMIXTranslated | .MSRKMIXTranslated => some .SRKMIXTranslatedConsistent
  | .PSRK => some .SRKMIXTranslated | .PR78MIX => some .PRMIX | .PRSVMIX => some .PRMIX | .PRSV2MIX => some .PRMIX
  | .TWUPRMIX => some .PRMIX | .TWUSRKMIX => some .SRKMIX | .APISRKMIX => some .SRKMIX
  | _ => none

/-- Attribute `translated` (335, 7888, 9030), inherited. -/
def Eos.translated (e : Eos) : Bool :=
  e = .PRMIXTranslated ∨ e = .SRKMIXTranslated ∨ e.parent = some .PRMIXTranslated ∨ e.parent = some .SRKMIXTranslated ∨
    e.parent = some .SRKMIXTranslatedConsistent

/-- The form of the equation: that of the root of the line of ancestors. -/
def Eos.family (e : Eos) : Eos :=
  let up (e : Eos) := e.parent.getD e
  up (up (up e))

/-- The kernel for a family and translation. -/
def expected : Eos → Bool → Option Kernel
  | .IGMIX, _ => some .zero
  | .RKMIX, false => some .RK
  | .VDWMIX, false => some .VDW
  | .PRMIX, false => some .PR
  | .PRMIX, true => some .PRtrans
  | .SRKMIX, false => some .SRK
  | .SRKMIX, true => some .SRKtrans
  | _, _ => none

/-- Number of arguments after `zs, T, P, N`: of `CEOSPhase.lnphis_args` (`thermo/phases/ceos.py` 312-317) and of the kernels (`thermo/eos_mix_methods.py`). -/
def argCount (translated : Bool) : ℕ := if translated then 11 else 9
@[inherit_doc argCount] def Kernel.arity : Kernel → ℕ
  | .PRtrans => 11 | .SRKtrans => 11 | _ => 9

/-- **C140**: for every mixture class but `PSRK` the kernel is the one of its form and translation, and the arguments fit. -/
theorem C140_dispatch (e : Eos) (h : e ≠ .PSRK) :
    ∃ k, kernel e.id = some k ∧ expected e.family e.translated = some k ∧ (k ≠ .zero → k.arity = argCount e.translated) := by
  cases e <;> first | exact absurd rfl h | exact ⟨_, rfl, by decide, by decide⟩

example : Eos.PRSV2MIX ≠ .PSRK ∧ kernel Eos.PRSV2MIX.id = some .PR ∧ Eos.MSRKMIXTranslated.family = .SRKMIX := by decide

/-- **C140**: a phase with the PSRK equation has no direct fugacity coefficients (`ValueError`), so successive substitution and the
stability test fail for it. -/
theorem C140_PSRK_fails : kernel Eos.PSRK.id = none ∧ expected Eos.PSRK.family Eos.PSRK.translated = some .SRKtrans := by decide

/-- The activity models. -/
inductive Act
  | IdealSolution | NRTL | Wilson | UNIQUAC | RegularSolution | FloryHuggins | Hansen | UNIFAC (version : ℕ)
deriving DecidableEq

/-- `model_id` (`activity.py` 1178, `nrtl.py` 569, `wilson.py` 578, `uniquac.py` 637, `regular_solution.py` 529, 1267, 1639, `unifac.py` 5289-5293). -/
def Act.id : Act → ℕ
  | .IdealSolution => 0 | .NRTL => 100 | .Wilson => 200 | .UNIQUAC => 300 | .RegularSolution => 400 | .FloryHuggins => 410 | .Hansen => 420
  | .UNIFAC v => v + 500

/-- The model's own equation. -/
def Act.own : Act → Option Kernel
  | .IdealSolution => some .ideal | .NRTL => some .nrtl | .Wilson => some .wilson | .UNIQUAC => some .uniquac
  | .RegularSolution => some .regular | .UNIFAC _ => some .unifac | .FloryHuggins => none | .Hansen => none

/-- `GibbsExcessLiquid.model_id` (`thermo/phases/gibbs_excess.py` 558). -/
def liquidId (a : Act) : ℕ := 20000 + a.id

/-- **C140**: each activity model with its own equation is dispatched to it (UNIFAC in every version below 100). -/
theorem C140_activity (a : Act) (hv : ∀ v, a = .UNIFAC v → v ≤ 99) (h : a.own ≠ none) : kernel (liquidId a) = a.own := by
  cases a with
  | UNIFAC v =>
    have hv := hv v rfl
    unfold kernel activityKernel liquidId Act.id Act.own
    simp only [List.mem_cons, List.not_mem_nil, or_false]
    iterate 7 rw [if_neg (by omega)]
    rw [if_pos (by omega)]
    iterate 5 rw [if_neg (by omega)]
    rw [if_pos (by omega)]
  | FloryHuggins => exact absurd rfl h
  | Hansen => exact absurd rfl h
  | _ => decide

example : (Act.UNIFAC 3).own ≠ none ∧ kernel (liquidId (.UNIFAC 3)) = some .unifac := by decide

/-- **C140**: Flory-Huggins and Hansen liquids are dispatched to the regular solution equation. -/
theorem C140_flory_fails : ∀ a ∈ [Act.FloryHuggins, Act.Hansen], kernel (liquidId a) = some .regular ∧ a.own = none := by decide

/-! ## Values -/

/-- The loop of `activity_lnphis` (87-90). -/
noncomputable def activityLnphis {N : ℕ} (P : ℝ) (gammas lnPsats Poyntings phis_sat : Fin N → ℝ) (i : Fin N) : ℝ :=
  Real.log (gammas i * Poyntings i * phis_sat i * (1 / P)) + lnPsats i

/-- `fugacities_direct` (116-121), without the truncation of the exponential. -/
noncomputable def fugacitiesDirect {N : ℕ} (P : ℝ) (zs lnphis : Fin N → ℝ) (i : Fin N) : ℝ := P * zs i * Real.exp (lnphis i)

/-- **C140**: the direct fugacities of an activity model are `x γ Psat φsat Poynting`, and its fugacity coefficients this over `x P`. -/
theorem C140_values {N : ℕ} {P : ℝ} {zs gammas Psats Poyntings phis_sat : Fin N → ℝ} (hP : 0 < P) (hg : ∀ i, 0 < gammas i)
    (hp : ∀ i, 0 < Psats i) (hy : ∀ i, 0 < Poyntings i) (hs : ∀ i, 0 < phis_sat i) (i : Fin N) :
    fugacitiesDirect P zs (activityLnphis P gammas (fun i => Real.log (Psats i)) Poyntings phis_sat) i =
        zs i * gammas i * Psats i * phis_sat i * Poyntings i ∧
      Real.exp (activityLnphis P gammas (fun i => Real.log (Psats i)) Poyntings phis_sat i) =
        gammas i * Psats i * phis_sat i * Poyntings i / P := by
  have h1 := hg i
  have h2 := hy i
  have h3 := hs i
  have e : Real.exp (activityLnphis P gammas (fun i => Real.log (Psats i)) Poyntings phis_sat i) =
      gammas i * Psats i * phis_sat i * Poyntings i / P := by
    unfold activityLnphis
    rw [Real.exp_add, Real.exp_log (by positivity), Real.exp_log (hp i)]
    field_simp
  refine ⟨?_, e⟩
  unfold fugacitiesDirect
  rw [e]
  field_simp

/-- Raoult's law at 2 bar. -/
example : fugacitiesDirect (N := 1) 200000 (fun _ => 1 / 2) (activityLnphis 200000 (fun _ => 1) (fun _ => Real.log 100000) (fun _ => 1) (fun _ => 1)) 0
    = 50000 := by
  rw [(C140_values (N := 1) (Psats := fun _ => 100000) (by norm_num) (by norm_num) (by norm_num) (by norm_num) (by norm_num) 0).1]
  norm_num

/-- The arguments of `GibbsExcessLiquid` are stored with their output list (712-722): a phase's buffer after a call, and what the list
returned by an earlier call now holds. -/
structure Buffers (N : ℕ) where
  /-- Contents by identity. -/
  mem : ℕ → Fin N → ℝ
  /-- `_lnphis_args[-1]`. -/
  stored : Option ℕ
  /-- Next free identity. -/
  next : ℕ

/-- `lnphis_direct(zs, *phase.lnphis_args())`: for an activity model (`keep`) the arguments and so the list are those of the first
call, for a cubic equation (`thermo/phases/ceos.py` 302-317) they are new each time. -/
def directCall {N : ℕ} (keep : Bool) (f : (Fin N → ℝ) → Fin N → ℝ) (zs : Fin N → ℝ) (b : Buffers N) : Buffers N × ℕ :=
  let i := if keep then b.stored.getD b.next else b.next
  ({ mem := Function.update b.mem i (f zs), stored := if keep then some i else b.stored, next := b.next + 1 }, i)

/-- **C140**: for a cubic equation the list of an earlier call is not changed by a later one. -/
theorem C140_buffer_cubic {N : ℕ} (f : (Fin N → ℝ) → Fin N → ℝ) (xs ys : Fin N → ℝ) (b : Buffers N) :
    let r := directCall false f xs b
    let r' := directCall false f ys r.1
    r'.1.mem r.2 = f xs ∧ r'.1.mem r'.2 = f ys := by
  simp [directCall]

/-- **C140**: for an activity model both calls return the same list: the coefficients kept from the first composition are replaced by
those of the second. -/
theorem C140_buffer_fails {N : ℕ} (f : (Fin N → ℝ) → Fin N → ℝ) (xs ys : Fin N → ℝ) (b : Buffers N) :
    let r := directCall true f xs b
    let r' := directCall true f ys r.1
    r.1.mem r.2 = f xs ∧ r'.2 = r.2 ∧ r'.1.mem r.2 = f ys := by
  simp [directCall]

/-- Which roots the kernel of a cubic phase may use (`thermo/phases/ceos.py` 302-317): liquid, gas. The argument `most_stable` is not
used (the line using it is commented out, 311). -/
def rootsAllowed (isLiquid isGas : Bool) (_mostStable : Bool) : Bool × Bool := (isLiquid, isGas)

/-- **C140**: asked for the more stable root, a gas phase still uses only the gas root, a liquid phase only the liquid one. -/
theorem C140_most_stable_fails : rootsAllowed false true true ≠ (true, true) ∧ rootsAllowed true false true ≠ (true, true) ∧
    ∀ l g, rootsAllowed l g true = rootsAllowed l g false := by decide

/-! ## Humid air -/

/-- `HumidAirRP1485.B` (`thermo/phases/air_phase.py` 208-219). -/
def humidB (a w Baa Baw Bww : ℝ) : ℝ := a * a * Baa + 2 * a * w * Baw + w * w * Bww

/-- `HumidAirRP1485.C` (221-234). -/
def humidC (a w Caaa Caaw Caww Cwww : ℝ) : ℝ := a * a * (Caaa + 3 * w * Caaw) + w * w * (3 * a * Caww + w * Cwww)

/-- The second and third virial coefficients of a mixture: sums over all pairs and triples of molecules. -/
def mixB (x : Fin 2 → ℝ) (B : Fin 2 → Fin 2 → ℝ) : ℝ := ∑ i, ∑ j, x i * x j * B i j
@[inherit_doc mixB] def mixC (x : Fin 2 → ℝ) (C : Fin 2 → Fin 2 → Fin 2 → ℝ) : ℝ := ∑ i, ∑ j, ∑ k, x i * x j * x k * C i j k

/-- Coefficients which depend only on how many of the molecules are water. -/
def pairs (Baa Baw Bww : ℝ) (i j : Fin 2) : ℝ := match i.val + j.val with | 0 => Baa | 1 => Baw | _ => Bww
@[inherit_doc pairs] def triples (Caaa Caaw Caww Cwww : ℝ) (i j k : Fin 2) : ℝ :=
  match i.val + j.val + k.val with | 0 => Caaa | 1 => Caaw | 2 => Caww | _ => Cwww

/-- **C140**: the second virial coefficient of humid air is that of the mixture. -/
theorem C140_humid_B (a w Baa Baw Bww : ℝ) : humidB a w Baa Baw Bww = mixB ![a, w] (pairs Baa Baw Bww) := by
  simp [mixB, pairs, humidB, Fin.sum_univ_two]
  ring

/-- **C140**: the third one is not: the coefficient of dry air has the square of its mole fraction instead of the cube. It is right only
for pure air, without air, or if that coefficient vanishes. -/
theorem C140_humid_C_fails (a Caaa Caaw Caww Cwww : ℝ) :
    humidC a (1 - a) Caaa Caaw Caww Cwww - mixC ![a, 1 - a] (triples Caaa Caaw Caww Cwww) = a ^ 2 * (1 - a) * Caaa ∧
      (humidC a (1 - a) Caaa Caaw Caww Cwww = mixC ![a, 1 - a] (triples Caaa Caaw Caww Cwww) ↔ a = 0 ∨ a = 1 ∨ Caaa = 0) := by
  have key : humidC a (1 - a) Caaa Caaw Caww Cwww - mixC ![a, 1 - a] (triples Caaa Caaw Caww Cwww) = a ^ 2 * (1 - a) * Caaa := by
    simp [mixC, triples, humidC, Fin.sum_univ_two]
    ring
  refine ⟨key, ?_⟩
  rw [← sub_eq_zero, key, mul_eq_zero, mul_eq_zero, sub_eq_zero]
  constructor
  · rintro ((h | h) | h)
    · exact .inl (by simpa using h)
    · exact .inr (.inl h.symm)
    · exact .inr (.inr h)
  · rintro (h | h | h)
    · exact .inl (.inl (by simpa using h))
    · exact .inl (.inr h.symm)
    · exact .inr h

/-- **C140** (partial): at the two ends the third coefficient is that of the pure gas. Missing: mixtures (`C140_humid_C_fails`). -/
theorem C140_humid_C_partial (Caaa Caaw Caww Cwww : ℝ) :
    humidC 1 0 Caaa Caaw Caww Cwww = Caaa ∧ humidC 0 1 Caaa Caaw Caww Cwww = Cwww := by
  constructor <;> (unfold humidC; ring)

/-- The constructor: fractions and mixture molecular weight (194-206): `zs` is air, then water. -/
structure Humid where
  /-- `psi_a`. -/
  a : ℝ
  /-- `psi_w`. -/
  w : ℝ
  /-- `_MW`. -/
  MW : ℝ
@[inherit_doc Humid] def humid (zs : Fin 2 → ℝ) (Mair Mwater : ℝ) : Humid := ⟨zs 0, zs 1, Mair * zs 0 + Mwater * zs 1⟩

/-- `Sfs` (184-187); an absent list or entry gives none. -/
noncomputable def humidSfs (Hfs Gfs : Option (List (Option ℝ))) : Option (List ℝ) := do
  let hs ← Hfs
  let gs ← Gfs
  let hs ← hs.mapM id
  let gs ← gs.mapM id
  return (hs.zip gs).map fun p => (p.1 - p.2) / 298.15

/-- **C140**: the molecular weight is the mole-fraction average in the order air, water, the fractions of air and water are those given, and the reference entropies satisfy
`G = H - 298.15 S` component by component. -/
theorem C140_humid (zs : Fin 2 → ℝ) (Mair Mwater : ℝ) (hs gs : List ℝ) :
    (humid zs Mair Mwater).MW = ∑ i, zs i * ![Mair, Mwater] i ∧
      ![(humid zs Mair Mwater).a, (humid zs Mair Mwater).w] = zs ∧
      ∃ ss : List ℝ, humidSfs (some (hs.map some)) (some (gs.map some)) = some ss ∧
        ss.length = min hs.length gs.length ∧ ∀ (i : ℕ) (h g s : ℝ), hs[i]? = some h → gs[i]? = some g → ss[i]? = some s → g = h - 298.15 * s := by
  have hm : ∀ l : List ℝ, (l.map some).mapM id = some l := by
    intro l
    induction l with
    | nil => rfl
    | cons a l ih => simp [List.mapM_cons, ih]
  refine ⟨by simp [humid, Fin.sum_univ_two]; ring, by ext i; fin_cases i <;> rfl, (hs.zip gs).map fun p => (p.1 - p.2) / 298.15, ?_, by simp, ?_⟩
  · simp only [humidSfs, Option.bind_eq_bind, Option.bind_some, hm]
    rfl
  · intro i h g s hh hg hs'
    rw [List.getElem?_map, (List.getElem?_zip_eq_some (z := (h, g))).mpr ⟨hh, hg⟩] at hs'
    simp only [Option.map_some, Option.some.injEq] at hs'
    rw [← hs']
    norm_num
    ring

example : humidSfs (some [some 0, none]) (some [some 0, some 1]) = none ∧ humidSfs none (some []) = none := by
  constructor
  · simp [humidSfs, List.mapM_cons]
  · simp [humidSfs]

/-! ## Phases as states -/

/-- What a phase brings: the flags `is_gas`, `is_liquid`, `is_solid`; the phase assigned by a flash, if any; for a bulk phase its
`phase_bulk` and the fractions of its phases. -/
structure PhaseInfo where
  /-- `is_gas`. -/
  isGas : Bool
  /-- `is_liquid`. -/
  isLiquid : Bool
  /-- `is_solid`. -/
  isSolid : Bool
  /-- `assigned_phase`, with a `result`. -/
  assigned : Option Char
  /-- `phase_bulk`, fractions and phases of a bulk phase. -/
  bulk : Option (Char × List ℚ × List ℕ)

/-- The phases and fractions of the new state: gas, liquids, solids, betas. Phases are numbered; 0 is the phase itself. -/
structure NewState where
  /-- `gas`. -/
  gas : Option ℕ
  /-- `liquids`. -/
  liquids : List ℕ
  /-- `solids`. -/
  solids : List ℕ
  /-- `betas`. -/
  betas : List ℚ
deriving DecidableEq

/-- `as_EquilibriumState` (`thermo/phases/phase.py` 5651-5690). -/
def asState (p : PhaseInfo) (flasher : Bool) : Except String NewState :=
  if p.assigned = none ∧ flasher = false then .error "ValueError" else
  let state : Option Char := match p.assigned with
    | some c => some c
    | none => if p.isGas then some 'g' else if p.isLiquid then some 'l' else if p.isSolid then some 's' else none
  match p.bulk with
  | some (c, fr, ps) =>
    if c = 'l' then .ok ⟨none, ps, [], fr⟩ else if c = 's' then .ok ⟨none, [], ps, fr⟩ else .error "UnboundLocalError"
  | none => match state with
    | some 'l' => .ok ⟨none, [0], [], [1]⟩
    | some 'g' => .ok ⟨some 0, [], [], [1]⟩
    | some 's' => .ok ⟨none, [], [0], [1]⟩
    | _ => .error "UnboundLocalError"

/-- All phases of the state, in the order of the fractions. -/
def NewState.phases (s : NewState) : List ℕ := s.gas.toList ++ s.liquids ++ s.solids

/-- **C140**: a state made of a phase has exactly that phase with fraction one, or the phases of the bulk with their fractions; as the
kind assigned by the flash, or that of its class without one. -/
theorem C140_state {p : PhaseInfo} {fl : Bool} {s : NewState} (h : asState p fl = .ok s) :
    (∀ c fr ps, p.bulk = some (c, fr, ps) → s.phases = ps ∧ s.betas = fr ∧ s.gas = none) ∧
      (p.bulk = none → s.phases = [0] ∧ s.betas = [1] ∧
        (p.assigned = some 'g' → s.gas = some 0) ∧ (p.assigned = some 'l' → s.liquids = [0]) ∧ (p.assigned = some 's' → s.solids = [0]) ∧
        (p.assigned = none → p.isGas = true → s.gas = some 0) ∧
        (p.assigned = none → p.isGas = false → p.isLiquid = true → s.liquids = [0]) ∧
        (p.assigned = none → p.isGas = false → p.isLiquid = false → p.isSolid = true → s.solids = [0])) := by
  obtain ⟨g, l, so, as, bulk⟩ := p
  unfold asState at h
  dsimp only at h
  have h0 : ¬(as = none ∧ fl = false) := by
    intro hc
    rw [if_pos hc] at h
    cases h
  rw [if_neg h0] at h
  cases bulk with
  | some b =>
    obtain ⟨c, fr, ps⟩ := b
    refine ⟨?_, fun hh => (by cases hh)⟩
    rintro c' fr' ps' hh
    cases hh
    dsimp only at h
    split_ifs at h <;> cases h <;> simp [NewState.phases]
  | none =>
    refine ⟨fun _ _ _ hh => (by cases hh), fun _ => ?_⟩
    cases as with
    | some a =>
      dsimp only at h
      split at h <;> cases h <;> rename_i ha <;> cases ha <;> simp [NewState.phases]
    | none =>
      cases g <;> cases l <;> cases so <;> simp at h <;> subst h <;> simp [NewState.phases]

example : asState ⟨true, false, false, none, none⟩ true = .ok ⟨some 0, [], [], [1]⟩ ∧
    asState ⟨true, false, false, some 'l', none⟩ false = .ok ⟨none, [0], [], [1]⟩ ∧
    asState ⟨false, true, false, some 'l', some ('l', [1/4, 3/4], [5, 6])⟩ false = .ok ⟨none, [5, 6], [], [1/4, 3/4]⟩ := by
  refine ⟨rfl, rfl, rfl⟩

/-- **C140**: without a result and a flasher it raises `ValueError`; a phase of no kind, and a bulk which is neither liquid nor solid,
leave names unbound. -/
theorem C140_state_errors (g l so : Bool) (fr : List ℚ) (ps : List ℕ) :
    asState ⟨g, l, so, none, none⟩ false = .error "ValueError" ∧
      asState ⟨false, false, false, none, none⟩ true = .error "UnboundLocalError" ∧
      asState ⟨g, l, so, some 'g', some ('g', fr, ps)⟩ true = .error "UnboundLocalError" := by
  refine ⟨rfl, rfl, rfl⟩

/-! ## Mechanical critical point -/

/-- The first guess (`thermo/phases/phase.py` 4144-4153). -/
noncomputable def guessT {N : ℕ} (zs Tcs : Fin N → ℝ) : ℝ := ∑ i, (∑ j, zs j * Real.sqrt (Tcs j)) * Real.sqrt (Tcs i) * zs i
@[inherit_doc guessT] def guessP {N : ℕ} (zs Pcs : Fin N → ℝ) : ℝ := ∑ i, Pcs i * zs i

/-- **C140**: the guess of the temperature is the square of the average square root, so for mole fractions it lies between the
critical temperatures; that of the pressure is the average. For a pure substance they are the critical point. -/
theorem C140_guess {N : ℕ} {zs Tcs Pcs : Fin N → ℝ} (hz : ∀ i, 0 ≤ zs i) (hs : ∑ i, zs i = 1) (hT : ∀ i, 0 ≤ Tcs i) {lo hi plo phi : ℝ}
    (hlo : 0 ≤ lo) (h1 : ∀ i, lo ≤ Tcs i) (h2 : ∀ i, Tcs i ≤ hi) (h3 : ∀ i, plo ≤ Pcs i) (h4 : ∀ i, Pcs i ≤ phi) :
    guessT zs Tcs = (∑ i, zs i * Real.sqrt (Tcs i)) ^ 2 ∧ lo ≤ guessT zs Tcs ∧ guessT zs Tcs ≤ hi ∧ plo ≤ guessP zs Pcs ∧ guessP zs Pcs ≤ phi := by
  have e : guessT zs Tcs = (∑ i, zs i * Real.sqrt (Tcs i)) ^ 2 := by
    unfold guessT
    rw [sq, Finset.mul_sum]
    exact Finset.sum_congr rfl fun i _ => by ring
  have avg : ∀ (c : ℝ) (f : Fin N → ℝ), (∀ i, c ≤ f i) → c ≤ ∑ i, zs i * f i := by
    intro c f h
    calc c = ∑ i, zs i * c := by rw [← Finset.sum_mul, hs, one_mul]
      _ ≤ _ := Finset.sum_le_sum fun i _ => mul_le_mul_of_nonneg_left (h i) (hz i)
  have avg' : ∀ (c : ℝ) (f : Fin N → ℝ), (∀ i, f i ≤ c) → ∑ i, zs i * f i ≤ c := by
    intro c f h
    calc _ ≤ ∑ i, zs i * c := Finset.sum_le_sum fun i _ => mul_le_mul_of_nonneg_left (h i) (hz i)
      _ = c := by rw [← Finset.sum_mul, hs, one_mul]
  have eP : guessP zs Pcs = ∑ i, zs i * Pcs i := Finset.sum_congr rfl fun i _ => mul_comm _ _
  have hne : Nonempty (Fin N) := by
    by_contra hcon
    rw [not_nonempty_iff] at hcon
    simp at hs
  have hhi : 0 ≤ hi := (hT hne.some).trans (h2 _)
  refine ⟨e, ?_, ?_, by rw [eP]; exact avg _ _ h3, by rw [eP]; exact avg' _ _ h4⟩
  · rw [e, ← Real.sq_sqrt hlo]
    exact pow_le_pow_left₀ (Real.sqrt_nonneg _) (avg _ _ fun i => Real.sqrt_le_sqrt (h1 i)) 2
  · have : (∑ i, zs i * Real.sqrt (Tcs i)) ^ 2 ≤ Real.sqrt hi ^ 2 :=
      pow_le_pow_left₀ (Finset.sum_nonneg fun i _ => mul_nonneg (hz i) (Real.sqrt_nonneg _))
        (avg' _ _ fun i => Real.sqrt_le_sqrt (h2 i)) 2
    rw [e]
    rwa [Real.sq_sqrt hhi] at this

/-- An equimolar mixture with critical temperatures 100 and 400. -/
example : guessT ![(1 : ℝ) / 2, 1 / 2] ![100, 400] = 225 := by
  have h1 : Real.sqrt 100 = 10 := by rw [show (100 : ℝ) = 10 ^ 2 by norm_num]; exact Real.sqrt_sq (by norm_num)
  have h2 : Real.sqrt 400 = 20 := by rw [show (400 : ℝ) = 20 ^ 2 by norm_num]; exact Real.sqrt_sq (by norm_num)
  simp [guessT, Fin.sum_univ_two, h1, h2]
  norm_num

end Verif.Direct
