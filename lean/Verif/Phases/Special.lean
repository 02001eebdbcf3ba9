import Verif.Phases.Gibbs
import Mathlib.Analysis.SpecialFunctions.Log.Base
import Mathlib.Analysis.SpecialFunctions.Pow.Continuity
import Mathlib.Topology.Order.Basic

/-!
# Phases with models of their own (`thermo/phases/iapws_phase.py`, `petroleum.py`, `combined.py`)

* C80: the industrial water formulation `IAPWS97`.
* C81: the Grayson-Streed and Chao-Seader liquids.
* C82: which phase of a `CombinedPhase` answers a call.
-/

namespace Verif.Special

open Verif.Departure (Along Total)
open Verif.Phase (Part part_iff)
open Verif.Gibbs (temp press)

/-! ## `IAPWS97` -/

/-- Constants and functions of one of the regions 1, 2, 5 (205-210, 374-392): the reduced Gibbs energy and its
derivatives as functions of `tau` and `pi` (222-315), from the `chemicals` package. -/
structure Region where
  (MW R Tref Pref : ℝ)
  (g g_pi g_tau g_pipi g_tautau g_pitau : ℝ → ℝ → ℝ)

namespace Region

variable (r : Region) (T P : ℝ)

/-- `tau` and `pi` (374-375 and similarly). -/
noncomputable def tau (T : ℝ) : ℝ := r.Tref / T
@[inherit_doc tau] noncomputable def pi (P : ℝ) : ℝ := P * (1 / r.Pref)

/-- `G` (227-237), `S` (503), `H` (517), `Cp` (582-583). -/
noncomputable def G : ℝ := r.g (r.tau T) (r.pi P)
@[inherit_doc G] noncomputable def S : ℝ := r.R * (r.tau T * r.g_tau (r.tau T) (r.pi P) - r.G T P)
@[inherit_doc G] noncomputable def H : ℝ := r.R * T * r.tau T * r.g_tau (r.tau T) (r.pi P)
@[inherit_doc G] noncomputable def Cp : ℝ :=
  -r.R * r.tau T * r.tau T * r.g_tautau (r.tau T) (r.pi P) * (r.MW * (1 / 1000))

/-- `_V` (370-371): `rho_to_Vm` of the density `iapws97_rho`, documented as `P / (R T pi dG_dpi)`. -/
noncomputable def V : ℝ := r.MW * (1 / 1000) / (P / (r.R * T * (r.pi P * r.g_pi (r.tau T) (r.pi P))))

/-- `dV_dP` (612), `dV_dT` (634-635), `dP_dT` (645), `dP_dV` (650). -/
noncomputable def dV_dP : ℝ := r.MW * r.R * T * r.g_pipi (r.tau T) (r.pi P) / (1000 * r.Pref * r.Pref)
@[inherit_doc dV_dP] noncomputable def dV_dT : ℝ :=
  r.MW * r.R * r.g_pi (r.tau T) (r.pi P) / (1000 * r.Pref)
    - r.MW * r.R * r.Tref * r.g_pitau (r.tau T) (r.pi P) / (1000 * r.Pref * T)
@[inherit_doc dV_dP] noncomputable def dP_dT : ℝ := -r.dV_dT T P / r.dV_dP T P
@[inherit_doc dV_dP] noncomputable def dP_dV : ℝ := 1 / r.dV_dP T P

end Region

/-- The functions of the region are derivatives of one another at the state. -/
structure Smooth (r : Region) (T P : ℝ) : Prop where
  posMW : 0 < r.MW
  posR : 0 < r.R
  posTref : 0 < r.Tref
  posPref : 0 < r.Pref
  posT : 0 < T
  posP : 0 < P
  hg : Total r.g (r.g_tau (r.tau T) (r.pi P)) (r.g_pi (r.tau T) (r.pi P)) (r.tau T) (r.pi P)
  ht : Total r.g_tau (r.g_tautau (r.tau T) (r.pi P)) (r.g_pitau (r.tau T) (r.pi P)) (r.tau T) (r.pi P)
  hp : Total r.g_pi (r.g_pitau (r.tau T) (r.pi P)) (r.g_pipi (r.tau T) (r.pi P)) (r.tau T) (r.pi P)

section
variable {r : Region} {T P : ℝ}

theorem reduced {f : ℝ → ℝ → ℝ} {a b : ℝ} (h : Total f a b (r.tau T) (r.pi P)) (hT : T ≠ 0) :
    Total (fun T P => f (r.tau T) (r.pi P)) (-a * r.Tref / T ^ 2) (b * (1 / r.Pref)) T P := by
  intro T' P' τ ν h1 h2 h3 h4
  have k1 := (Total.const r.Tref T P).div (Total.fst T P) hT T' P' τ ν h1 h2 h3 h4
  have k2 := (Total.snd T P).mul (Total.const (1 / r.Pref) T P) T' P' τ ν h1 h2 h3 h4
  refine (h _ _ (fun t => r.tau (τ t)) (fun t => r.pi (ν t)) (by simp only [h1]) (by simp only [h2]) k1 k2).congr_deriv ?_
  ring

theorem tot_tau (hT : T ≠ 0) (P : ℝ) : Total (fun T _ => r.tau T) (-r.Tref / T ^ 2) 0 T P :=
  ((Total.const r.Tref T P).div (Total.fst T P) hT).congr (by ring) (by ring)

theorem V_near (h : Smooth r T P) :
    Total r.V (r.dV_dT T P) (r.dV_dP T P) T P := by
  have hT := h.posT.ne'; have hP := h.posP.ne'; have hR := h.posR.ne'; have hp := h.posPref.ne'
  have kp := (Total.snd T P).mul (Total.const (1 / r.Pref) T P)
  have hpi : r.pi P ≠ 0 := by unfold Region.pi; positivity
  -- the documented volume is `MW R T / (1000 Pref) * dG_dpi`
  have k := ((Total.const (r.MW * r.R / (1000 * r.Pref)) T P).mul (Total.fst T P)).mul (reduced h.hp hT)
  have k' : Total (fun T P => r.MW * r.R / (1000 * r.Pref) * T * r.g_pi (r.tau T) (r.pi P))
      (r.dV_dT T P) (r.dV_dP T P) T P := by
    refine k.congr ?_ ?_
    · simp only [Region.dV_dT]; field_simp; ring
    · simp only [Region.dV_dP]; field_simp; ring
  intro T' P' τ ν h1 h2 h3 h4
  refine (k' T' P' τ ν h1 h2 h3 h4).congr_of_eventuallyEq ?_
  have c : ∀ᶠ t in nhds (0 : ℝ), ν t ≠ 0 := h4.continuousAt.eventually_ne (by rw [h2]; exact hP)
  filter_upwards [c] with t ht
  simp only [Region.V, Region.pi]
  rw [div_div_eq_mul_div]
  field_simp

/-! ## C80 -/

/-- **C80.** Volume and its derivatives: the volume is molar, and the derivatives between pressure, volume and
temperature are the ones they are named after. -/
theorem C80_volume (h : Smooth r T P) (n1 : r.dV_dT T P ≠ 0) (n2 : r.dV_dP T P ≠ 0) :
    Total r.V (r.dV_dT T P) (r.dV_dP T P) T P ∧ Part press temp r.V (r.dP_dT T P) T P ∧
      Part press r.V temp (r.dP_dV T P) T P ∧ r.V T P = r.MW / 1000 * (r.R * T / r.Pref * r.g_pi (r.tau T) (r.pi P)) := by
  have kV := V_near h
  have kT : Total temp 1 0 T P := Total.fst T P
  have kP : Total press 0 1 T P := Total.snd T P
  refine ⟨kV, (part_iff kP kT kV (.inl n1)).2 ?_, (part_iff kP kV kT (.inl one_ne_zero)).2 ?_, ?_⟩
  · simp only [Region.dP_dT]; field_simp; ring
  · simp only [Region.dP_dV]; field_simp; ring
  · have hT := h.posT.ne'; have hP := h.posP.ne'; have hR := h.posR.ne'; have hp := h.posPref.ne'
    simp only [Region.V, Region.pi]
    rw [div_div_eq_mul_div]
    field_simp

/-- **C80, partial.** Enthalpy and entropy are those of the specific Gibbs energy `RTG`, and the heat capacity is the
derivative of the enthalpy *times the molar mass*: `H` and `S` are per kilogram, `Cp` is per mole. Missing is a
common basis. -/
theorem C80_basis_partial (h : Smooth r T P) :
    Total (fun T P => r.R * T * r.G T P) (-r.S T P) (r.V T P / (r.MW / 1000)) T P ∧
      r.H T P = r.R * T * r.G T P + T * r.S T P ∧ Part r.H temp press (r.Cp T P / (r.MW / 1000)) T P := by
  have hT := h.posT.ne'; have hP := h.posP.ne'; have hR := h.posR.ne'; have hp := h.posPref.ne'; have hM := h.posMW.ne'
  have kT : Total temp 1 0 T P := Total.fst T P
  have kP : Total press 0 1 T P := Total.snd T P
  have kR := (Total.const r.R T P).mul (Total.fst T P)
  have kt := tot_tau (r := r) hT P
  have kH : Total r.H _ _ T P := (kR.mul kt).mul (reduced h.ht hT)
  refine ⟨(kR.mul (reduced h.hg hT)).congr ?_ ?_, ?_, (part_iff kH kT kP (.inr one_ne_zero)).2 ?_⟩
  · simp only [Region.S, Region.G]
    generalize r.g_tau (r.tau T) (r.pi P) = a
    generalize r.g (r.tau T) (r.pi P) = b
    simp only [Region.tau]; field_simp; ring
  · simp only [Region.V]
    generalize r.g_pi (r.tau T) (r.pi P) = a
    simp only [Region.pi]; rw [div_div_eq_mul_div]; field_simp; ring
  · simp only [Region.H, Region.S]; ring
  · simp only [Region.Cp]
    generalize r.g_tau (r.tau T) (r.pi P) = a
    generalize r.g_tautau (r.tau T) (r.pi P) = b
    generalize r.g_pitau (r.tau T) (r.pi P) = d
    simp only [Region.tau]; field_simp; ring

/-- A region for the examples. -/
noncomputable def demoRegion : Region where
  MW := 18
  R := 461
  Tref := 540
  Pref := 1000000
  g t p := t * p - t * t - p * p
  g_pi t p := t - 2 * p
  g_tau t p := p - 2 * t
  g_pipi _ _ := -2
  g_tautau _ _ := -2
  g_pitau _ _ := 1

theorem demo_smooth {T P : ℝ} (hT : 0 < T) (hP : 0 < P) : Smooth demoRegion T P where
  posMW := by norm_num [demoRegion]
  posR := by norm_num [demoRegion]
  posTref := by norm_num [demoRegion]
  posPref := by norm_num [demoRegion]
  posT := hT
  posP := hP
  hg := by
    have k1 := Total.fst (demoRegion.tau T) (demoRegion.pi P)
    have k2 := Total.snd (demoRegion.tau T) (demoRegion.pi P)
    refine (((k1.mul k2).sub (k1.mul k1)).sub (k2.mul k2)).congr ?_ ?_
    all_goals simp only [demoRegion]; ring
  ht := by
    have k1 := Total.fst (demoRegion.tau T) (demoRegion.pi P)
    have k2 := Total.snd (demoRegion.tau T) (demoRegion.pi P)
    refine (k2.sub ((Total.const 2 _ _).mul k1)).congr ?_ ?_
    all_goals simp only [demoRegion]; ring
  hp := by
    have k1 := Total.fst (demoRegion.tau T) (demoRegion.pi P)
    have k2 := Total.snd (demoRegion.tau T) (demoRegion.pi P)
    refine (k1.sub ((Total.const 2 _ _).mul k2)).congr ?_ ?_
    all_goals simp only [demoRegion]; ring

example : Smooth demoRegion 540 1000000 ∧ demoRegion.dV_dT 540 1000000 ≠ 0 ∧ demoRegion.dV_dP 540 1000000 ≠ 0 :=
  ⟨demo_smooth (by norm_num) (by norm_num), by norm_num [demoRegion, Region.dV_dT, Region.tau, Region.pi],
    by norm_num [demoRegion, Region.dV_dP, Region.tau, Region.pi]⟩

/-- **C80, refuted.** At no state with a heat capacity is `Cp` (which is also `dH_dT`) the derivative of `H` by
temperature at constant pressure, and `G` is not `H - TS` but that divided by `RT`. -/
theorem C80_basis_fails :
    (∀ (r : Region) (T P : ℝ), Smooth r T P → r.MW ≠ 1000 → r.Cp T P ≠ 0 → ¬ Part r.H temp press (r.Cp T P) T P) ∧
      (∀ (r : Region) (T P : ℝ), Smooth r T P → r.G T P = (r.H T P - T * r.S T P) / (r.R * T)) ∧
      ∃ (r : Region) (T P : ℝ), Smooth r T P ∧ r.MW ≠ 1000 ∧ r.Cp T P ≠ 0 ∧ r.G T P ≠ r.H T P - T * r.S T P := by
  refine ⟨fun r T P h hM hC k => ?_, fun r T P h => ?_, demoRegion, 540, 1000000, demo_smooth (by norm_num) (by norm_num),
    by norm_num [demoRegion], ?_, ?_⟩
  · have k' := (C80_basis_partial h).2.2
    have kT : Total temp 1 0 T P := Total.fst T P
    have kP : Total press 0 1 T P := Total.snd T P
    have e := Phase.Part.unique kT kP (by norm_num) k k'
    have := h.posMW
    rw [eq_div_iff (by positivity)] at e
    have : r.Cp T P * (r.MW / 1000 - 1) = 0 := by linear_combination e
    rcases mul_eq_zero.1 this with h0 | h0
    · exact hC h0
    · exact hM (by linarith)
  · have hT := h.posT.ne'; have hR := h.posR.ne'
    rw [(C80_basis_partial h).2.1]; field_simp; ring
  · norm_num [demoRegion, Region.Cp, Region.tau, Region.pi]
  · norm_num [demoRegion, Region.G, Region.H, Region.S, Region.tau, Region.pi]

end

/-- The methods of the class considered. -/
inductive Meth | V | G | U | S | H | Cv | Cp | dV_dP | dV_dT | dP_dT | dP_dV
  deriving DecidableEq

/-- How an object came about: `__init__` (367-392), `to` with temperature and pressure (424-426), with temperature or
pressure and a volume (428-436). -/
inductive Origin | init | toTP | toTV | toPV
  deriving DecidableEq

/-- The outcome of a call. -/
inductive Outcome | value | returnsNone | typeError | unboundLocal
  deriving DecidableEq

/-- A method called first on a fresh object in region 1, 2, 3 or 5. `V` (467) is shadowed by the attribute `new.V = V`
of 430 and 435, a number. `U` (485) calls the number `self.T`. `Cv` (521-546) ends without `return`. In region 3 only
`Cp` has a branch of its own (555); the others reach `self._X = X` with `X` unassigned. -/
def call (o : Origin) (region : ℕ) : Meth → Outcome
  | .V => if o = .toTV ∨ o = .toPV then .typeError else .value
  | .U => if region ≠ 3 then .typeError else .unboundLocal
  | .Cv => .returnsNone
  | .Cp => .value
  | _ => if region ≠ 3 then .value else .unboundLocal

/-- `to_TP_zs` (396-415): the stored state of the receiver and the state asked for give the state of the receiver
afterwards (`_rho_mass`, `_V`, `region`, `pi`, `tau` are set on `self`, `T` and `P` are not) and the result. -/
def to_TP_zs {α : Type} (stored asked : α) : α × α × Option Unit :=
  -- (state for which `T`, `P` of the receiver hold, state for which its other attributes hold, result)
  (stored, asked, none)

/-- **C80, refuted.** Not every method returns a number: the internal energy and the heat capacity at constant volume
never do, the volume does not on an object made from a volume, and in region 3 most methods fail. -/
theorem C80_calls_fails :
    (∀ o g, call o g .U ≠ .value) ∧ (∀ o g, call o g .Cv ≠ .value) ∧
      (∀ g, call .toTV g .V ≠ .value ∧ call .toPV g .V ≠ .value) ∧
      ∀ o m, call o 3 m = .value → m = .Cp ∨ m = .V := by
  refine ⟨fun o g => ?_, fun o g => ?_, fun g => ⟨?_, ?_⟩, fun o m => ?_⟩
  · simp only [call]; split <;> exact fun e => nomatch e
  · exact fun e => nomatch e
  · simp [call]
  · simp [call]
  · cases m <;> simp [call]

/-- **C80, refuted.** `to_TP_zs` returns no phase, and leaves the receiver in a mixture of two states: its
temperature and pressure are the old ones, its density, volume and reduced variables the new ones. -/
theorem C80_to_TP_zs_fails {α : Type} (stored asked : α) (h : stored ≠ asked) :
    (to_TP_zs stored asked).2.2 = none ∧ (to_TP_zs stored asked).1 ≠ (to_TP_zs stored asked).2.1 := ⟨rfl, h⟩

example : (1 : ℕ) ≠ 2 := by decide

/-! ## Grayson-Streed and Chao-Seader -/

/-- Ten coefficients: those of the simple fluid, hydrogen or methane (40-42, 170-172). Their values are not modelled. -/
structure Coeffs where
  A : Fin 10 → ℝ

/-- The component, by its CAS number (145-152): regular, hydrogen, methane. The `else` branch at 151 is unreachable. -/
inductive Kind | regular | hydrogen | methane
  deriving DecidableEq

/-- `regular` (97) and the choice of coefficients (145-152). -/
def kindOf (cas : String) : Kind :=
  if cas ≠ "1333-74-0" ∧ cas ≠ "74-82-8" then .regular else if cas = "1333-74-0" then .hydrogen else .methane

/-- `log10_v0` (155) and `log10_v1` (156-158). -/
noncomputable def log10_v0 (c : Coeffs) (Tr Pr : ℝ) : ℝ :=
  c.A 0 + c.A 1 / Tr + c.A 2 * Tr + c.A 3 * Tr ^ 2 + c.A 4 * Tr ^ 3 + (c.A 5 + c.A 6 * Tr + c.A 7 * Tr ^ 2) * Pr
    + (c.A 8 + c.A 9 * Tr) * Pr ^ 2 - Real.logb 10 Pr
@[inherit_doc log10_v0] noncomputable def log10_v1 (version : ℕ) (Tr Pr : ℝ) : ℝ :=
  if Tr > 1 ∧ version > 0 then 1
  else -4.23893 + 8.65808 * Tr - 1.2206 / Tr - 3.15224 * Tr ^ 3 - 0.025 * (Pr - 0.6)

/-- One entry of `nus` (142-165) for a component, `regular` or not. -/
noncomputable def nu (version : ℕ) (c : Coeffs) (regular : Bool) (Tc Pc omega T P : ℝ) : ℝ :=
  let Tr := T / Tc
  let Pr := P / Pc
  if regular then (10 : ℝ) ^ (log10_v0 c Tr Pr + omega * log10_v1 version Tr Pr) else (10 : ℝ) ^ log10_v0 c Tr Pr

/-- An entry of `phis` (118) and of `lnphis` (128). -/
noncomputable def phi (gamma nu : ℝ) : ℝ := gamma * nu
@[inherit_doc phi] noncomputable def lnphi (gamma nu : ℝ) : ℝ := Real.log (phi gamma nu)

/-- `to` (72-81): what is made, if anything. -/
inductive ToResult | phase | none | error
  deriving DecidableEq

@[inherit_doc ToResult] def gsTo (T P V : Bool) : ToResult :=
  if T then if P then .phase else if V then .error else .none
  else if P && V then .error else .error

/-- **C81.** Fugacity coefficients are positive, and their logarithm is that of the activity coefficient plus that of
the pure component. -/
theorem C81_positive (version : ℕ) (c : Coeffs) (regular : Bool) (Tc Pc omega T P : ℝ) {gamma : ℝ} (hg : 0 < gamma) :
    0 < nu version c regular Tc Pc omega T P ∧
      0 < phi gamma (nu version c regular Tc Pc omega T P) ∧
      lnphi gamma (nu version c regular Tc Pc omega T P) = Real.log gamma + Real.log (nu version c regular Tc Pc omega T P) := by
  have h : 0 < nu version c regular Tc Pc omega T P := by
    simp only [nu]; split <;> exact Real.rpow_pos_of_pos (by norm_num) _
  exact ⟨h, mul_pos hg h, Real.log_mul hg.ne' h.ne'⟩

/-- **C81.** Without the acentric contribution the fugacity coefficient of the pure component times its reduced pressure is ten to the published polynomial in reduced temperature and pressure. -/
theorem C81_simple (version : ℕ) (c : Coeffs) (Tc Pc omega T P : ℝ) (hP : 0 < P / Pc) : nu version c false Tc Pc omega T P * (P / Pc) =
    (10 : ℝ) ^ (c.A 0 + c.A 1 * (T / Tc)⁻¹ + c.A 2 * (T / Tc) + c.A 3 * (T / Tc) ^ 2 + c.A 4 * (T / Tc) ^ 3 + c.A 5 * (P / Pc) + c.A 6 * (T / Tc) * (P / Pc) + c.A 7 * (T / Tc) ^ 2 * (P / Pc)
      + c.A 8 * (P / Pc) ^ 2 + c.A 9 * (T / Tc) * (P / Pc) ^ 2) := by
  have h10 : (10 : ℝ) ^ Real.logb 10 (P / Pc) = P / Pc := Real.rpow_logb (by norm_num) (by norm_num) hP
  simp only [nu, Bool.false_eq_true, if_false]
  conv_lhs => rw [← h10, ← Real.rpow_add (by norm_num)]
  rw [h10]
  congr 1
  simp only [log10_v0]
  ring

example : (0 : ℝ) < 101325 / 4000000 := by norm_num

/-- **C81.** The special coefficients are used for hydrogen and methane and for nothing else. -/
theorem C81_kind (cas : String) : (kindOf cas = .hydrogen ↔ cas = "1333-74-0") ∧ (kindOf cas = .methane ↔ cas = "74-82-8") := by
  unfold kindOf
  by_cases h1 : cas = "1333-74-0"
  · subst h1; decide
  · by_cases h2 : cas = "74-82-8"
    · subst h2; decide
    · simp [h1, h2]

/-- **C81.** Hydrogen and methane have no acentric contribution; for all others it is linear in the acentric factor,
and up to the critical temperature it is the published polynomial in both classes. -/
theorem C81_acentric (version : ℕ) (c : Coeffs) (Tc Pc omega T P : ℝ) :
    (0 < Tc → T ≤ Tc → log10_v1 version (T / Tc) (P / Pc) = -4.23893 + 8.65808 * (T / Tc) - 1.2206 / (T / Tc)
      - 3.15224 * (T / Tc) ^ 3 - 0.025 * (P / Pc - 0.6)) ∧
    nu version c false Tc Pc omega T P = nu version c false Tc Pc 0 T P ∧
      Real.logb 10 (nu version c true Tc Pc omega T P)
        = Real.logb 10 (nu version c true Tc Pc 0 T P) + omega * log10_v1 version (T / Tc) (P / Pc) := by
  refine ⟨fun h0 h1 => if_neg fun h2 => absurd h2.1 (not_lt.2 ((div_le_one h0).2 h1)), rfl, ?_⟩
  simp only [nu, if_true, zero_mul, add_zero]
  rw [Real.logb_rpow (by norm_num) (by norm_num), Real.logb_rpow (by norm_num) (by norm_num)]

theorem cont_v0 (c : Coeffs) (Pr : ℝ) {Tr : ℝ} (h : Tr ≠ 0) : ContinuousAt (fun Tr => log10_v0 c Tr Pr) Tr := by
  simp only [log10_v0]
  fun_prop (disch := assumption)

/-- **C81.** The pure component coefficient of the Chao-Seader class depends continuously on temperature. -/
theorem C81_continuous (c : Coeffs) (regular : Bool) {Tc : ℝ} (Pc omega P : ℝ) (hTc : 0 < Tc) {T : ℝ} (hT : 0 < T) :
    ContinuousAt (fun T => nu 0 c regular Tc Pc omega T P) T := by
  have n : T / Tc ≠ 0 := by positivity
  have d : ContinuousAt (fun T : ℝ => T / Tc) T := continuousAt_id.div_const Tc
  have k0 : ContinuousAt (fun T => log10_v0 c (T / Tc) (P / Pc)) T := ContinuousAt.comp (g := fun Tr => log10_v0 c Tr (P / Pc)) (cont_v0 c _ n) d
  have k1 : ContinuousAt (fun T => log10_v1 0 (T / Tc) (P / Pc)) T := by
    simp only [log10_v1, gt_iff_lt, lt_self_iff_false, and_false, if_false]
    fun_prop (disch := positivity)
  cases regular with
  | true =>
    simp only [nu, if_true]
    exact ContinuousAt.rpow continuousAt_const (k0.add (k1.const_mul omega)) (.inl (by norm_num))
  | false =>
    simp only [nu, Bool.false_eq_true, if_false]
    exact ContinuousAt.rpow continuousAt_const k0 (.inl (by norm_num))

/-- **C81, refuted.** That of the Grayson-Streed class jumps at the critical temperature of every component with an
acentric factor, at every pressure: the acentric term is set to one above it and is below a tenth there. -/
theorem C81_continuous_fails (c : Coeffs) {Tc Pc omega P : ℝ} (hTc : 0 < Tc) (hPc : 0 < Pc) (ho : omega ≠ 0) (hP : 0 < P) :
    ¬ ContinuousAt (fun T => nu 1 c true Tc Pc omega T P) Tc := by
  intro h
  have d : ContinuousAt (fun T : ℝ => T / Tc) Tc := continuousAt_id.div_const Tc
  have e1 : Tc / Tc = 1 := div_self hTc.ne'
  have k0 : ContinuousAt (fun T => log10_v0 c (T / Tc) (P / Pc)) Tc :=
    ContinuousAt.comp (g := fun Tr => log10_v0 c Tr (P / Pc)) (cont_v0 c _ (by rw [e1]; norm_num)) d
  -- the exponent would be continuous too
  have hl : ContinuousAt (fun T => log10_v1 1 (T / Tc) (P / Pc)) Tc := by
    have pos : nu 1 c true Tc Pc omega Tc P ≠ 0 := (C81_positive 1 c true Tc Pc omega Tc P (gamma := 1) one_pos).1.ne'
    have k : ContinuousAt (fun T => Real.logb 10 (nu 1 c true Tc Pc omega T P)) Tc := by
      simp only [Real.logb]
      exact (h.log pos).div_const _
    have e : (fun T => log10_v1 1 (T / Tc) (P / Pc))
        = fun T => (Real.logb 10 (nu 1 c true Tc Pc omega T P) - log10_v0 c (T / Tc) (P / Pc)) / omega := by
      funext T
      simp only [nu, if_true]
      rw [Real.logb_rpow (by norm_num) (by norm_num)]
      field_simp
      ring
    rw [e]
    exact (k.sub k0).div_const _
  -- from the right it is one
  have hr : Filter.Tendsto (fun T => log10_v1 1 (T / Tc) (P / Pc)) (nhdsWithin Tc (Set.Ioi Tc)) (nhds 1) := by
    refine tendsto_const_nhds.congr' ?_
    filter_upwards [self_mem_nhdsWithin] with T hT
    have : (1 : ℝ) < T / Tc := (one_lt_div hTc).2 hT
    simp [log10_v1, this]
  have hu := tendsto_nhds_unique hr (hl.tendsto.mono_left nhdsWithin_le_nhds)
  simp only [e1, log10_v1, gt_iff_lt, lt_self_iff_false, false_and, if_false] at hu
  have : 0 < P / Pc := by positivity
  norm_num at hu
  linarith

example : (0 : ℝ) < 190.564 ∧ (0 : ℝ) < 4599000 ∧ (0.2 : ℝ) ≠ 0 ∧ (0 : ℝ) < 100000 := by norm_num

/-- **C81, refuted.** A phase at new conditions needs two of temperature, pressure and volume; with the temperature
alone `to` neither makes a phase nor raises an error. -/
theorem C81_to_fails : gsTo true false false = .none ∧ (∀ V, gsTo true true V = .phase) ∧ gsTo true false true = .error ∧
    ∀ P V, gsTo false P V = .error := by decide

/-! ## `CombinedPhase` -/

/-- What can go wrong. -/
inductive Err | typeError | valueError | attributeError
  deriving DecidableEq

/-- The three groups of properties (92-122). -/
inductive Group | equilibrium | thermal | volume
  deriving DecidableEq

/-- The attributes of the object (40-43). `other_props` is a dictionary from names to indices, or `None`. -/
structure Combined where
  equilibrium : Option ℕ
  thermal : Option ℕ
  volume : Option ℕ
  other_props : Option (String → Option ℕ)

/-- The index for a group. -/
def Combined.group (c : Combined) : Group → Option ℕ
  | .equilibrium => c.equilibrium
  | .thermal => c.thermal
  | .volume => c.volume

/-- A generated method (66-90) and `lnphis` (50-56): the index of the phase that answers. `name in None` raises. -/
def Combined.answer (c : Combined) (g : Group) (name : String) : Except Err ℕ :=
  match c.other_props with
  | none => .error .typeError
  | some d => match d name with
    | some i => .ok i
    | none => match c.group g with
      | some i => .ok i
      | none => .error .valueError

/-- Methods by name: the key they look up, and their group (50-63, 92-122). -/
def method : String → Option (Group × String)
  | "lnphis" => some (.equilibrium, "lnphis")
  | "lnphis_G_min" => some (.equilibrium, "lnphis")
  | "V" => some (.volume, "V")
  | "dP_dT" => some (.volume, "dP_dT")
  | "dP_dT_V" => some (.volume, "dP_dT")
  | "H" => some (.thermal, "H")
  | "S" => some (.thermal, "S")
  | "Cp" => some (.thermal, "Cp")
  | "dH_dT" => some (.thermal, "dH_dT")
  | "dS_dT" => some (.thermal, "dS_dT")
  | "dS_dT_P" => some (.thermal, "dS_dT_P")
  | _ => none

/-- `G` of the base class (`phase.py` 1450) on a combined phase: `H()`, then the attribute `T`, which the constructor
does not set (29-48). -/
def Combined.G (c : Combined) : Except Err ℕ :=
  match c.answer .thermal "H" with
  | .error e => .error e
  | .ok _ => .error .attributeError

/-- **C82.** With a dictionary, a call is answered by the phase the dictionary names for it, else by the phase of its
group, else it is an error; nothing else decides. -/
theorem C82_answer (c : Combined) (d : String → Option ℕ) (h : c.other_props = some d) (g : Group) (name : String) :
    (∀ i, d name = some i → c.answer g name = .ok i) ∧
      (∀ i, d name = none → c.group g = some i → c.answer g name = .ok i) ∧
      (d name = none → c.group g = none → c.answer g name = .error .valueError) := by
  refine ⟨fun i hi => ?_, fun i h1 h2 => ?_, fun h1 h2 => ?_⟩
  · simp only [Combined.answer, h, hi]
  · simp only [Combined.answer, h, h1, h2]
  · simp only [Combined.answer, h, h1, h2]

example : (⟨some 0, some 1, none, some fun n => if n = "Cp" then some 2 else none⟩ : Combined).answer .thermal "Cp" = .ok 2 ∧
    (⟨some 0, some 1, none, some fun n => if n = "Cp" then some 2 else none⟩ : Combined).answer .thermal "H" = .ok 1 ∧
    (⟨some 0, some 1, none, some fun n => if n = "Cp" then some 2 else none⟩ : Combined).answer .volume "V"
      = .error .valueError := ⟨rfl, rfl, rfl⟩

/-- **C82, refuted.** With the default `other_props=None` no property can be computed at all; with any dictionary the
Gibbs energy cannot. -/
theorem C82_default_fails : (∀ c : Combined, c.other_props = none → ∀ g name, c.answer g name = .error .typeError) ∧
    ∀ (c : Combined) (i : ℕ), c.G ≠ .ok i := by
  refine ⟨fun c h g name => by simp only [Combined.answer, h], fun c i => ?_⟩
  simp only [Combined.G]
  split <;> exact fun e => nomatch e

/-- **C82, refuted.** Two names of one derivative need not be answered by the same phase: `dS_dT` and `dS_dT_P` are
looked up separately, while `dP_dT` and `dP_dT_V` share their entry. -/
theorem C82_alias_fails : (∃ (c : Combined) (i j : ℕ), i ≠ j ∧ method "dS_dT" = some (.thermal, "dS_dT") ∧
      method "dS_dT_P" = some (.thermal, "dS_dT_P") ∧ c.answer .thermal "dS_dT" = .ok i ∧ c.answer .thermal "dS_dT_P" = .ok j) ∧
    method "dP_dT" = method "dP_dT_V" :=
  ⟨⟨⟨none, some 0, none, some fun n => if n = "dS_dT" then some 1 else none⟩, 1, 0, by decide, rfl, rfl, rfl, rfl⟩, rfl⟩

end Verif.Special
