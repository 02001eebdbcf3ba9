import Verif.Phases.Phase
import Mathlib.Algebra.BigOperators.Fin
import Mathlib.Algebra.BigOperators.Field
import Mathlib.Analysis.Calculus.Deriv.Add

/-!
# The ideal gas phase (`thermo/phases/ideal_gas.py`)

* C63: the derivative methods of `IdealGas` are the partial derivatives they are named after.

The pure component heat capacities and their integrals from the reference temperature (`Cpigs_pure`,
`Cpig_integrals_pure`, `Cpig_integrals_over_T_pure`, `dCpigs_dT_pure`, `phase.py` 3582-3691) are arbitrary functions
of temperature; the theorems assume that the integrals differentiate to the heat capacities. Caches are not
modelled. The code stores temperature and pressure; the state here is temperature and volume, and the pressure is
the one `to` (284-309) computes from them.
-/

namespace Verif.Phase

open Verif.Departure (Along Total)
open Finset

/-! ## Model -/

/-- Composition and pure component ideal gas functions of a phase. -/
structure Ref (N : ℕ) where
  /-- gas constant -/
  R : ℝ
  /-- reference pressure `P_REF_IG` -/
  Pref : ℝ
  /-- mole fractions -/
  zs : Fin N → ℝ
  /-- heat capacities -/
  Cps : Fin N → ℝ → ℝ
  /-- their temperature derivatives -/
  dCps : Fin N → ℝ → ℝ
  /-- integrals of the heat capacities -/
  HI : Fin N → ℝ → ℝ
  /-- integrals of the heat capacities over temperature -/
  SI : Fin N → ℝ → ℝ

variable {N : ℕ}

namespace Ref
variable (r : Ref N) (T P V : ℝ)

/-- `Cp_ideal_gas` (`phase.py` 3848-3856), `Cp` (519-524). -/
def Cp : ℝ := ∑ i, r.zs i * r.Cps i T
/-- `d2H_dT2` of the ideal gas (560-565). -/
def dCp : ℝ := ∑ i, r.zs i * r.dCps i T
/-- `H_ideal_gas` (`phase.py` 3790-3797), `H` (463-472). -/
def H : ℝ := ∑ i, r.zs i * r.HI i T
/-- `S_ideal_gas` (`phase.py` 3815-3830), `S` (490-501). -/
noncomputable def S : ℝ :=
  0 - r.R * (∑ i, r.zs i * Real.log (r.zs i)) - r.R * Real.log (P * (1 / r.Pref)) + ∑ i, r.zs i * r.SI i T

/-- Pressure and temperature of `to` (287-296) from two of temperature, pressure and volume; `none` is the
`ValueError`. -/
noncomputable def toTP (R : ℝ) (T P V : Option ℝ) : Option (ℝ × ℝ) :=
  match T, P, V with
  | some T, _, some V => some (T, R * T / V)
  | none, some P, some V => some (P * V / R, P)
  | some T, some P, none => some (T, P)
  | _, _, _ => none

/-- `V` (324). -/
noncomputable def gasV : ℝ := r.R * T / P

/-- Pressure of the state, by `to` (288). -/
noncomputable def gasP : ℝ := r.R * T / V

/-- The methods of `IdealGas` that the base class relies on. Line numbers: `dP_dT` 338, `dP_dV` 353, `d2P_dT2` 369,
`d2P_dV2` 384-385, `d2P_dTdV` 401-402, `dH_dT`, `dH_dT_V` 526-527, `dH_dP` 541, `d2H_dTdP` 593, `dH_dP_V` 609,
`dH_dV_T` 625, `dH_dV_P` 641, `dS_dT` 659, `dS_dP` 675, `dS_dT_V` 706, `dS_dP_V` 723, `d2P_dTdP` 727, `d2P_dVdP`
730, `d2P_dVdT_TP` 733, `d2P_dT2_PV` 736. -/
noncomputable def idealGas : Methods where
  R := r.R
  P := r.gasP
  H T _ := r.H T
  S T V := r.S T (r.gasP T V)
  Cp T _ := r.Cp T
  dP_dT T V := r.gasP T V / T
  dP_dV T V := -r.gasP T V * r.gasP T V / (r.R * T)
  d2P_dT2 _ _ := 0
  d2P_dV2 T V := 2 * r.gasP T V * r.gasP T V * r.gasP T V / (r.R * r.R * T * T)
  d2P_dTdV T V := -r.gasP T V * r.gasP T V / (r.R * T * T)
  dH_dT T _ := r.Cp T
  dH_dT_V T _ := r.Cp T
  dH_dP _ _ := 0
  dH_dP_V T V := r.Cp T * (T / r.gasP T V)
  dH_dV_T _ _ := 0
  dH_dV_P T V := r.gasP T V * (1 / r.R) * r.Cp T
  dS_dT T _ := r.Cp T / T
  dS_dP T V := -r.R / r.gasP T V
  dS_dT_V T V := r.Cp T / T - r.R / r.gasP T V * (r.gasP T V / T)
  dS_dP_V T V := -r.R / r.gasP T V + r.Cp T / T * (T / r.gasP T V)
  d2H_dT2 T _ := r.dCp T
  d2H_dTdP _ _ := 0
  d2P_dTdP _ _ := 0
  d2P_dVdP _ _ := 0
  d2P_dVdT_TP _ _ := 0
  d2P_dT2_PV _ _ := 0

/-- The base class methods `IdealGas` replaces: `dV_dT` (411), `d2V_dP2` (417-418), `dV_dP` (424-425), `dT_dP`
(428), `dT_dV` (431); `d2T_dV2`, `d2V_dT2`, `d2T_dP2` (405-421) are zero and `PIP` (414) is one. -/
noncomputable def dV_dT : ℝ := r.R / r.gasP T V
@[inherit_doc dV_dT] noncomputable def d2V_dP2 : ℝ := 2 * r.R * T / (r.gasP T V * r.gasP T V * r.gasP T V)
@[inherit_doc dV_dT] noncomputable def dV_dP : ℝ := -r.R * T / (r.gasP T V * r.gasP T V)
@[inherit_doc dV_dT] noncomputable def dT_dP : ℝ := T / r.gasP T V
@[inherit_doc dV_dT] noncomputable def dT_dV : ℝ := r.gasP T V * (1 / r.R)

end Ref

/-- `PIP` of the base class (`phase.py` 3094-3095) with `phase_identification_parameter` of `chemicals`. -/
noncomputable def Methods.PIP (m : Methods) (T V : ℝ) : ℝ :=
  V * (m.d2P_dTdV T V / m.dP_dT T V - m.d2P_dV2 T V / m.dP_dV T V)

/-- The integrals differentiate to the heat capacities at `T`. -/
structure Ref.Ok (r : Ref N) (T : ℝ) : Prop where
  posR : 0 < r.R
  posPref : 0 < r.Pref
  posT : 0 < T
  H : ∀ i, HasDerivAt (r.HI i) (r.Cps i T) T
  S : ∀ i, HasDerivAt (r.SI i) (r.Cps i T / T) T
  C : ∀ i, HasDerivAt (r.Cps i) (r.dCps i T) T

section
variable {r : Ref N} {T V : ℝ}

theorem sum_deriv {z : Fin N → ℝ} {f : Fin N → ℝ → ℝ} {d : Fin N → ℝ} (h : ∀ i, HasDerivAt (f i) (d i) T) :
    HasDerivAt (fun t => ∑ i, z i * f i t) (∑ i, z i * d i) T := by
  have := HasDerivAt.fun_sum (u := univ) fun i _ => (h i).const_mul (z i)
  exact this

theorem tot_HI (h : r.Ok T) (V : ℝ) : Total (fun T _ => r.H T) (r.Cp T) 0 T V := Total.of_T (sum_deriv h.H) V

theorem tot_Cp (h : r.Ok T) (V : ℝ) : Total (fun T _ => r.Cp T) (r.dCp T) 0 T V := Total.of_T (sum_deriv h.C) V

theorem Ref.Ok.S_deriv (h : r.Ok T) : HasDerivAt (fun t => ∑ i, r.zs i * r.SI i t) (r.Cp T / T) T := by
  refine (sum_deriv h.S).congr_deriv ?_
  simp only [Ref.Cp, sum_div, mul_div_assoc]

/-- The ideal gas entropy along changes of temperature and of a pressure function. -/
theorem tot_S (h : r.Ok T) {p : ℝ → ℝ → ℝ} {pT pV : ℝ} (hp : Total p pT pV T V) (h0 : 0 < p T V) :
    Total (fun T V => r.S T (p T V)) (r.Cp T / T - r.R / p T V * pT) (-(r.R / p T V) * pV) T V := by
  have hR := h.posPref
  have k1 : Total (fun T V => p T V * (1 / r.Pref)) _ _ T V := hp.mul (Total.const (1 / r.Pref) T V)
  have hne : p T V * (1 / r.Pref) ≠ 0 := by positivity
  have k2 := (((Total.const (0 - r.R * ∑ i, r.zs i * Real.log (r.zs i)) T V).sub
    ((Total.const r.R T V).mul (k1.log hne)))).add (Total.of_T h.S_deriv V)
  refine (k2.congr_fun fun T V => rfl).congr ?_ ?_
  · field_simp; ring
  · field_simp; ring

theorem gasP_pos (h : r.Ok T) (hV : 0 < V) : 0 < r.gasP T V := by
  have := h.posR; have := h.posT; unfold Ref.gasP; positivity

theorem tot_gasP (h : r.Ok T) (hV : 0 < V) :
    Total r.gasP (r.idealGas.dP_dT T V) (r.idealGas.dP_dV T V) T V := by
  have hR := h.posR; have hT := h.posT
  refine (((Total.const r.R T V).mul (tot_T T V)).div (tot_V T V) hV.ne').congr ?_ ?_
  · simp only [Ref.idealGas, Ref.gasP, temp, vol]; field_simp; ring
  · simp only [Ref.idealGas, Ref.gasP, temp, vol]; field_simp; ring

/-- The supplied pressure derivatives of the ideal gas are right. -/
theorem idealGas_mech (h : r.Ok T) (hV : 0 < V) : Mech r.idealGas T V := by
  have hR := h.posR; have hT := h.posT
  have hP := gasP_pos h hV
  have kP := tot_gasP h hV
  refine ⟨h.posR, h.posT, hV, kP, ?_, ?_, ?_, ?_⟩
  · refine (kP.div (tot_T T V) hT.ne').congr_fun (fun T V => rfl) |>.congr ?_ ?_
    · simp only [Ref.idealGas, temp]; field_simp; ring
    · simp only [Ref.idealGas, temp]; field_simp; ring
  · refine ((((Total.const 0 T V).sub kP).mul kP).div ((Total.const r.R T V).mul (tot_T T V))
      (mul_ne_zero hR.ne' hT.ne')).congr_fun (fun T V => ?_) |>.congr ?_ ?_
    · simp only [Ref.idealGas, temp, zero_sub]
    · simp only [Ref.idealGas, temp]; field_simp; ring
    · simp only [Ref.idealGas, temp]; field_simp; ring
  · simp only [Ref.idealGas]; positivity
  · have : 0 < r.gasP T V * r.gasP T V / (r.R * T) := by positivity
    simp only [Ref.idealGas]
    intro h0
    rw [neg_mul, neg_div, neg_eq_zero] at h0
    exact this.ne' h0

/-- The supplied enthalpy and entropy derivatives of the ideal gas are right. -/
theorem idealGas_caloric (h : r.Ok T) (hV : 0 < V) : Caloric r.idealGas T V := by
  have hR := h.posR; have hT := h.posT
  have hP := gasP_pos h hV
  have m := idealGas_mech h hV
  have kP := m.hP
  have kH : Total r.idealGas.H (r.Cp T) 0 T V := tot_HI h V
  have kS : Total r.idealGas.S _ _ T V := tot_S h (tot_gasP h hV) hP
  have kT := tot_T T V; have kV := tot_V T V
  have o := m.neT
  refine ⟨⟨_, _, kH⟩, ⟨_, _, kS⟩, (part_iff kH kT kP (.inl o)).2 ?_, (part_iff kH kP kT (.inl one_ne_zero)).2 ?_,
    (part_iff kH kT kV (.inr one_ne_zero)).2 ?_, (part_iff kH kP kV (.inr one_ne_zero)).2 ?_,
    (part_iff kH kV kT (.inl one_ne_zero)).2 ?_, (part_iff kH kV kP (.inl o)).2 ?_,
    (part_iff kS kT kP (.inl o)).2 ?_, (part_iff kS kP kT (.inl one_ne_zero)).2 ?_,
    (part_iff kS kT kV (.inr one_ne_zero)).2 ?_, (part_iff kS kP kV (.inr one_ne_zero)).2 ?_⟩
  all_goals
    simp only [Ref.idealGas]
    generalize r.gasP T V = p at *
    field_simp
    try ring

theorem idealGas_consistent (h : r.Ok T) (hV : 0 < V) : Consistent r.idealGas T V := by
  have hR := h.posR; have hT := h.posT
  have hP := gasP_pos h hV
  have hP' : r.gasP T V * V = r.R * T := by unfold Ref.gasP; field_simp
  refine ⟨rfl, ?_, rfl, ?_⟩
  · simp only [Methods.dV_dT, Ref.idealGas]
    generalize r.gasP T V = p at *
    field_simp
    linarith
  · simp only [Methods.dV_dT, Ref.idealGas]
    generalize r.gasP T V = p at *
    field_simp

/-! ## C63 -/

/-- **C63.** Every state change of the ideal gas obeys `P V = R T` and keeps the given two values; with all three
given the pressure is ignored, with fewer than two the call fails. -/
theorem C63_to {R : ℝ} (hR : R ≠ 0) (T P V : ℝ) :
    (V ≠ 0 → ∀ p : Option ℝ, ∃ q, Ref.toTP R (some T) p (some V) = some (T, q) ∧ q * V = R * T) ∧
    (∃ t, Ref.toTP R none (some P) (some V) = some (t, P) ∧ P * V = R * t) ∧
    Ref.toTP R (some T) (some P) none = some (T, P) ∧
    Ref.toTP R (some T) none none = none ∧ Ref.toTP R none (some P) none = none ∧
    Ref.toTP R none none (some V) = none ∧ Ref.toTP R none none none = none := by
  refine ⟨fun hV p => ⟨R * T / V, by cases p <;> rfl, by field_simp⟩, ⟨P * V / R, rfl, by field_simp⟩, rfl, rfl, rfl,
    rfl, rfl⟩

/-- **C63.** Volume and pressure of a state are inverse to each other, and the replaced base class methods return
what the base class would. -/
theorem C63_overrides (h : r.Ok T) (hV : 0 < V) :
    r.gasV T (r.gasP T V) = V ∧ r.dV_dT T V = r.idealGas.dV_dT T V ∧ r.d2V_dP2 T V = r.idealGas.d2V_dP2 T V ∧
    r.dV_dP T V = r.idealGas.dV_dP T V ∧ r.dT_dP T V = r.idealGas.dT_dP T V ∧ r.dT_dV T V = r.idealGas.dT_dV T V ∧
    r.idealGas.d2T_dV2 T V = 0 ∧ r.idealGas.d2V_dT2 T V = 0 ∧ r.idealGas.d2T_dP2 T V = 0 ∧
    r.idealGas.PIP T V = 1 := by
  have hR := h.posR; have hT := h.posT
  simp only [Ref.dV_dT, Ref.d2V_dP2, Ref.dV_dP, Ref.dT_dP, Ref.dT_dV, Methods.dV_dT, Methods.d2V_dP2, Methods.dV_dP,
    Methods.dT_dP, Methods.dT_dV, Methods.d2T_dV2, Methods.d2V_dT2, Methods.d2T_dP2, Methods.PIP, Ref.gasV, Ref.idealGas,
    Ref.gasP]
  refine ⟨?_, ?_, ?_, ?_, ?_, ?_, ?_, ?_, ?_, ?_⟩ <;> (try field_simp) <;> (try ring)

/-- **C63.** The supplied first derivatives of the ideal gas are right and thermodynamically consistent; with
C61 and C62 so are all first derivatives, and the second ones that need only the pressure derivatives. -/
theorem C63_promises (h : r.Ok T) (hV : 0 < V) :
    Mech r.idealGas T V ∧ Caloric r.idealGas T V ∧ Consistent r.idealGas T V ∧
    Part r.idealGas.Cp temp r.idealGas.P (r.idealGas.d2H_dT2 T V) T V ∧
    Part r.idealGas.Cp r.idealGas.P temp (r.idealGas.d2H_dTdP T V) T V := by
  have m := idealGas_mech h hV
  refine ⟨m, idealGas_caloric h hV, idealGas_consistent h hV, (part_iff (tot_Cp h V) (tot_T T V) m.hP (.inl m.neT)).2 ?_,
    (part_iff (tot_Cp h V) m.hP (tot_T T V) (.inl one_ne_zero)).2 ?_⟩
  · simp only [Ref.idealGas]; ring
  · simp only [Ref.idealGas]; ring

/-- True values of the four mixed derivatives of the ideal gas pressure. -/
theorem idealGas_mixed (h : r.Ok T) (hV : 0 < V) :
    Part r.idealGas.dP_dT r.idealGas.P temp (1 / T) T V ∧
    Part r.idealGas.dP_dV r.idealGas.P temp (-2 * r.gasP T V / (r.R * T)) T V ∧
    Part r.idealGas.dP_dV temp r.idealGas.P (r.gasP T V * r.gasP T V / (r.R * T * T)) T V ∧
    Part r.idealGas.dP_dT temp r.idealGas.P (-r.gasP T V / (T * T)) T V := by
  have m := idealGas_mech h hV
  have hR := h.posR; have hT := h.posT
  have hP := gasP_pos h hV
  refine ⟨(part_iff m.hPT m.hP (tot_T T V) (.inl one_ne_zero)).2 ?_,
    (part_iff m.hPV m.hP (tot_T T V) (.inl one_ne_zero)).2 ?_, (part_iff m.hPV (tot_T T V) m.hP (.inl m.neT)).2 ?_,
    (part_iff m.hPT (tot_T T V) m.hP (.inl m.neT)).2 ?_⟩
  all_goals
    simp only [Ref.idealGas]
    generalize r.gasP T V = p at *
    field_simp
    try ring

/-- **C63 fails.** The four mixed second derivatives of the ideal gas pressure, which the code returns as zero, are
nonzero at every state. -/
theorem C63_mixed_fails (h : r.Ok T) (hV : 0 < V) :
    ¬ Part r.idealGas.dP_dT r.idealGas.P temp (r.idealGas.d2P_dTdP T V) T V ∧
    ¬ Part r.idealGas.dP_dV r.idealGas.P temp (r.idealGas.d2P_dVdP T V) T V ∧
    ¬ Part r.idealGas.dP_dV temp r.idealGas.P (r.idealGas.d2P_dVdT_TP T V) T V ∧
    ¬ Part r.idealGas.dP_dT temp r.idealGas.P (r.idealGas.d2P_dT2_PV T V) T V := by
  have m := idealGas_mech h hV
  have hR := h.posR; have hT := h.posT
  have hP := gasP_pos h hV
  obtain ⟨t1, t2, t3, t4⟩ := idealGas_mixed h hV
  have n1 : r.idealGas.dP_dT T V * 0 - r.idealGas.dP_dV T V * 1 ≠ 0 := by simpa using m.neV
  have n2 : 1 * r.idealGas.dP_dV T V - 0 * r.idealGas.dP_dT T V ≠ 0 := by simpa using m.neV
  refine ⟨fun k => ?_, fun k => ?_, fun k => ?_, fun k => ?_⟩
  · have e : (0 : ℝ) = 1 / T := Part.unique m.hP (tot_T T V) n1 k t1
    have : 0 < 1 / T := by positivity
    linarith
  · have e : (0 : ℝ) = -2 * r.gasP T V / (r.R * T) := Part.unique m.hP (tot_T T V) n1 k t2
    have : 0 < 2 * r.gasP T V / (r.R * T) := by positivity
    linarith [show -2 * r.gasP T V / (r.R * T) = -(2 * r.gasP T V / (r.R * T)) by ring]
  · have e : (0 : ℝ) = r.gasP T V * r.gasP T V / (r.R * T * T) := Part.unique (tot_T T V) m.hP n2 k t3
    have : 0 < r.gasP T V * r.gasP T V / (r.R * T * T) := by positivity
    linarith
  · have e : (0 : ℝ) = -r.gasP T V / (T * T) := Part.unique (tot_T T V) m.hP n2 k t4
    have : 0 < r.gasP T V / (T * T) := by positivity
    linarith [show -r.gasP T V / (T * T) = -(r.gasP T V / (T * T)) by ring]

/-- The ideal gas methods with the four mixed derivatives corrected. -/
noncomputable def Ref.corrected (r : Ref N) : Methods :=
  { r.idealGas with
    d2P_dTdP := fun T _ => 1 / T
    d2P_dVdP := fun T V => -2 * r.gasP T V / (r.R * T)
    d2P_dVdT_TP := fun T V => r.gasP T V * r.gasP T V / (r.R * T * T)
    d2P_dT2_PV := fun T V => -r.gasP T V / (T * T) }

/-- **C63.** With the four derivatives corrected, all promises hold, so the base class results are right. -/
theorem C63_corrected (h : r.Ok T) (hV : 0 < V) : Mech r.corrected T V ∧ Second r.corrected T V := by
  have m := idealGas_mech h hV
  obtain ⟨t1, t2, t3, t4⟩ := idealGas_mixed h hV
  obtain ⟨-, -, -, c1, c2⟩ := C63_promises h hV
  exact ⟨⟨m.posR, m.posT, m.posV, m.hP, m.hPT, m.hPV, m.neT, m.neV⟩, ⟨⟨_, _, tot_Cp h V⟩, c1, c2, t4, t1, t3, t2⟩⟩

/-- **C63 fails.** `dCv_dT_P` of the ideal gas is `R/T` too small and `dCv_dP_T` is `R/P` instead of zero: the heat
capacity `Cv = Cp - R` does not depend on pressure. -/
theorem C63_Cv_fails (h : r.Ok T) (hV : 0 < V) :
    r.idealGas.Cv T V = r.Cp T - r.R ∧
    r.idealGas.dCv_dT_P T V = r.dCp T - r.R / T ∧ Part r.idealGas.Cv temp r.idealGas.P (r.dCp T) T V ∧
    r.idealGas.dCv_dP_T T V = r.R / r.gasP T V ∧ Part r.idealGas.Cv r.idealGas.P temp 0 T V := by
  have hR := h.posR; have hT := h.posT
  have hP := gasP_pos h hV
  obtain ⟨m, s⟩ := C63_corrected h hV
  obtain ⟨q1, q2, -⟩ := C62_second m s
  have e1 : r.corrected.dCv_dT_P T V = r.dCp T := by
    simp only [Methods.dCv_dT_P, Ref.corrected, Ref.idealGas]
    generalize r.gasP T V = p at *
    field_simp
    ring
  have e2 : r.corrected.dCv_dP_T T V = 0 := by
    simp only [Methods.dCv_dP_T, Methods.dV_dT, Methods.d2V_dPdT, Ref.corrected, Ref.idealGas]
    generalize r.gasP T V = p at *
    field_simp
    ring
  rw [e1] at q1
  rw [e2] at q2
  refine ⟨?_, ?_, q1, ?_, q2⟩
  · simp only [Methods.Cv, Ref.idealGas]
    generalize r.gasP T V = p at *
    field_simp
  · simp only [Methods.dCv_dT_P, Ref.idealGas]
    generalize r.gasP T V = p at *
    field_simp
    ring
  · simp only [Methods.dCv_dP_T, Methods.dV_dT, Methods.d2V_dPdT, Ref.idealGas]
    generalize r.gasP T V = p at *
    field_simp
    ring

/-- **C63 fails.** The speed of sound of an ideal gas does not depend on pressure, but `dspeed_of_sound_dP_T` is
negative at every state; `dspeed_of_sound_dT_P` differs from the true derivative at every state. -/
theorem C63_sound_fails (h : r.Ok T) (hV : 0 < V) (hc : r.R < r.Cp T) :
    Part r.idealGas.speed_of_sound r.idealGas.P temp 0 T V ∧ r.idealGas.dspeed_of_sound_dP_T T V < 0 ∧
    ∃ d, Part r.idealGas.speed_of_sound temp r.idealGas.P d T V ∧ d < r.idealGas.dspeed_of_sound_dT_P T V := by
  have hR := h.posR; have hT := h.posT
  have hP := gasP_pos h hV
  have hPV : r.gasP T V * V = r.R * T := by unfold Ref.gasP; field_simp
  obtain ⟨m, s⟩ := C63_corrected h hV
  obtain ⟨a1, a2, -, a4, -⟩ := C63_Cv_fails h hV
  have hCp : 0 < r.Cp T := hR.trans hc
  have hCv : 0 < r.Cp T - r.R := sub_pos.mpr hc
  have hst : r.corrected.dP_dV T V < 0 := by
    have : 0 < r.gasP T V * r.gasP T V / (r.R * T) := by positivity
    have e : r.corrected.dP_dV T V = -(r.gasP T V * r.gasP T V / (r.R * T)) := by
      simp only [Ref.corrected, Ref.idealGas]; ring
    rw [e]; linarith
  have b1 : r.corrected.Cv T V = r.Cp T - r.R := a1
  obtain ⟨w1, w2⟩ := (C62_second m s).2.2 hCp (b1 ▸ hCv) hst
  -- the root in the formulas
  have hq : ∃ q, 0 < q ∧ q = √(-V * V * (r.Cp T * (-r.gasP T V * r.gasP T V / (r.R * T)) / (r.Cp T - r.R))) := by
    refine ⟨_, Real.sqrt_pos.mpr ?_, rfl⟩
    have : 0 < V * V * (r.Cp T * (r.gasP T V * r.gasP T V / (r.R * T)) / (r.Cp T - r.R)) := by positivity
    linarith [show -V * V * (r.Cp T * (-r.gasP T V * r.gasP T V / (r.R * T)) / (r.Cp T - r.R))
      = V * V * (r.Cp T * (r.gasP T V * r.gasP T V / (r.R * T)) / (r.Cp T - r.R)) by ring]
  obtain ⟨q, hq0, hq⟩ := hq
  have f1 : r.corrected.dCv_dT_P T V = r.dCp T := by
    simp only [Methods.dCv_dT_P, Ref.corrected, Ref.idealGas]
    generalize r.gasP T V = p at *
    field_simp
    ring
  have f2 : r.corrected.dCv_dP_T T V = 0 := by
    simp only [Methods.dCv_dP_T, Methods.dV_dT, Methods.d2V_dPdT, Ref.corrected, Ref.idealGas]
    generalize r.gasP T V = p at *
    field_simp
    ring
  have g2 : r.corrected.dspeed_of_sound_dP_T T V = 0 := by
    simp only [Methods.dspeed_of_sound_dP_T, Methods.dspeed, f2, b1, Methods.dV_dP, Methods.dV_dT, Methods.dT_dP]
    simp only [Ref.corrected, Ref.idealGas, ← hq]
    generalize r.gasP T V = p at *
    field_simp
    linear_combination (2 * q * r.Cp T * (r.Cp T - r.R)) * hPV
  have g1 : r.idealGas.dspeed_of_sound_dT_P T V - r.corrected.dspeed_of_sound_dT_P T V
      = q / (2 * T) * (1 + r.R / (r.Cp T - r.R)) := by
    simp only [Methods.dspeed_of_sound_dT_P, Methods.dspeed, f1, a1, a2, b1, Methods.dV_dT]
    simp only [Ref.corrected, Ref.idealGas, ← hq]
    generalize r.gasP T V = p at *
    field_simp
    ring
  have g3 : r.idealGas.dspeed_of_sound_dP_T T V = -(q / r.gasP T V * (1 + r.R / (2 * (r.Cp T - r.R)))) := by
    simp only [Methods.dspeed_of_sound_dP_T, Methods.dspeed, a1, a4, Methods.dV_dP, Methods.dV_dT, Methods.dT_dP]
    simp only [Ref.idealGas, ← hq]
    generalize r.gasP T V = p at *
    field_simp
    linear_combination (2 * r.Cp T * (r.Cp T - r.R)) * hPV
  rw [g2] at w2
  refine ⟨w2, ?_, _, w1, ?_⟩
  · have : 0 < q / r.gasP T V * (1 + r.R / (2 * (r.Cp T - r.R))) := by positivity
    rw [g3]; linarith
  · have : 0 < q / (2 * T) * (1 + r.R / (r.Cp T - r.R)) := by positivity
    linarith

end

/-! ## Examples -/

/-- Two components with constant heat capacity `7/2 R`. -/
noncomputable def demoRef : Ref 2 where
  R := 8
  Pref := 100000
  zs := ![1/4, 3/4]
  Cps _ _ := 28
  dCps _ _ := 0
  HI _ T := 28 * (T - 298)
  SI _ T := 28 * Real.log T

theorem demoRef_ok {T : ℝ} (hT : 0 < T) : demoRef.Ok T where
  posR := by norm_num [demoRef]
  posPref := by norm_num [demoRef]
  posT := hT
  H _ := by simpa [demoRef] using ((hasDerivAt_id T).sub_const 298).const_mul 28
  S _ := by
    have := (Real.hasDerivAt_log hT.ne').const_mul 28
    simpa [demoRef, div_eq_mul_inv] using this
  C _ := hasDerivAt_const T 28

/-- The hypotheses of C61, C62 and C63 hold for a mixture of two ideal gases at 300 K. -/
example : demoRef.Ok 300 ∧ (0 : ℝ) < 1 / 50 ∧ demoRef.R < demoRef.Cp 300 ∧ Mech demoRef.idealGas 300 (1 / 50) ∧
    Caloric demoRef.idealGas 300 (1 / 50) ∧ Consistent demoRef.idealGas 300 (1 / 50) ∧
    Second demoRef.corrected 300 (1 / 50) := by
  have h := demoRef_ok (T := 300) (by norm_num)
  have hV : (0 : ℝ) < 1 / 50 := by norm_num
  obtain ⟨a, b, c, -⟩ := C63_promises h hV
  refine ⟨h, hV, ?_, a, b, c, (C63_corrected h hV).2⟩
  norm_num [demoRef, Ref.Cp, Fin.sum_univ_two]

example : Ref.toTP 8 (some 300) (some 7) (some 2) = some (300, 1200) := by norm_num [Ref.toTP]

end Verif.Phase
