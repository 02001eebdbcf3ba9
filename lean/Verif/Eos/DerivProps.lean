import Verif.Eos.Departure
import Mathlib.Analysis.SpecialFunctions.ExpDeriv

/-!
# Derivative properties of a solved state (`thermo/eos.py` 4670-7084)

* C56: second derivatives of temperature and volume, density and compressibility derivatives.
* C57: derivatives of the departure functions, of fugacity and fugacity coefficient.

Every property is a formula in the stored first results. The liquid and the vapour versions are the same
formula (compared textually), except that some vapour versions return early for volumes above `1e50` or
infinite derivatives; those exits, and the replacement values for `δ² = 4ε`, are not modelled.

A state is a pair of temperature and volume, the pressure being that of the equation of state. A derivative
at constant pressure by temperature is the derivative along curves with tangent `(1, ∂V/∂T|P)`; by
`C31_reciprocal` those are the isobars.
-/

namespace Verif.Departure

open Verif.Cubic Filter Topology

/-- `d` is the derivative of `X` along every curve through `(T, V)` with tangent `(T', V')`. -/
def Along (T V T' V' : ℝ) (X : ℝ → ℝ → ℝ) (d : ℝ) : Prop :=
  ∀ τ ν : ℝ → ℝ, τ 0 = T → ν 0 = V → HasDerivAt τ T' 0 → HasDerivAt ν V' 0 →
    HasDerivAt (fun t => X (τ t) (ν t)) d 0

/-- `X` has the total differential `xT dT + xV dV` at the state. -/
def Total (X : ℝ → ℝ → ℝ) (xT xV T V : ℝ) : Prop := ∀ T' V', Along T V T' V' X (xT * T' + xV * V')

namespace Total

variable {X Y : ℝ → ℝ → ℝ} {xT xV yT yV T V : ℝ}

theorem along (h : Total X xT xV T V) {T' V' d : ℝ} (hd : d = xT * T' + xV * V') : Along T V T' V' X d := by
  rw [hd]; exact h T' V'

theorem const (c T V : ℝ) : Total (fun _ _ => c) 0 0 T V := fun T' V' τ ν _ _ _ _ => by
  simpa using hasDerivAt_const (0 : ℝ) c

theorem of_T {g : ℝ → ℝ} {d : ℝ} (h : HasDerivAt g d T) (V : ℝ) : Total (fun T _ => g T) d 0 T V :=
  fun T' V' τ ν h1 h2 h3 h4 => by
    have := (h1 ▸ h : HasDerivAt g d (τ 0)).comp 0 h3
    exact this.congr_deriv (by ring)

theorem of_V {g : ℝ → ℝ} {d : ℝ} (T : ℝ) (h : HasDerivAt g d V) : Total (fun _ V => g V) 0 d T V :=
  fun T' V' τ ν h1 h2 h3 h4 => by
    have := (h2 ▸ h : HasDerivAt g d (ν 0)).comp 0 h4
    exact this.congr_deriv (by ring)

theorem fst (T V : ℝ) : Total (fun T _ => T) 1 0 T V := of_T (hasDerivAt_id T) V
theorem snd (T V : ℝ) : Total (fun _ V => V) 0 1 T V := of_V T (hasDerivAt_id V)

theorem add (h : Total X xT xV T V) (k : Total Y yT yV T V) :
    Total (fun T V => X T V + Y T V) (xT + yT) (xV + yV) T V := fun T' V' τ ν h1 h2 h3 h4 => by
  refine HasDerivAt.congr_deriv ((h T' V' τ ν h1 h2 h3 h4).add (k T' V' τ ν h1 h2 h3 h4)) ?_
  ring

theorem sub (h : Total X xT xV T V) (k : Total Y yT yV T V) :
    Total (fun T V => X T V - Y T V) (xT - yT) (xV - yV) T V := fun T' V' τ ν h1 h2 h3 h4 => by
  refine HasDerivAt.congr_deriv ((h T' V' τ ν h1 h2 h3 h4).sub (k T' V' τ ν h1 h2 h3 h4)) ?_
  ring

theorem mul (h : Total X xT xV T V) (k : Total Y yT yV T V) :
    Total (fun T V => X T V * Y T V) (xT * Y T V + X T V * yT) (xV * Y T V + X T V * yV) T V :=
  fun T' V' τ ν h1 h2 h3 h4 => by
    refine HasDerivAt.congr_deriv ((h T' V' τ ν h1 h2 h3 h4).fun_mul (k T' V' τ ν h1 h2 h3 h4)) ?_
    simp only [h1, h2]
    ring

theorem div (h : Total X xT xV T V) (k : Total Y yT yV T V) (h0 : Y T V ≠ 0) :
    Total (fun T V => X T V / Y T V) ((xT * Y T V - X T V * yT) / Y T V ^ 2)
      ((xV * Y T V - X T V * yV) / Y T V ^ 2) T V := fun T' V' τ ν h1 h2 h3 h4 => by
  refine HasDerivAt.congr_deriv ((h T' V' τ ν h1 h2 h3 h4).fun_div (k T' V' τ ν h1 h2 h3 h4)
    (by simpa only [h1, h2] using h0)) ?_
  simp only [h1, h2]
  ring

theorem log (h : Total X xT xV T V) (h0 : X T V ≠ 0) :
    Total (fun T V => Real.log (X T V)) (xT / X T V) (xV / X T V) T V := fun T' V' τ ν h1 h2 h3 h4 => by
  refine HasDerivAt.congr_deriv ((h T' V' τ ν h1 h2 h3 h4).log (by simpa only [h1, h2] using h0)) ?_
  simp only [h1, h2]
  ring

theorem exp (h : Total X xT xV T V) :
    Total (fun T V => Real.exp (X T V)) (Real.exp (X T V) * xT) (Real.exp (X T V) * xV) T V :=
  fun T' V' τ ν h1 h2 h3 h4 => by
    refine HasDerivAt.congr_deriv ((h T' V' τ ν h1 h2 h3 h4).exp) ?_
    simp only [h1, h2]
    ring

/-- Another way to write the differential. -/
theorem congr (h : Total X xT xV T V) {xT' xV' : ℝ} (h1 : xT' = xT) (h2 : xV' = xV) : Total X xT' xV' T V := by
  rw [h1, h2]; exact h

/-- Another way to write the function. -/
theorem congr_fun (h : Total X xT xV T V) (e : ∀ T V, Y T V = X T V) : Total Y xT xV T V := by
  have : Y = X := funext fun T => funext fun V => e T V
  rw [this]; exact h

end Total

/-! ## Stored first and second pressure derivatives as functions of the state -/

section

/-- `dP_dT` of the state (independent of the pressure argument). -/
noncomputable def pT (f : Fluid) (T V : ℝ) : ℝ := (f.main T (f.p T V) V).dP_dT
@[inherit_doc pT] noncomputable def pV (f : Fluid) (T V : ℝ) : ℝ := (f.main T (f.p T V) V).dP_dV
@[inherit_doc pT] noncomputable def pTT (f : Fluid) (T V : ℝ) : ℝ := (f.main T (f.p T V) V).d2P_dT2
@[inherit_doc pT] noncomputable def pVV (f : Fluid) (T V : ℝ) : ℝ := (f.main T (f.p T V) V).d2P_dV2
@[inherit_doc pT] noncomputable def pTV (f : Fluid) (T V : ℝ) : ℝ := (f.main T (f.p T V) V).d2P_dTdV
/-- `dV_dP` of the state. -/
noncomputable def V_P (f : Fluid) (T V : ℝ) : ℝ := (recip (f.main T (f.p T V) V)).dV_dP
@[inherit_doc V_P] noncomputable def T_P (f : Fluid) (T V : ℝ) : ℝ := (recip (f.main T (f.p T V) V)).dT_dP
@[inherit_doc V_P] noncomputable def V_T (f : Fluid) (T V : ℝ) : ℝ := (recip (f.main T (f.p T V) V)).dV_dT
@[inherit_doc V_P] noncomputable def T_V (f : Fluid) (T V : ℝ) : ℝ := (recip (f.main T (f.p T V) V)).dT_dV

variable {f : Fluid} {T V : ℝ}

theorem total_p (hs : f.Smooth) (hT : 0 < T) (ho : f.Off V) : Total f.p (pT f T V) (pV f T V) T V :=
  fun T' V' τ ν h1 h2 h3 h4 => by
    have := p_chain hs (t₀ := 0) (by rw [h1]; exact hT) (by rw [h2]; exact ho) h3 h4 (f.p T V)
    rw [h1, h2] at this
    exact this

theorem total_quad (f : Fluid) (T V : ℝ) :
    Total (fun _ V => V ^ 2 + f.delta * V + f.epsilon) 0 (2 * V + f.delta) T V := Total.of_V T (hq f V)

theorem total_cov (f : Fluid) (T V : ℝ) : Total (fun _ V => V - f.b) 0 1 T V :=
  Total.of_V T ((hasDerivAt_id V).sub_const f.b)

theorem pT_eq (f : Fluid) (T V : ℝ) : pT f T V = f.R / (V - f.b) - f.a1 T / (V ^ 2 + f.delta * V + f.epsilon) := by
  simp only [pT, Fluid.main, main, q_eq]; ring

theorem pV_eq (f : Fluid) (T V : ℝ) : pV f T V
    = f.a T * (2 * V + f.delta) / (V ^ 2 + f.delta * V + f.epsilon) ^ 2 - f.R * T / (V - f.b) ^ 2 := by
  simp only [pV, Fluid.main, main, q_eq]
  generalize V ^ 2 + f.delta * V + f.epsilon = Q
  generalize V - f.b = B
  ring

theorem total_pT (hs : f.Smooth) (hT : 0 < T) (ho : f.Off V) : Total (pT f) (pTT f T V) (pTV f T V) T V := by
  have h1 := ho.b; have h2 := ho.q
  refine ((((Total.const f.R T V).div (total_cov f T V) h1).sub
    ((Total.of_T (hs.d2 T hT) V).div (total_quad f T V) h2)).congr_fun (pT_eq f)).congr ?_ ?_
  · simp only [pTT, Fluid.main, main, q_eq]
    generalize V ^ 2 + f.delta * V + f.epsilon = Q at *
    generalize V - f.b = B at *
    field_simp
    ring
  · simp only [pTV, Fluid.main, main, q_eq]
    generalize V ^ 2 + f.delta * V + f.epsilon = Q at *
    generalize V - f.b = B at *
    field_simp
    ring

theorem total_pV (hs : f.Smooth) (hT : 0 < T) (ho : f.Off V) : Total (pV f) (pTV f T V) (pVV f T V) T V := by
  have h1 := ho.b; have h2 := ho.q
  have kz : Total (fun _ V : ℝ => 2 * V + f.delta) 0 2 T V :=
    Total.of_V T (by simpa using ((hasDerivAt_id V).const_mul 2).add_const f.delta)
  have e : ∀ T V, pV f T V = f.a T * (2 * V + f.delta)
      / ((V ^ 2 + f.delta * V + f.epsilon) * (V ^ 2 + f.delta * V + f.epsilon)) - f.R * T / ((V - f.b) * (V - f.b)) := by
    intro T V; rw [pV_eq, sq (V - f.b), sq (V ^ 2 + f.delta * V + f.epsilon)]
  refine (((((Total.of_T (hs.d1 T hT) V).mul kz).div ((total_quad f T V).mul (total_quad f T V))
    (mul_ne_zero h2 h2)).sub (((Total.const f.R T V).mul (Total.fst T V)).div ((total_cov f T V).mul (total_cov f T V))
    (mul_ne_zero h1 h1))).congr_fun e).congr ?_ ?_
  · simp only [pTV, Fluid.main, main, q_eq]
    generalize V ^ 2 + f.delta * V + f.epsilon = Q at *
    generalize V - f.b = B at *
    field_simp
    ring
  · simp only [pVV, Fluid.main, main, q_eq]
    generalize V ^ 2 + f.delta * V + f.epsilon = Q at *
    generalize V - f.b = B at *
    field_simp
    ring

/-- A state with non-zero pressure derivatives (away from spinodals), with positive pressure and volume. -/
structure State (f : Fluid) (T V : ℝ) : Prop where
  smooth : f.Smooth
  posT : 0 < T
  posV : 0 < V
  phys : f.Phys V
  posP : 0 < f.p T V
  hT : pT f T V ≠ 0
  hV : pV f T V ≠ 0

/-- The demonstration state. -/
theorem demo_state : State demo 1 3 := by
  refine ⟨demo_smooth, one_pos, by norm_num, demo_phys, ?_, ?_, ?_⟩
  · norm_num [demo, Fluid.p, pressure]
  · norm_num [pT, Fluid.main, main, demo]
  · norm_num [pV, Fluid.main, main, demo]

theorem V_P_eq (f : Fluid) (T V : ℝ) : V_P f T V = 1 / pV f T V := rfl
theorem T_P_eq (f : Fluid) (T V : ℝ) : T_P f T V = 1 / pT f T V := rfl
theorem V_T_eq (f : Fluid) (T V : ℝ) : V_T f T V = -pT f T V / pV f T V := by
  simp only [V_T, recip, pT, pV]; ring
theorem T_V_eq (f : Fluid) (T V : ℝ) : T_V f T V = -pV f T V / pT f T V := by
  simp only [T_V, recip, pT, pV, one_div, mul_inv, inv_inv, inv_neg]; ring

/-! ## C56 -/

/-- `d2T_dPdV` (4804-4807), in the stored `dT_dP`, `d2P_dTdV`, `dP_dT`, `dP_dV`, `d2P_dT2`. -/
def d2T_dPdV (T_P pTV pT pV pTT : ℝ) : ℝ :=
  let inverse_dP_dT2 := T_P * T_P
  let inverse_dP_dT3 := inverse_dP_dT2 * T_P
  (-(pTV * pT - pV * pTT)) * inverse_dP_dT3

/-- `d2V_dPdT` (4843-4844). -/
def d2V_dPdT (V_P pTV pV pT pVV : ℝ) : ℝ := (-(pTV * pV - pT * pVV)) * V_P * V_P * V_P

/-- `d2T_dP2` (4874-4875). -/
def d2T_dP2 (T_P pTT : ℝ) : ℝ := (-pTT) * T_P * T_P * T_P

/-- `d2V_dP2` (4902-4903). -/
def d2V_dP2 (V_P pVV : ℝ) : ℝ := (-pVV) * V_P * V_P * V_P

/-- `d2T_dV2` (4938-4943). -/
def d2T_dV2 (T_P pVV pT pV pTV pTT : ℝ) : ℝ :=
  let dT_dP2 := T_P * T_P
  dT_dP2 * (-(pVV * pT - pV * pTV) + (pTV * pT - pV * pTT) * T_P * pV)

/-- `d2V_dT2` (4992-4998). -/
def d2V_dT2 (V_P pV pTV pT pTT pVV : ℝ) : ℝ :=
  V_P * V_P * (-(pTT * pV - pT * pTV) + (pTV * pV - pT * pVV) * V_P * pT)

/-- The derived second derivatives as functions of the state. -/
noncomputable def T_PV (f : Fluid) (T V : ℝ) : ℝ := d2T_dPdV (T_P f T V) (pTV f T V) (pT f T V) (pV f T V) (pTT f T V)
@[inherit_doc T_PV] noncomputable def V_PT (f : Fluid) (T V : ℝ) : ℝ :=
  d2V_dPdT (V_P f T V) (pTV f T V) (pV f T V) (pT f T V) (pVV f T V)
@[inherit_doc T_PV] noncomputable def T_PP (f : Fluid) (T V : ℝ) : ℝ := d2T_dP2 (T_P f T V) (pTT f T V)
@[inherit_doc T_PV] noncomputable def V_PP (f : Fluid) (T V : ℝ) : ℝ := d2V_dP2 (V_P f T V) (pVV f T V)
@[inherit_doc T_PV] noncomputable def T_VV (f : Fluid) (T V : ℝ) : ℝ :=
  d2T_dV2 (T_P f T V) (pVV f T V) (pT f T V) (pV f T V) (pTV f T V) (pTT f T V)
@[inherit_doc T_PV] noncomputable def V_TT (f : Fluid) (T V : ℝ) : ℝ :=
  d2V_dT2 (V_P f T V) (pV f T V) (pTV f T V) (pT f T V) (pTT f T V) (pVV f T V)

theorem total_V_P (h : State f T V) : Total (V_P f) (-pTV f T V / pV f T V ^ 2) (-pVV f T V / pV f T V ^ 2) T V :=
  (((Total.const 1 T V).div (total_pV h.smooth h.posT h.phys.off) h.hV).congr_fun (V_P_eq f)).congr (by ring) (by ring)

theorem total_T_P (h : State f T V) : Total (T_P f) (-pTT f T V / pT f T V ^ 2) (-pTV f T V / pT f T V ^ 2) T V :=
  (((Total.const 1 T V).div (total_pT h.smooth h.posT h.phys.off) h.hT).congr_fun (T_P_eq f)).congr (by ring) (by ring)

theorem total_V_T (h : State f T V) : Total (V_T f)
    ((-pTT f T V * pV f T V + pT f T V * pTV f T V) / pV f T V ^ 2)
    ((-pTV f T V * pV f T V + pT f T V * pVV f T V) / pV f T V ^ 2) T V := by
  have k := ((Total.const 0 T V).sub (total_pT h.smooth h.posT h.phys.off)).div (total_pV h.smooth h.posT h.phys.off) h.hV
  refine (k.congr_fun fun T V => ?_).congr (by ring) (by ring)
  rw [V_T_eq, zero_sub]

theorem total_T_V (h : State f T V) : Total (T_V f)
    ((-pTV f T V * pT f T V + pV f T V * pTT f T V) / pT f T V ^ 2)
    ((-pVV f T V * pT f T V + pV f T V * pTV f T V) / pT f T V ^ 2) T V := by
  have k := ((Total.const 0 T V).sub (total_pV h.smooth h.posT h.phys.off)).div (total_pT h.smooth h.posT h.phys.off) h.hT
  refine (k.congr_fun fun T V => ?_).congr (by ring) (by ring)
  rw [T_V_eq, zero_sub]

/-- **C56.** The stored second derivatives of temperature and volume are the derivatives of the first ones:
`d2T_dPdV` of `dT/dP` by volume at constant pressure and of `dT/dV` by pressure at constant volume,
`d2V_dPdT` of `dV/dP` by temperature at constant pressure and of `dV/dT` by pressure at constant temperature,
and the four pure ones. -/
theorem C56_second (h : State f T V) :
    Along T V (T_V f T V) 1 (T_P f) (T_PV f T V) ∧ Along T V (T_P f T V) 0 (T_V f) (T_PV f T V) ∧
    Along T V 1 (V_T f T V) (V_P f) (V_PT f T V) ∧ Along T V 0 (V_P f T V) (V_T f) (V_PT f T V) ∧
    Along T V (T_P f T V) 0 (T_P f) (T_PP f T V) ∧ Along T V 0 (V_P f T V) (V_P f) (V_PP f T V) ∧
    Along T V (T_V f T V) 1 (T_V f) (T_VV f T V) ∧ Along T V 1 (V_T f T V) (V_T f) (V_TT f T V) := by
  have h1 := h.hT; have h2 := h.hV
  refine ⟨(total_T_P h).along ?_, (total_T_V h).along ?_, (total_V_P h).along ?_, (total_V_T h).along ?_,
    (total_T_P h).along ?_, (total_V_P h).along ?_, (total_T_V h).along ?_, (total_V_T h).along ?_⟩
  all_goals
    simp only [T_PV, V_PT, T_PP, V_PP, T_VV, V_TT, d2T_dPdV, d2V_dPdT, d2T_dP2, d2V_dP2, d2T_dV2, d2V_dT2, V_P_eq, T_P_eq,
      V_T_eq, T_V_eq]
    field_simp
    ring

example := C56_second demo_state

/-! ### Density and compressibility -/

/-- `dP_drho` (5137), `drho_dP` (5157), `dT_drho` (5226), `drho_dT` (5270), `d2P_dTdrho` (5316),
`d2T_dPdrho` (5338). -/
def dP_drho (V pV : ℝ) : ℝ := (-V) * V * pV
@[inherit_doc dP_drho] noncomputable def drho_dP (V V_P : ℝ) : ℝ := (-V_P) / (V * V)
@[inherit_doc dP_drho] def dT_drho (V T_V : ℝ) : ℝ := (-V) * V * T_V
@[inherit_doc dP_drho] noncomputable def drho_dT (V V_T : ℝ) : ℝ := (-V_T) / (V * V)
@[inherit_doc dP_drho] def d2P_dTdrho (V pTV : ℝ) : ℝ := (-(V * V)) * pTV
@[inherit_doc dP_drho] def d2T_dPdrho (V T_PV : ℝ) : ℝ := (-(V * V)) * T_PV
/-- `d2P_drho2` (5179), `d2rho_dP2` (5203), `d2T_drho2` (5247), `d2rho_dT2` (5293), `d2rho_dPdT` (5363). -/
def d2P_drho2 (V pVV pV : ℝ) : ℝ := (-V ^ 2) * ((-V ^ 2) * pVV - 2 * V * pV)
@[inherit_doc d2P_drho2] noncomputable def d2rho_dP2 (V V_PP V_P : ℝ) : ℝ := (-V_PP) / V ^ 2 + 2 * V_P ^ 2 / V ^ 3
@[inherit_doc d2P_drho2] def d2T_drho2 (V T_VV T_V : ℝ) : ℝ := (-V ^ 2) * ((-V ^ 2) * T_VV - 2 * V * T_V)
@[inherit_doc d2P_drho2] noncomputable def d2rho_dT2 (V V_TT V_T : ℝ) : ℝ := (-V_TT) / V ^ 2 + 2 * V_T ^ 2 / V ^ 3
@[inherit_doc d2P_drho2] noncomputable def d2rho_dPdT (V V_PT V_T V_P : ℝ) : ℝ := (-V_PT) / V ^ 2 + 2 * V_T * V_P / V ^ 3
/-- `dZ_dT` (5071-5072), `dZ_dP` (5099). -/
noncomputable def dZ_dT (R T P V V_T : ℝ) : ℝ :=
  let T_inv := 1 / T
  P * (1 / R) * T_inv * (V_T - V * T_inv)
@[inherit_doc dZ_dT] noncomputable def dZ_dP (R T P V V_P : ℝ) : ℝ := (V + P * V_P) / (T * R)
/-- `beta` (4697), `kappa` (4717), `dbeta_dT` (6735-6737), `dbeta_dP` (6766-6769). -/
noncomputable def beta (V V_T : ℝ) : ℝ := V_T / V
@[inherit_doc beta] noncomputable def kappa (V V_P : ℝ) : ℝ := (-V_P) / V
@[inherit_doc beta] noncomputable def dbeta_dT (V V_T V_TT : ℝ) : ℝ :=
  let V_inv := 1 / V
  V_inv * (V_TT - V_T * V_T * V_inv)
@[inherit_doc beta] noncomputable def dbeta_dP (V V_T V_P V_PT : ℝ) : ℝ :=
  let V_inv := 1 / V
  V_inv * (V_PT - V_T * V_P * V_inv)

theorem total_rho (h : State f T V) : Total (fun _ V : ℝ => 1 / V) 0 (-(1 / V ^ 2)) T V :=
  ((Total.const 1 T V).div (Total.snd T V) h.posV.ne').congr (by ring) (by ring)

/-- The tangent along which the density increases at unit rate at constant pressure, temperature: volumes
change by `-V²`. -/
theorem total_beta (h : State f T V) : Total (fun T V => beta V (V_T f T V))
    ((-pTT f T V * pV f T V + pT f T V * pTV f T V) / pV f T V ^ 2 / V)
    ((-pTV f T V * pV f T V + pT f T V * pVV f T V) / pV f T V ^ 2 / V - V_T f T V / V ^ 2) T V := by
  have hV := h.posV.ne'
  refine ((total_V_T h).div (Total.snd T V) hV).congr ?_ ?_
  · field_simp; ring
  · field_simp

/-- **C56.** The density derivatives: of the pressure on an isotherm and of the temperature on an isobar by
density (the volume changing at the rate `-V²`), of the density by pressure and temperature, the second ones
as derivatives of the first ones. -/
theorem C56_density (h : State f T V) :
    Along T V 0 (-V ^ 2) f.p (dP_drho V (pV f T V)) ∧
    Along T V 0 (-V ^ 2) (fun T V => dP_drho V (pV f T V)) (d2P_drho2 V (pVV f T V) (pV f T V)) ∧
    Along T V 0 (-V ^ 2) (pT f) (d2P_dTdrho V (pTV f T V)) ∧
    Along T V 0 (V_P f T V) (fun _ V => 1 / V) (drho_dP V (V_P f T V)) ∧
    Along T V 0 (V_P f T V) (fun T V => drho_dP V (V_P f T V)) (d2rho_dP2 V (V_PP f T V) (V_P f T V)) ∧
    Along T V (-V ^ 2 * T_V f T V) (-V ^ 2) (fun T _ => T) (dT_drho V (T_V f T V)) ∧
    Along T V (-V ^ 2 * T_V f T V) (-V ^ 2) f.p 0 ∧
    Along T V (-V ^ 2 * T_V f T V) (-V ^ 2) (fun T V => dT_drho V (T_V f T V)) (d2T_drho2 V (T_VV f T V) (T_V f T V)) ∧
    Along T V (-V ^ 2 * T_V f T V) (-V ^ 2) (T_P f) (d2T_dPdrho V (T_PV f T V)) ∧
    Along T V 1 (V_T f T V) (fun _ V => 1 / V) (drho_dT V (V_T f T V)) ∧
    Along T V 1 (V_T f T V) (fun T V => drho_dT V (V_T f T V)) (d2rho_dT2 V (V_TT f T V) (V_T f T V)) ∧
    Along T V 1 (V_T f T V) (fun T V => drho_dP V (V_P f T V)) (d2rho_dPdT V (V_PT f T V) (V_T f T V) (V_P f T V)) := by
  have h1 := h.hT; have h2 := h.hV; have hV := h.posV.ne'
  have kp := total_p h.smooth h.posT h.phys.off
  have kV := Total.snd T V
  have k0 := Total.const 0 T V
  have kVV := kV.mul kV
  refine ⟨kp.along ?_, (((k0.sub kV).mul kV).mul (total_pV h.smooth h.posT h.phys.off)).congr_fun ?_ |>.along ?_,
    (total_pT h.smooth h.posT h.phys.off).along ?_, (total_rho h).along ?_,
    ((k0.sub (total_V_P h)).div kVV (mul_ne_zero hV hV)).congr_fun ?_ |>.along ?_,
    (Total.fst T V).along ?_, kp.along ?_, (((k0.sub kV).mul kV).mul (total_T_V h)).congr_fun ?_ |>.along ?_,
    (total_T_P h).along ?_, (total_rho h).along ?_,
    ((k0.sub (total_V_T h)).div kVV (mul_ne_zero hV hV)).congr_fun ?_ |>.along ?_,
    ((k0.sub (total_V_P h)).div kVV (mul_ne_zero hV hV)).congr_fun ?_ |>.along ?_⟩
  all_goals first
    | (intro T V; simp only [dP_drho, drho_dP, dT_drho, drho_dT, zero_sub])
    | (simp only [dP_drho, drho_dP, dT_drho, drho_dT, d2P_dTdrho, d2T_dPdrho, d2P_drho2, d2rho_dP2, d2T_drho2, d2rho_dT2,
        d2rho_dPdT, T_PV, V_PT, T_PP, V_PP, T_VV, V_TT, d2T_dPdV, d2V_dPdT, d2T_dP2, d2V_dP2, d2T_dV2, d2V_dT2, V_P_eq,
        T_P_eq, V_T_eq, T_V_eq]
       field_simp
       ring)

example := C56_density demo_state

/-- **C56.** Compressibility factor, expansion coefficient and their derivatives. -/
theorem C56_compressibility (h : State f T V) :
    Along T V 1 (V_T f T V) (fun T V => f.p T V * V / (f.R * T)) (dZ_dT f.R T (f.p T V) V (V_T f T V)) ∧
    Along T V 0 (V_P f T V) (fun T V => f.p T V * V / (f.R * T)) (dZ_dP f.R T (f.p T V) V (V_P f T V)) ∧
    Along T V 1 (V_T f T V) (fun _ V => Real.log V) (beta V (V_T f T V)) ∧
    Along T V 0 (V_P f T V) (fun _ V => -Real.log V) (kappa V (V_P f T V)) ∧
    Along T V 1 (V_T f T V) (fun T V => beta V (V_T f T V)) (dbeta_dT V (V_T f T V) (V_TT f T V)) ∧
    Along T V 0 (V_P f T V) (fun T V => beta V (V_T f T V)) (dbeta_dP V (V_T f T V) (V_P f T V) (V_PT f T V)) := by
  have h1 := h.hT; have h2 := h.hV; have hV := h.posV.ne'; have hT := h.posT.ne'; have hR := h.smooth.R.ne'
  have kp := total_p h.smooth h.posT h.phys.off
  have kZ := (kp.mul (Total.snd T V)).div ((Total.const f.R T V).mul (Total.fst T V)) (mul_ne_zero hR hT)
  have kl := (Total.snd T V).log hV
  refine ⟨kZ.along ?_, kZ.along ?_, kl.along ?_, ((Total.const 0 T V).sub kl).congr_fun ?_ |>.along ?_,
    (total_beta h).along ?_, (total_beta h).along ?_⟩
  · simp only [dZ_dT, V_T_eq]
    field_simp
    ring
  · simp only [dZ_dP, V_P_eq]
    field_simp
    ring
  · simp only [beta]; ring
  · intro T V; rw [zero_sub]
  · simp only [kappa]; ring
  · simp only [dbeta_dT, V_TT, d2V_dT2, V_T_eq, V_P_eq]
    field_simp
    ring
  · simp only [dbeta_dP, V_PT, d2V_dPdT, V_T_eq, V_P_eq]
    field_simp
    ring

example := C56_compressibility demo_state

/-- `d2P_dVdP` (6871-6879), `d2P_dVdT_TP` (6931-6943), `d2P_dT2_PV` (6998-7008), `d2P_dTdP` (7054-7060). -/
noncomputable def d2P_dVdP (R T V b delta epsilon a V_P : ℝ) : ℝ :=
  let x2 := delta * V + epsilon + V * V
  let x51 := V + V + delta
  let x52 := 1 / (b - V)
  let x2_inv := 1 / x2
  2 * ((-R) * T * x52 * x52 * x52 + a * x2_inv * x2_inv * (1 - x51 * x51 * x2_inv)) * V_P
@[inherit_doc d2P_dVdP] noncomputable def d2P_dVdT_TP (R T V b delta epsilon a a1 V_T : ℝ) : ℝ :=
  let x2 := 2 * V_T
  let x1_inv := 1 / (b - V)
  let x3_inv := 1 / (delta * V + epsilon + V * V)
  let x4 := x3_inv * x3_inv
  let x6 := x2 * a
  let x7 := delta + V + V
  (-x1_inv) * x1_inv * R * (T * x2 * x1_inv + 1) + x4 * x6 + x4 * x7 * (a1 - x6 * x7 * x3_inv)
@[inherit_doc d2P_dVdP] noncomputable def d2P_dT2_PV (R V b delta epsilon a1 a2 V_T : ℝ) : ℝ :=
  let x3_inv := 1 / (delta * V + epsilon + V * V)
  let x50 := 1 / (b - V)
  (-R) * V_T * x50 * x50 + V_T * (delta + V + V) * a1 * x3_inv * x3_inv - a2 * x3_inv
@[inherit_doc d2P_dVdP] noncomputable def d2P_dTdP (R V b delta epsilon a1 V_P : ℝ) : ℝ :=
  let x0 := V - b
  let x1 := delta * V + epsilon + V * V
  (-R) * V_P / (x0 * x0) - ((-delta) * V_P - 2 * V * V_P) * a1 / (x1 * x1)

/-- **C56.** The derivatives of `dP/dV` and `dP/dT` by pressure at constant temperature and by temperature at
constant pressure. -/
theorem C56_mixed (h : State f T V) :
    Along T V 0 (V_P f T V) (pV f) (d2P_dVdP f.R T V f.b f.delta f.epsilon (f.a T) (V_P f T V)) ∧
    Along T V 1 (V_T f T V) (pV f) (d2P_dVdT_TP f.R T V f.b f.delta f.epsilon (f.a T) (f.a1 T) (V_T f T V)) ∧
    Along T V 1 (V_T f T V) (pT f) (d2P_dT2_PV f.R V f.b f.delta f.epsilon (f.a1 T) (f.a2 T) (V_T f T V)) ∧
    Along T V 0 (V_P f T V) (pT f) (d2P_dTdP f.R V f.b f.delta f.epsilon (f.a1 T) (V_P f T V)) := by
  have h1 := h.phys.off.b; have h2 := h.phys.off.q
  have kV := total_pV h.smooth h.posT h.phys.off
  have kT := total_pT h.smooth h.posT h.phys.off
  have e1 : f.delta * V + f.epsilon + V * V = V ^ 2 + f.delta * V + f.epsilon := by ring
  have e2 : f.b - V = -(V - f.b) := by ring
  have e3 : f.delta + V + V = 2 * V + f.delta := by ring
  have e4 : V + V + f.delta = 2 * V + f.delta := by ring
  refine ⟨kV.along ?_, kV.along ?_, kT.along ?_, kT.along ?_⟩
  all_goals
    simp only [d2P_dVdP, d2P_dVdT_TP, d2P_dT2_PV, d2P_dTdP, pVV, pTV, pTT, Fluid.main, main, q_eq, e1, e2, e3, e4]
    generalize V_P f T V = vp at *
    generalize V_T f T V = vt at *
    generalize V ^ 2 + f.delta * V + f.epsilon = Q at *
    generalize V - f.b = B at *
    field_simp
    ring

example := C56_mixed demo_state

/-! ## C57 -/

/-- `x4`, `x0`, `x1`, ... of the departure derivatives: `(δ² - 4ε)^(-1/2)`; the replacement values used when
it is infinite are not modelled. -/
noncomputable def invRoot (delta epsilon : ℝ) : ℝ := 1 / √(delta * delta - 4 * epsilon)

/-- `2 x0 catanh(x0 (V + V + δ)).real`. -/
noncomputable def atTerm (V delta epsilon : ℝ) : ℝ :=
  2 * invRoot delta epsilon * reAtanh (invRoot delta epsilon * (V + V + delta))

theorem atTerm_eq (hd : 0 < f.delta ^ 2 - 4 * f.epsilon) (V : ℝ) : atTerm V f.delta f.epsilon = hard f V := by
  have e : invRoot f.delta f.epsilon = x11of f.delta f.epsilon := by
    rw [x11_eq hd, invRoot]; congr 2; ring
  simp only [atTerm, hard, e]

/-- `dH_dep_dT` (5396-5407). -/
noncomputable def dH_dep_dT (R T P V delta epsilon a a1 a2 V_T : ℝ) : ℝ :=
  let x3 := delta * delta - 4 * epsilon
  let x4 := invRoot delta epsilon
  let x5 := delta + V + V
  let x6 := 1 / x3
  P * V_T - R + 2 * T * x4 * reAtanh (x4 * x5) * a2 - 4 * V_T * x6 * (T * a1 - a) / (x5 * x5 * x6 - 1)

/-- `dH_dep_dT_V` (5454-5462). -/
noncomputable def dH_dep_dT_V (R T V delta epsilon a2 pT : ℝ) : ℝ :=
  let x0 := invRoot delta epsilon
  (-R) + 2 * T * x0 * reAtanh (x0 * (V + V + delta)) * a2 + V * pT

/-- `dH_dep_dP` (5501-5506). -/
noncomputable def dH_dep_dP (T P V delta epsilon a a1 V_P : ℝ) : ℝ :=
  let x2 := delta * delta - 4 * epsilon
  let x4 := delta + V + V
  V + V_P * (P - 4 * (T * a1 - a) / (x4 * x4 - x2))

/-- `dH_dep_dP_V` (5549-5562). -/
noncomputable def dH_dep_dP_V (R T V delta epsilon a1 a2 T_P : ℝ) : ℝ :=
  let d2a_alpha_dTdP_V := a2 * T_P
  let da_alpha_dP_V := a1 * T_P
  let x0 := invRoot delta epsilon
  (-R) * T_P + V + 2 * x0 * (T * d2a_alpha_dTdP_V + T_P * a1 - da_alpha_dP_V) * reAtanh (x0 * (V + V + delta))

/-- `dS_dep_dT` (5664-5677). -/
noncomputable def dS_dep_dT (R T V b delta epsilon a1 a2 V_T : ℝ) : ℝ :=
  let x1 := 1 / V
  let x3 := R * V_T
  let x5 := delta * delta - 4 * epsilon
  let x6 := invRoot delta epsilon
  let x7 := delta + 2 * V
  let x8 := 1 / x5
  R * x1 * (V_T - V / T) - x1 * x3 - 4 * V_T * x8 * a1 / (x7 * x7 * x8 - 1) - x3 / (b - V)
    + 2 * x6 * reAtanh (x6 * x7) * a2

/-- `dS_dep_dT_V` (5734-5742). -/
noncomputable def dS_dep_dT_V (R T P V delta epsilon a2 pT : ℝ) : ℝ :=
  let x1 := invRoot delta epsilon
  R * (pT / P - 1 / T) + 2 * x1 * reAtanh (x1 * (V + V + delta)) * a2

/-- `dS_dep_dP` (5784-5793). -/
noncomputable def dS_dep_dP (R P V b delta epsilon a1 V_P : ℝ) : ℝ :=
  let x1 := 1 / V
  let x3 := R * V_P
  let x4 := 1 / (delta * delta - 4 * epsilon)
  (-x1) * x3 - 4 * V_P * x4 * a1 / (x4 * (delta + 2 * V) ^ 2 - 1) - x3 / (b - V) + R * x1 * (P * V_P + V) / P

/-- `dS_dep_dP_V` (5838-5847). -/
noncomputable def dS_dep_dP_V (R T P V delta epsilon a2 T_P : ℝ) : ℝ :=
  let d2a_alpha_dTdP_V := a2 * T_P
  let x0 := invRoot delta epsilon
  2 * x0 * reAtanh (x0 * (V + V + delta)) * d2a_alpha_dTdP_V - R * (P * T_P / T - 1) / P

/-- The departure functions of a state. -/
noncomputable def Hd (f : Fluid) (T V : ℝ) : ℝ := (f.main T (f.p T V) V).H_dep
@[inherit_doc Hd] noncomputable def Sd (f : Fluid) (T V : ℝ) : ℝ := (f.main T (f.p T V) V).S_dep

theorem total_hard (h : f.Phys V) (T : ℝ) :
    Total (fun _ V => hard f V) 0 (-(1 / (V ^ 2 + f.delta * V + f.epsilon))) T V := Total.of_V T (hard_deriv h)

theorem total_Hd (h : State f T V) : Total (Hd f)
    (hard f V * (T * f.a2 T) - f.R + pT f T V * V)
    (-(1 / (V ^ 2 + f.delta * V + f.epsilon)) * (T * f.a1 T - f.a T) + pV f T V * V + f.p T V) T V := by
  have k1 := (total_hard h.phys T).mul (((Total.fst T V).mul (Total.of_T (h.smooth.d2 T h.posT) V)).sub
    (Total.of_T (h.smooth.d1 T h.posT) V))
  have k2 := (k1.sub ((Total.const f.R T V).mul (Total.fst T V))).add
    ((total_p h.smooth h.posT h.phys.off).mul (Total.snd T V))
  refine (k2.congr_fun fun T V => main_H f T _ V).congr ?_ ?_
  · ring
  · ring

theorem total_Sd (h : State f T V) : Total (Sd f)
    (-f.R * (1 / T - pT f T V / f.p T V) + f.a2 T * hard f V)
    (f.R * (1 / (V - f.b) + pV f T V / f.p T V) - f.a1 T * (1 / (V ^ 2 + f.delta * V + f.epsilon))) T V := by
  have hb : 0 < V - f.b := sub_pos.mpr h.phys.b
  have hR := h.smooth.R; have hT := h.posT; have hP := h.posP
  have k1 := (((Total.const f.R T V).mul (Total.fst T V)).mul ((Total.const 1 T V).div (total_cov f T V) hb.ne')).div
    (total_p h.smooth h.posT h.phys.off) hP.ne'
  have hne : f.R * T * (1 / (V - f.b)) / f.p T V ≠ 0 := by positivity
  have k2 := ((Total.const (-f.R) T V).mul (k1.log hne)).add
    ((Total.of_T (h.smooth.d2 T h.posT) V).mul (total_hard h.phys T))
  refine (k2.congr_fun fun T V => main_S f T _ V).congr ?_ ?_
  · generalize f.p T V = P at *
    generalize V - f.b = B at *
    generalize hard f V = H at *
    field_simp
    ring
  · generalize f.p T V = P at *
    generalize V - f.b = B at *
    generalize V ^ 2 + f.delta * V + f.epsilon = Q at *
    field_simp
    ring

/-- The code's way of writing one over the quadratic. -/
theorem quad_disc (h : f.Phys V) {k : ℝ} :
    4 * k * (1 / (f.delta * f.delta - 4 * f.epsilon))
      / ((f.delta + V + V) * (f.delta + V + V) * (1 / (f.delta * f.delta - 4 * f.epsilon)) - 1)
      = k * (1 / (V ^ 2 + f.delta * V + f.epsilon)) := by
  have hd : f.delta * f.delta - 4 * f.epsilon ≠ 0 := by have := h.disc; nlinarith
  have hq := h.qpos.ne'
  have e : (f.delta + V + V) * (f.delta + V + V) = 4 * (V ^ 2 + f.delta * V + f.epsilon)
      + (f.delta * f.delta - 4 * f.epsilon) := by ring
  rw [e]
  generalize f.delta * f.delta - 4 * f.epsilon = D at *
  generalize V ^ 2 + f.delta * V + f.epsilon = Q at *
  have : (4 * Q + D) * (1 / D) - 1 = 4 * Q / D := by field_simp; ring
  rw [this]
  field_simp

/-- **C57.** The first derivatives of the departure enthalpy. -/
theorem C57_enthalpy (h : State f T V) :
    Along T V 1 (V_T f T V) (Hd f) (dH_dep_dT f.R T (f.p T V) V f.delta f.epsilon (f.a T) (f.a1 T) (f.a2 T) (V_T f T V)) ∧
    Along T V 1 0 (Hd f) (dH_dep_dT_V f.R T V f.delta f.epsilon (f.a2 T) (pT f T V)) ∧
    Along T V 0 (V_P f T V) (Hd f) (dH_dep_dP T (f.p T V) V f.delta f.epsilon (f.a T) (f.a1 T) (V_P f T V)) ∧
    Along T V (T_P f T V) 0 (Hd f) (dH_dep_dP_V f.R T V f.delta f.epsilon (f.a1 T) (f.a2 T) (T_P f T V)) ∧
    Along T V 0 1 (Hd f) (dH_dep_dP T (f.p T V) V f.delta f.epsilon (f.a T) (f.a1 T) (V_P f T V) * pV f T V) ∧
    Along T V (T_V f T V) 1 (Hd f) (dH_dep_dT f.R T (f.p T V) V f.delta f.epsilon (f.a T) (f.a1 T) (f.a2 T) (V_T f T V)
      * T_V f T V) := by
  have k := total_Hd h
  have hq := h.phys.qpos
  have h1 := h.hT; have h2 := h.hV
  have e0 := (atTerm_eq h.phys.disc V).symm
  simp only [atTerm] at e0
  have e3 : f.delta + V + V = V + V + f.delta := by ring
  have eT : dH_dep_dT f.R T (f.p T V) V f.delta f.epsilon (f.a T) (f.a1 T) (f.a2 T) (V_T f T V)
      = hard f V * (T * f.a2 T) - f.R + f.p T V * V_T f T V
        - V_T f T V * (T * f.a1 T - f.a T) * (1 / (V ^ 2 + f.delta * V + f.epsilon)) := by
    simp only [dH_dep_dT]
    rw [← quad_disc h.phys, e0, e3]
    ring
  have eP : dH_dep_dP T (f.p T V) V f.delta f.epsilon (f.a T) (f.a1 T) (V_P f T V)
      = V + V_P f T V * (f.p T V - (T * f.a1 T - f.a T) * (1 / (V ^ 2 + f.delta * V + f.epsilon))) := by
    simp only [dH_dep_dP]
    have e : (f.delta + V + V) * (f.delta + V + V) - (f.delta * f.delta - 4 * f.epsilon)
        = 4 * (V ^ 2 + f.delta * V + f.epsilon) := by ring
    rw [e]
    congr 3
    field_simp
  refine ⟨k.along ?_, k.along ?_, k.along ?_, k.along ?_, k.along ?_, k.along ?_⟩
  · rw [eT, V_T_eq]; field_simp; ring
  · simp only [dH_dep_dT_V]; rw [e0]; ring
  · rw [eP, V_P_eq]; field_simp; ring
  · simp only [dH_dep_dP_V]; rw [e0, T_P_eq]; field_simp; ring
  · rw [eP, V_P_eq]; field_simp; ring
  · rw [eT, V_T_eq, T_V_eq]; field_simp; ring

example := C57_enthalpy demo_state

/-- **C57.** The first derivatives of the departure entropy. -/
theorem C57_entropy (h : State f T V) :
    Along T V 1 (V_T f T V) (Sd f) (dS_dep_dT f.R T V f.b f.delta f.epsilon (f.a1 T) (f.a2 T) (V_T f T V)) ∧
    Along T V 1 0 (Sd f) (dS_dep_dT_V f.R T (f.p T V) V f.delta f.epsilon (f.a2 T) (pT f T V)) ∧
    Along T V 0 (V_P f T V) (Sd f) (dS_dep_dP f.R (f.p T V) V f.b f.delta f.epsilon (f.a1 T) (V_P f T V)) ∧
    Along T V (T_P f T V) 0 (Sd f) (dS_dep_dP_V f.R T (f.p T V) V f.delta f.epsilon (f.a2 T) (T_P f T V)) ∧
    Along T V 0 1 (Sd f) (dS_dep_dP f.R (f.p T V) V f.b f.delta f.epsilon (f.a1 T) (V_P f T V) * pV f T V) ∧
    Along T V (T_V f T V) 1 (Sd f) (dS_dep_dT f.R T V f.b f.delta f.epsilon (f.a1 T) (f.a2 T) (V_T f T V) * T_V f T V) := by
  have k := total_Sd h
  have hq := h.phys.qpos
  have hb : 0 < V - f.b := sub_pos.mpr h.phys.b
  have h1 := h.hT; have h2 := h.hV; have hT := h.posT; have hV := h.posV; have hP := h.posP
  have e0 := (atTerm_eq h.phys.disc V).symm
  simp only [atTerm] at e0
  have e3 : f.delta + 2 * V = f.delta + V + V := by ring
  have e4 : f.b - V = -(V - f.b) := by ring
  have eT : dS_dep_dT f.R T V f.b f.delta f.epsilon (f.a1 T) (f.a2 T) (V_T f T V)
      = -f.R / T - V_T f T V * f.a1 T * (1 / (V ^ 2 + f.delta * V + f.epsilon)) + f.R * V_T f T V / (V - f.b)
        + hard f V * f.a2 T := by
    simp only [dS_dep_dT]
    rw [← quad_disc h.phys, e0, e3, e4, show f.delta + V + V = V + V + f.delta by ring]
    generalize V - f.b = B at *
    generalize V_T f T V = vt at *
    field_simp
    ring
  have eP : dS_dep_dP f.R (f.p T V) V f.b f.delta f.epsilon (f.a1 T) (V_P f T V)
      = -V_P f T V * f.a1 T * (1 / (V ^ 2 + f.delta * V + f.epsilon)) + f.R * V_P f T V / (V - f.b) + f.R / f.p T V := by
    simp only [dS_dep_dP]
    have e5 : 1 / (f.delta * f.delta - 4 * f.epsilon) * (f.delta + 2 * V) ^ 2 - 1
      = (f.delta + V + V) * (f.delta + V + V) * (1 / (f.delta * f.delta - 4 * f.epsilon)) - 1 := by ring
    have e6 : 4 * V_P f T V * (1 / (f.delta * f.delta - 4 * f.epsilon)) * f.a1 T
      = 4 * (V_P f T V * f.a1 T) * (1 / (f.delta * f.delta - 4 * f.epsilon)) := by ring
    rw [e5, e6, quad_disc h.phys, e4]
    generalize V - f.b = B at *
    generalize V_P f T V = vp at *
    generalize f.p T V = P at *
    field_simp
    ring
  refine ⟨k.along ?_, k.along ?_, k.along ?_, k.along ?_, k.along ?_, k.along ?_⟩
  · rw [eT, V_T_eq]
    generalize f.p T V = P at *
    generalize V - f.b = B at *
    field_simp; ring
  · simp only [dS_dep_dT_V]; rw [e0]; ring
  · rw [eP, V_P_eq]
    generalize f.p T V = P at *
    generalize V - f.b = B at *
    generalize V ^ 2 + f.delta * V + f.epsilon = Q at *
    field_simp; ring
  · simp only [dS_dep_dP_V]; rw [e0, T_P_eq]
    generalize f.p T V = P at *
    field_simp; ring
  · rw [eP, V_P_eq]
    generalize f.p T V = P at *
    generalize V - f.b = B at *
    generalize V ^ 2 + f.delta * V + f.epsilon = Q at *
    field_simp; ring
  · rw [eT, V_T_eq, T_V_eq]
    generalize f.p T V = P at *
    generalize V - f.b = B at *
    generalize V ^ 2 + f.delta * V + f.epsilon = Q at *
    field_simp; ring

example := C57_entropy demo_state

/-- **C57.** On an isobar the enthalpy departure changes by the heat capacity departure (1446), and the
entropy departure by the heat capacity departure over the temperature; `Cp_minus_Cv` (4677) is the
difference of the heat capacities. -/
theorem C57_heat_capacity (h : State f T V) :
    dH_dep_dT f.R T (f.p T V) V f.delta f.epsilon (f.a T) (f.a1 T) (f.a2 T) (V_T f T V)
      = T * pT f T V * V_T f T V + (f.main T (f.p T V) V).Cv_dep - f.R ∧
    dS_dep_dT f.R T V f.b f.delta f.epsilon (f.a1 T) (f.a2 T) (V_T f T V)
      = (T * pT f T V * V_T f T V + (f.main T (f.p T V) V).Cv_dep - f.R) / T ∧
    -T * pT f T V * pT f T V * V_P f T V = T * pT f T V * V_T f T V := by
  have hq := h.phys.qpos
  have hb : 0 < V - f.b := sub_pos.mpr h.phys.b
  have h1 := h.hT; have h2 := h.hV; have hT := h.posT; have hV := h.posV; have hP := h.posP
  have hH := (C57_enthalpy h).1; have hS := (C57_entropy h).1
  -- any curve identifies the values
  have idT : ∀ v : ℝ, HasDerivAt (fun t : ℝ => T + t) 1 0 ∧ HasDerivAt (fun t : ℝ => V + v * t) v 0 := fun v =>
    ⟨by simpa using (hasDerivAt_id (0 : ℝ)).const_add T, by
      simpa using ((hasDerivAt_id (0 : ℝ)).const_mul v).const_add V⟩
  have eH := (hH _ _ (by simp) (by simp) (idT (V_T f T V)).1 (idT (V_T f T V)).2).unique
    (total_Hd h 1 (V_T f T V) _ _ (by simp) (by simp) (idT (V_T f T V)).1 (idT (V_T f T V)).2)
  have eS := (hS _ _ (by simp) (by simp) (idT (V_T f T V)).1 (idT (V_T f T V)).2).unique
    (total_Sd h 1 (V_T f T V) _ _ (by simp) (by simp) (idT (V_T f T V)).1 (idT (V_T f T V)).2)
  have ep := p_eq f T V
  have epT := pT_eq f T V
  have eVT : pV f T V * V_T f T V = -pT f T V := by rw [V_T_eq]; field_simp
  refine ⟨?_, ?_, ?_⟩
  · rw [eH, main_Cv h.phys]
    have : f.p T V - 1 / (V ^ 2 + f.delta * V + f.epsilon) * (T * f.a1 T - f.a T) = T * pT f T V := by
      rw [ep, epT]; ring
    linear_combination V * eVT + V_T f T V * this
  · rw [eS, main_Cv h.phys]
    have e1 : f.R * (1 / (V - f.b)) - f.a1 T * (1 / (V ^ 2 + f.delta * V + f.epsilon)) = pT f T V := by rw [epT]; ring
    have e2 : pV f T V / f.p T V * V_T f T V = -pT f T V / f.p T V := by rw [← eVT]; ring
    have e3 : (T * pT f T V * V_T f T V + T * f.a2 T * hard f V - f.R) / T
        = pT f T V * V_T f T V + f.a2 T * hard f V - f.R / T := by field_simp
    rw [e3]
    linear_combination V_T f T V * e1 + f.R * e2
  · rw [V_T_eq, V_P_eq]; ring

example := C57_heat_capacity demo_state

/-! ### Fugacity -/

/-- `fugacity` (4624-4626), `phi` (4650-4652); the overflow guards are not modelled. -/
noncomputable def phi (R T H S : ℝ) : ℝ := Real.exp ((H - T * S) * (1 / R) / T)

/-- `dfugacity_dT` (6566-6571). -/
noncomputable def dfugacity_dT (R T P H S dH dS : ℝ) : ℝ :=
  let T_inv := 1 / T
  let x4 := (1 / R) * (H - T * S)
  P * (T_inv * (1 / R) * (dH - T * dS - S) - x4 * T_inv * T_inv) * Real.exp (T_inv * x4)

/-- `dfugacity_dP` (6611-6614). -/
noncomputable def dfugacity_dP (R T P H S dH dS : ℝ) : ℝ :=
  let x0 := 1 / (R * T)
  (1 - P * x0 * (T * dS - dH)) * Real.exp ((-x0) * (T * S - H))

/-- `dphi_dT` (6661-6665). -/
noncomputable def dphi_dT (R T H S dH dS : ℝ) : ℝ :=
  let T_inv := 1 / T
  let x4 := T_inv * (T * S - H)
  (-(1 / R)) * T_inv * (T * dS + S - x4 - dH) * Real.exp ((-(1 / R)) * x4)

/-- `dphi_dP` (6700-6704). -/
noncomputable def dphi_dP (R T H S dH dS : ℝ) : ℝ :=
  let x2 := 1 / (R * T)
  (-x2) * (T * dS - dH) * Real.exp ((-x2) * (T * S - H))

/-- `A` is a differential of the departure functions along a tangent. -/
theorem along_phi {X Y : ℝ → ℝ → ℝ} {T V T' V' R hd sd : ℝ} (hR : R ≠ 0) (hT : T ≠ 0)
    (hX : Along T V T' V' X hd) (hY : Along T V T' V' Y sd) :
    Along T V T' V' (fun T V => phi R T (X T V) (Y T V))
      (Real.exp ((X T V - T * Y T V) * (1 / R) / T) * (((hd - (T' * Y T V + T * sd)) * (1 / R) * T
        - (X T V - T * Y T V) * (1 / R) * T') / T ^ 2)) := by
  intro τ ν h1 h2 h3 h4
  have a := hX τ ν h1 h2 h3 h4
  have b := hY τ ν h1 h2 h3 h4
  have c := (((a.sub (h3.fun_mul b)).mul_const (1 / R)).fun_div h3 (by rw [h1]; exact hT)).exp
  refine HasDerivAt.congr_deriv c ?_
  simp only [Pi.sub_apply, h1, h2]

/-- **C57.** Derivatives of the fugacity coefficient and of the fugacity by temperature at constant pressure
and by pressure at constant temperature. -/
theorem C57_fugacity (h : State f T V) :
    let HT := dH_dep_dT f.R T (f.p T V) V f.delta f.epsilon (f.a T) (f.a1 T) (f.a2 T) (V_T f T V)
    let ST := dS_dep_dT f.R T V f.b f.delta f.epsilon (f.a1 T) (f.a2 T) (V_T f T V)
    let HP := dH_dep_dP T (f.p T V) V f.delta f.epsilon (f.a T) (f.a1 T) (V_P f T V)
    let SP := dS_dep_dP f.R (f.p T V) V f.b f.delta f.epsilon (f.a1 T) (V_P f T V)
    Along T V 1 (V_T f T V) (fun T V => phi f.R T (Hd f T V) (Sd f T V)) (dphi_dT f.R T (Hd f T V) (Sd f T V) HT ST) ∧
    Along T V 0 (V_P f T V) (fun T V => phi f.R T (Hd f T V) (Sd f T V)) (dphi_dP f.R T (Hd f T V) (Sd f T V) HP SP) ∧
    Along T V 1 (V_T f T V) (fun T V => f.p T V * phi f.R T (Hd f T V) (Sd f T V))
      (dfugacity_dT f.R T (f.p T V) (Hd f T V) (Sd f T V) HT ST) ∧
    Along T V 0 (V_P f T V) (fun T V => f.p T V * phi f.R T (Hd f T V) (Sd f T V))
      (dfugacity_dP f.R T (f.p T V) (Hd f T V) (Sd f T V) HP SP) := by
  intro HT ST HP SP
  have hT := h.posT.ne'; have hR := h.smooth.R.ne'; have h2 := h.hV
  have aT := along_phi hR hT (C57_enthalpy h).1 (C57_entropy h).1
  have aP := along_phi hR hT (C57_enthalpy h).2.2.1 (C57_entropy h).2.2.1
  have pT' : Along T V 1 (V_T f T V) f.p 0 := (total_p h.smooth h.posT h.phys.off).along (by rw [V_T_eq]; field_simp; ring)
  have pP' : Along T V 0 (V_P f T V) f.p 1 := (total_p h.smooth h.posT h.phys.off).along (by rw [V_P_eq]; field_simp; ring)
  have mul : ∀ {X Y : ℝ → ℝ → ℝ} {T' V' x y : ℝ}, Along T V T' V' X x → Along T V T' V' Y y →
      Along T V T' V' (fun T V => X T V * Y T V) (x * Y T V + X T V * y) := by
    intro X Y T' V' x y hx hy τ ν h1 h2 h3 h4
    refine HasDerivAt.congr_deriv ((hx τ ν h1 h2 h3 h4).fun_mul (hy τ ν h1 h2 h3 h4)) ?_
    simp only [h1, h2]
  have bT := mul pT' aT
  have bP := mul pP' aP
  have cong : ∀ {X : ℝ → ℝ → ℝ} {T' V' x y : ℝ}, Along T V T' V' X x → y = x → Along T V T' V' X y := by
    intro X T' V' x y hx hy; rw [hy]; exact hx
  have e1 : ∀ H S : ℝ, -(1 / f.R) * (1 / T * (T * S - H)) = (H - T * S) * (1 / f.R) / T := fun H S => by
    field_simp; ring
  have e2 : ∀ H S : ℝ, -(1 / (f.R * T)) * (T * S - H) = (H - T * S) * (1 / f.R) / T := fun H S => by
    field_simp; ring
  have e3 : ∀ H S : ℝ, 1 / T * (1 / f.R * (H - T * S)) = (H - T * S) * (1 / f.R) / T := fun H S => by
    field_simp
  refine ⟨cong aT ?_, cong aP ?_, cong bT ?_, cong bP ?_⟩
  · simp only [dphi_dT, e1]
    generalize Real.exp _ = E
    show _ = E * (((HT - (1 * Sd f T V + T * ST)) * (1 / f.R) * T - (Hd f T V - T * Sd f T V) * (1 / f.R) * 1) / T ^ 2)
    generalize Hd f T V = H
    generalize Sd f T V = S
    clear_value HT ST
    field_simp
    ring
  · simp only [dphi_dP, e2]
    generalize Real.exp _ = E
    show _ = E * (((HP - (0 * Sd f T V + T * SP)) * (1 / f.R) * T - (Hd f T V - T * Sd f T V) * (1 / f.R) * 0) / T ^ 2)
    generalize Hd f T V = H
    generalize Sd f T V = S
    clear_value HP SP
    field_simp
    ring
  · simp only [dfugacity_dT, e3]
    show _ = 0 * phi f.R T (Hd f T V) (Sd f T V) + f.p T V * (Real.exp _ * (((HT - (1 * Sd f T V + T * ST)) * (1 / f.R) * T
      - (Hd f T V - T * Sd f T V) * (1 / f.R) * 1) / T ^ 2))
    generalize Real.exp _ = E
    generalize phi f.R T (Hd f T V) (Sd f T V) = φ
    generalize Hd f T V = H
    generalize Sd f T V = S
    clear_value HT ST
    field_simp
    ring
  · simp only [dfugacity_dP, e2]
    show _ = 1 * Real.exp _ + f.p T V * (Real.exp _ * (((HP - (0 * Sd f T V + T * SP)) * (1 / f.R) * T
      - (Hd f T V - T * Sd f T V) * (1 / f.R) * 0) / T ^ 2))
    generalize Real.exp _ = E
    generalize Hd f T V = H
    generalize Sd f T V = S
    clear_value HP SP
    field_simp
    ring

example := C57_fugacity demo_state

/-! ### Second derivatives of the departures -/

/-- `d2H_dep_dT2` (6007-6025). -/
noncomputable def d2H_dep_dT2 (T P V delta epsilon a a1 a2 a3 V_T V_TT : ℝ) : ℝ :=
  let x5 := invRoot delta epsilon
  let x6 := delta + V + V
  let x7 := 2 * x5 * reAtanh (x5 * x6)
  let x9 := x5 * x5
  let x10 := x6 * x6 * x9 - 1
  let x11 := x9 / x10
  let x12 := T * a1 - a
  P * V_TT + a2 * x7 + T * x7 * a3 - 4 * V_TT * x11 * x12 - 8 * T * x11 * a2 * V_T
    + 16 * x12 * x6 * V_T * V_T * x11 * x11

/-- `d2S_dep_dT2` (6137-6169). -/
noncomputable def d2S_dep_dT2 (R T V b delta epsilon a1 a2 a3 V_T V_TT : ℝ) : ℝ :=
  let V_inv := 1 / V
  let x2 := R * V_inv
  let x3 := V_inv * V_inv
  let x5 := V_T * V_T
  let x6 := R * x5
  let x7 := b - V
  let x8 := 1 / T
  let x9 := (-V) * x8 + V_T
  let x10 := V + V
  let x13 := invRoot delta epsilon
  let x14 := delta + x10
  let x15 := x13 * x13
  let x16 := x14 * x14 * x15 - 1
  let x51 := 1 / x16
  let x17 := x15 * x51
  let x50 := 1 / x7
  (-R) * V_TT * x50 - R * x3 * V_T * x9 - 4 * V_TT * x17 * a1 - V_TT * x2
    + 2 * x13 * reAtanh (x13 * x14) * a3 - 8 * x17 * V_T * a2 + x2 * x8 * x9
    + x2 * (V_TT - 2 * V_T * x8 + x10 * x8 * x8) + x3 * x6 - x6 * x50 * x50
    + 16 * x14 * a1 * x5 * x51 * x51 * x15 * x15

/-- `d2H_dep_dT2_V` (6215-6225). -/
noncomputable def d2H_dep_dT2_V (T V delta epsilon a2 a3 pTT : ℝ) : ℝ :=
  let x1 := invRoot delta epsilon
  let x2 := 2 * x1 * reAtanh (x1 * (V + V + delta))
  T * x2 * a3 + V * pTT + x2 * a2

/-- `d2S_dep_dT2_V` (6286-6302). -/
noncomputable def d2S_dep_dT2_V (R T P V delta epsilon a3 pT pTT : ℝ) : ℝ :=
  let x0 := 1 / T
  let P_inv := 1 / P
  let x3 := (-x0) * P + pT
  let x4 := R * P_inv
  let x5 := invRoot delta epsilon
  (-R) * pT * x3 * P_inv * P_inv + x0 * x3 * x4 + x4 * (pTT - 2 * x0 * pT + 2 * P * x0 * x0)
    + 2 * x5 * reAtanh (x5 * (V + V + delta)) * a3

/-- `d2H_dep_dTdP` (6378-6396). -/
noncomputable def d2H_dep_dTdP (T P V delta epsilon a a1 a2 V_T V_P V_PT : ℝ) : ℝ :=
  let x6 := 1 / (delta * delta - 4 * epsilon)
  let x7 := delta + V + V
  let x8_inv := 1 / (x6 * x7 * x7 - 1)
  let x9 := 4 * x6 * x8_inv
  let x10 := T * a1 - a
  P * V_PT - T * V_P * x9 * a2 + 16 * V_T * x10 * V_P * x7 * x6 * x6 * x8_inv * x8_inv + V_T - x10 * V_PT * x9

/-- `d2S_dep_dTdP` (6514-6548). -/
noncomputable def d2S_dep_dTdP (R T P V b delta epsilon a1 a2 V_T V_P V_PT : ℝ) : ℝ :=
  let V_inv := 1 / V
  let x3 := R * V_PT
  let x5 := V_T * V_inv * V_inv
  let x7 := R * V_P
  let x8_inv := 1 / (b - V)
  let x9 := 1 / T
  let x10 := P * V_P
  let x11 := V + x10
  let x12 := R / P
  let x13 := V_inv * x12
  let x16 := 1 / (delta * delta - 4 * epsilon)
  let x17 := delta + V + V
  let x50 := 1 / (x16 * x17 * x17 - 1)
  let x19 := 4 * x16 * x50
  (-V_inv) * x3 - x11 * x12 * x5 + x11 * x13 * x9 + x13 * (P * V_PT - V * x9 - x10 * x9 + V_T) - x19 * V_PT * a1
    - x19 * V_P * a2 - x3 * x8_inv - V_T * V_P * R * x8_inv * x8_inv + x5 * x7
    + 16 * x17 * a1 * V_T * V_P * x16 * x16 * x50 * x50

/-- The stored first derivatives as functions of the state. -/
noncomputable def Hd_T (f : Fluid) (T V : ℝ) : ℝ :=
  dH_dep_dT f.R T (f.p T V) V f.delta f.epsilon (f.a T) (f.a1 T) (f.a2 T) (V_T f T V)
@[inherit_doc Hd_T] noncomputable def Sd_T (f : Fluid) (T V : ℝ) : ℝ :=
  dS_dep_dT f.R T V f.b f.delta f.epsilon (f.a1 T) (f.a2 T) (V_T f T V)
@[inherit_doc Hd_T] noncomputable def Hd_TV (f : Fluid) (T V : ℝ) : ℝ :=
  dH_dep_dT_V f.R T V f.delta f.epsilon (f.a2 T) (pT f T V)
@[inherit_doc Hd_T] noncomputable def Sd_TV (f : Fluid) (T V : ℝ) : ℝ :=
  dS_dep_dT_V f.R T (f.p T V) V f.delta f.epsilon (f.a2 T) (pT f T V)

theorem invRoot_sq (hd : 0 < f.delta ^ 2 - 4 * f.epsilon) :
    invRoot f.delta f.epsilon * invRoot f.delta f.epsilon = 1 / (f.delta * f.delta - 4 * f.epsilon) := by
  have e : f.delta * f.delta - 4 * f.epsilon = f.delta ^ 2 - 4 * f.epsilon := by ring
  rw [invRoot, e, ← mul_div_mul_comm, Real.mul_self_sqrt hd.le, one_mul]

/-- `x9/x10` of the code is one quarter of one over the quadratic. -/
theorem quarter (h : f.Phys V) :
    1 / (f.delta * f.delta - 4 * f.epsilon)
      * (1 / ((f.delta + V + V) * (f.delta + V + V) * (1 / (f.delta * f.delta - 4 * f.epsilon)) - 1))
      = 1 / 4 * (1 / (V ^ 2 + f.delta * V + f.epsilon)) := by
  have := quad_disc h (k := 1)
  rw [mul_one, one_mul] at this
  rw [← this]; ring

theorem Hd_T_eq (hd : 0 < f.delta ^ 2 - 4 * f.epsilon) {T V : ℝ} (h : f.Phys V) : Hd_T f T V
    = hard f V * (T * f.a2 T) - f.R + f.p T V * V_T f T V
        - V_T f T V * (T * f.a1 T - f.a T) * (1 / (V ^ 2 + f.delta * V + f.epsilon)) := by
  have e0 := (atTerm_eq hd V).symm
  simp only [atTerm] at e0
  simp only [Hd_T, dH_dep_dT]
  rw [← quad_disc h, e0, show f.delta + V + V = V + V + f.delta by ring]
  ring

theorem Sd_T_eq (hd : 0 < f.delta ^ 2 - 4 * f.epsilon) {T V : ℝ} (h : f.Phys V) (hV : V ≠ 0) : Sd_T f T V
    = -f.R / T - V_T f T V * f.a1 T * (1 / (V ^ 2 + f.delta * V + f.epsilon)) + f.R * V_T f T V / (V - f.b)
        + hard f V * f.a2 T := by
  have e0 := (atTerm_eq hd V).symm
  simp only [atTerm] at e0
  have hb : V - f.b ≠ 0 := h.off.b
  simp only [Sd_T, dS_dep_dT]
  rw [← quad_disc h, e0, show f.delta + 2 * V = f.delta + V + V by ring, show f.b - V = -(V - f.b) by ring,
    show f.delta + V + V = V + V + f.delta by ring]
  generalize V - f.b = B at *
  generalize V_T f T V = vt at *
  field_simp
  ring

/-- Equality near the state suffices for derivatives along curves. -/
theorem Along.congr_near {X Y : ℝ → ℝ → ℝ} {T V T' V' d : ℝ} (h : Along T V T' V' X d)
    (e : ∀ᶠ q : ℝ × ℝ in 𝓝 (T, V), Y q.1 q.2 = X q.1 q.2) : Along T V T' V' Y d := by
  intro τ ν h1 h2 h3 h4
  refine (h τ ν h1 h2 h3 h4).congr_of_eventuallyEq ?_
  have hc : Tendsto (fun t => (τ t, ν t)) (𝓝 0) (𝓝 (T, V)) := by
    have := h3.continuousAt.prodMk h4.continuousAt
    rw [ContinuousAt, h1, h2] at this
    exact this
  exact hc.eventually e

theorem phys_near (h : f.Phys V) (hV : 0 < V) (T : ℝ) :
    ∀ᶠ q : ℝ × ℝ in 𝓝 (T, V), f.Phys q.2 ∧ q.2 ≠ 0 := by
  have hc : ContinuousAt (fun q : ℝ × ℝ => q.2) (T, V) := continuousAt_snd
  have c1 : ∀ᶠ q : ℝ × ℝ in 𝓝 (T, V), f.b < q.2 := hc.eventually (eventually_gt_nhds h.b)
  have c2 : ∀ᶠ q : ℝ × ℝ in 𝓝 (T, V), √(f.delta ^ 2 - 4 * f.epsilon) < 2 * q.2 + f.delta := by
    have : ContinuousAt (fun q : ℝ × ℝ => 2 * q.2 + f.delta) (T, V) := by fun_prop
    exact this.eventually (eventually_gt_nhds h.q)
  have c3 : ∀ᶠ q : ℝ × ℝ in 𝓝 (T, V), 0 < q.2 := hc.eventually (eventually_gt_nhds hV)
  filter_upwards [c1, c2, c3] with q h1 h2 h3 using ⟨⟨h1, h.disc, h2⟩, h3.ne'⟩

/-- Differential of `V_T` along the isobar and the isotherm, by the stored second derivatives. -/
theorem V_T_values (h : State f T V) :
    (-pTT f T V * pV f T V + pT f T V * pTV f T V) / pV f T V ^ 2
      + (-pTV f T V * pV f T V + pT f T V * pVV f T V) / pV f T V ^ 2 * V_T f T V = V_TT f T V ∧
    (-pTV f T V * pV f T V + pT f T V * pVV f T V) / pV f T V ^ 2 * V_P f T V = V_PT f T V := by
  have h2 := h.hV
  constructor
  · simp only [V_TT, d2V_dT2, V_T_eq, V_P_eq]
    field_simp
    ring
  · simp only [V_PT, d2V_dPdT, V_P_eq]
    field_simp
    ring

/-- **C57.** The second derivatives of the departure enthalpy: by temperature at constant pressure, by
temperature at constant volume, and mixed by temperature and pressure. -/
theorem C57_enthalpy_second (h : State f T V) :
    Along T V 1 (V_T f T V) (Hd_T f) (d2H_dep_dT2 T (f.p T V) V f.delta f.epsilon (f.a T) (f.a1 T) (f.a2 T) (f.a3 T)
      (V_T f T V) (V_TT f T V)) ∧
    Along T V 1 0 (Hd_TV f) (d2H_dep_dT2_V T V f.delta f.epsilon (f.a2 T) (f.a3 T) (pTT f T V)) ∧
    Along T V 0 (V_P f T V) (Hd_T f) (d2H_dep_dTdP T (f.p T V) V f.delta f.epsilon (f.a T) (f.a1 T) (f.a2 T)
      (V_T f T V) (V_P f T V) (V_PT f T V)) := by
  have hd := h.phys.disc
  have hq := h.phys.qpos
  have h2 := h.hV
  have e0 := (atTerm_eq hd V).symm
  simp only [atTerm] at e0
  have kd := ((Total.fst T V).mul (Total.of_T (h.smooth.d2 T h.posT) V)).sub (Total.of_T (h.smooth.d1 T h.posT) V)
  have kq := (Total.const 1 T V).div (total_quad f T V) hq.ne'
  have kT2 := (Total.fst T V).mul (Total.of_T (h.smooth.d3 T h.posT) V)
  have k := ((((total_hard h.phys T).mul kT2).sub (Total.const f.R T V)).add
    ((total_p h.smooth h.posT h.phys.off).mul (total_V_T h))).sub (((total_V_T h).mul kd).mul kq)
  have near : ∀ᶠ q : ℝ × ℝ in 𝓝 (T, V), Hd_T f q.1 q.2 = hard f q.2 * (q.1 * f.a2 q.1) - f.R
      + f.p q.1 q.2 * V_T f q.1 q.2 - V_T f q.1 q.2 * (q.1 * f.a1 q.1 - f.a q.1)
        * (1 / (q.2 ^ 2 + f.delta * q.2 + f.epsilon)) := by
    filter_upwards [phys_near h.phys h.posV T] with q hq using Hd_T_eq hd hq.1
  obtain ⟨v1, v2⟩ := V_T_values h
  have v3 : pT f T V + pV f T V * V_T f T V = 0 := by rw [V_T_eq]; field_simp; ring
  have v4 : pV f T V * V_P f T V = 1 := by rw [V_P_eq]; field_simp
  have hqu := quarter h.phys
  have e5 : f.delta + V + V = 2 * V + f.delta := by ring
  rw [e5] at hqu
  refine ⟨(k.along ?_).congr_near near, ?_, (k.along ?_).congr_near near⟩
  · simp only [d2H_dep_dT2]
    rw [invRoot_sq hd, div_eq_mul_one_div (1 / (f.delta * f.delta - 4 * f.epsilon)), e5, hqu]
    rw [show V + V + f.delta = 2 * V + f.delta by ring] at e0
    rw [← e0, ← v1]
    generalize (-pTT f T V * pV f T V + pT f T V * pTV f T V) / pV f T V ^ 2 = A at *
    generalize (-pTV f T V * pV f T V + pT f T V * pVV f T V) / pV f T V ^ 2 = B at *
    generalize V_T f T V = vt at *
    generalize hard f V = H at *
    generalize f.p T V = P at *
    have hz : (2 * V + f.delta) = 2 * V + f.delta := rfl
    generalize 2 * V + f.delta = z at *
    generalize V ^ 2 + f.delta * V + f.epsilon = Q at *
    have hQ := hq.ne'
    field_simp
    linear_combination (-(16 * vt * Q ^ 2)) * v3
  · have kk := ((Total.const (-f.R) T V).add (((total_hard h.phys T).mul kT2))).add
      ((Total.snd T V).mul (total_pT h.smooth h.posT h.phys.off))
    refine (kk.congr_fun fun T V => ?_).along ?_
    · have e := (atTerm_eq hd V).symm
      simp only [atTerm] at e
      simp only [Hd_TV, dH_dep_dT_V, e]
      ring
    · simp only [d2H_dep_dT2_V]
      rw [← e0]
      ring
  · simp only [d2H_dep_dTdP]
    rw [e5, show 1 / (f.delta * f.delta - 4 * f.epsilon) * (2 * V + f.delta) * (2 * V + f.delta)
      = (2 * V + f.delta) * (2 * V + f.delta) * (1 / (f.delta * f.delta - 4 * f.epsilon)) by ring]
    rw [← v2]
    generalize (-pTT f T V * pV f T V + pT f T V * pTV f T V) / pV f T V ^ 2 = A at *
    generalize (-pTV f T V * pV f T V + pT f T V * pVV f T V) / pV f T V ^ 2 = B at *
    generalize V_T f T V = vt at *
    generalize V_P f T V = vp at *
    generalize hard f V = H at *
    generalize f.p T V = P at *
    generalize 2 * V + f.delta = z at *
    generalize 1 / (f.delta * f.delta - 4 * f.epsilon) = y at *
    generalize 1 / (z * z * y - 1) = w at *
    generalize V ^ 2 + f.delta * V + f.epsilon = Q at *
    have hQ := hq.ne'
    have hw : y * w = 1 / 4 * (1 / Q) := hqu
    have c1 : 4 * y * w = 1 / Q := by linear_combination 4 * hw
    have c2 : 16 * (y * w) * (y * w) = 1 / Q * (1 / Q) := by rw [hw]; ring
    have l : P * (B * vp) - T * vp * (4 * y * w) * f.a2 T + 16 * vt * (T * f.a1 T - f.a T) * vp * z * y * y * w * w + vt
        - (T * f.a1 T - f.a T) * (B * vp) * (4 * y * w)
        = P * (B * vp) - T * vp * (1 / Q) * f.a2 T + vt * (T * f.a1 T - f.a T) * vp * z * (1 / Q * (1 / Q)) + vt
        - (T * f.a1 T - f.a T) * (B * vp) * (1 / Q) := by
      rw [← c2, ← c1]; ring
    rw [l]
    field_simp
    linear_combination (-(vt * Q ^ 2)) * v4

example := C57_enthalpy_second demo_state

/-- **C57.** The second derivatives of the departure entropy. -/
theorem C57_entropy_second (h : State f T V) :
    Along T V 1 (V_T f T V) (Sd_T f) (d2S_dep_dT2 f.R T V f.b f.delta f.epsilon (f.a1 T) (f.a2 T) (f.a3 T)
      (V_T f T V) (V_TT f T V)) ∧
    Along T V 1 0 (Sd_TV f) (d2S_dep_dT2_V f.R T (f.p T V) V f.delta f.epsilon (f.a3 T) (pT f T V) (pTT f T V)) ∧
    Along T V 0 (V_P f T V) (Sd_T f) (d2S_dep_dTdP f.R T (f.p T V) V f.b f.delta f.epsilon (f.a1 T) (f.a2 T)
      (V_T f T V) (V_P f T V) (V_PT f T V)) := by
  have hd := h.phys.disc
  have hq := h.phys.qpos
  have hb : 0 < V - f.b := sub_pos.mpr h.phys.b
  have h2 := h.hV; have hT := h.posT; have hV := h.posV; have hP := h.posP
  have e0 := (atTerm_eq hd V).symm
  simp only [atTerm] at e0
  have kq := (Total.const 1 T V).div (total_quad f T V) hq.ne'
  have k := (((((Total.const (-f.R) T V).div (Total.fst T V) hT.ne').sub
    (((total_V_T h).mul (Total.of_T (h.smooth.d2 T h.posT) V)).mul kq))).add
    (((Total.const f.R T V).mul (total_V_T h)).div (total_cov f T V) hb.ne')).add
    ((total_hard h.phys T).mul (Total.of_T (h.smooth.d3 T h.posT) V))
  have near : ∀ᶠ q : ℝ × ℝ in 𝓝 (T, V), Sd_T f q.1 q.2 = -f.R / q.1 - V_T f q.1 q.2 * f.a1 q.1
      * (1 / (q.2 ^ 2 + f.delta * q.2 + f.epsilon)) + f.R * V_T f q.1 q.2 / (q.2 - f.b) + hard f q.2 * f.a2 q.1 := by
    filter_upwards [phys_near h.phys h.posV T] with q hq using Sd_T_eq hd hq.1 hq.2
  obtain ⟨v1, v2⟩ := V_T_values h
  have hqu := quarter h.phys
  have e5 : f.delta + V + V = 2 * V + f.delta := by ring
  rw [e5] at hqu
  refine ⟨(k.along ?_).congr_near near, ?_, (k.along ?_).congr_near near⟩
  · simp only [d2S_dep_dT2]
    rw [invRoot_sq hd, show f.delta + (V + V) = 2 * V + f.delta by ring]
    rw [show V + V + f.delta = 2 * V + f.delta by ring] at e0
    rw [← e0, ← v1, show f.b - V = -(V - f.b) by ring]
    generalize (-pTT f T V * pV f T V + pT f T V * pTV f T V) / pV f T V ^ 2 = A at *
    generalize (-pTV f T V * pV f T V + pT f T V * pVV f T V) / pV f T V ^ 2 = B at *
    generalize V_T f T V = vt at *
    generalize hard f V = H at *
    generalize 2 * V + f.delta = z at *
    generalize 1 / (f.delta * f.delta - 4 * f.epsilon) = y at *
    generalize 1 / (z * z * y - 1) = w at *
    generalize V ^ 2 + f.delta * V + f.epsilon = Q at *
    generalize V - f.b = C at *
    have c2 : 16 * z * f.a1 T * (vt * vt) * w * w * y * y = z * f.a1 T * (vt * vt) * (1 / Q * (1 / Q)) := by
      linear_combination (16 * z * f.a1 T * (vt * vt) * (y * w + 1 / 4 * (1 / Q))) * hqu
    rw [c2, hqu]
    field_simp
    ring
  · have kp := total_p h.smooth h.posT h.phys.off
    have kk := ((Total.const f.R T V).mul (((total_pT h.smooth h.posT h.phys.off).div kp hP.ne').sub
      ((Total.const 1 T V).div (Total.fst T V) hT.ne'))).add
      ((total_hard h.phys T).mul (Total.of_T (h.smooth.d3 T h.posT) V))
    refine (kk.congr_fun fun T V => ?_).along ?_
    · have e := (atTerm_eq hd V).symm
      simp only [atTerm] at e
      simp only [Sd_TV, dS_dep_dT_V, e]
    · simp only [d2S_dep_dT2_V]
      rw [← e0]
      generalize hard f V = H at *
      generalize f.p T V = P at *
      field_simp
      ring
  · simp only [d2S_dep_dTdP]
    rw [e5, show 1 / (f.delta * f.delta - 4 * f.epsilon) * (2 * V + f.delta) * (2 * V + f.delta)
      = (2 * V + f.delta) * (2 * V + f.delta) * (1 / (f.delta * f.delta - 4 * f.epsilon)) by ring]
    rw [← v2, show f.b - V = -(V - f.b) by ring]
    generalize (-pTT f T V * pV f T V + pT f T V * pTV f T V) / pV f T V ^ 2 = A at *
    generalize (-pTV f T V * pV f T V + pT f T V * pVV f T V) / pV f T V ^ 2 = B at *
    generalize V_T f T V = vt at *
    generalize V_P f T V = vp at *
    generalize hard f V = H at *
    generalize f.p T V = P at *
    generalize 2 * V + f.delta = z at *
    generalize 1 / (f.delta * f.delta - 4 * f.epsilon) = y at *
    generalize 1 / (z * z * y - 1) = w at *
    generalize V ^ 2 + f.delta * V + f.epsilon = Q at *
    generalize V - f.b = C at *
    have c1 : 4 * y * w = 1 / Q := by linear_combination 4 * hqu
    have c2 : 16 * z * f.a1 T * vt * vp * y * y * w * w = z * f.a1 T * (vt * vp) * (1 / Q * (1 / Q)) := by
      linear_combination (16 * z * f.a1 T * (vt * vp) * (y * w + 1 / 4 * (1 / Q))) * hqu
    rw [c2, c1]
    field_simp
    ring

example := C57_entropy_second demo_state

end

end Verif.Departure
