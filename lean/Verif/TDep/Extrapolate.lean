import Mathlib.Analysis.SpecialFunctions.Log.Deriv
import Mathlib.Analysis.SpecialFunctions.ExpDeriv
import Mathlib.Analysis.SpecialFunctions.Pow.Deriv
import Mathlib.Analysis.SpecialFunctions.Integrals.Basic
import Mathlib.Tactic.FieldSimp
import Mathlib.Tactic.Ring
import Mathlib.Tactic.Linarith

/-!
# Extrapolation forms (`thermo/utils/t_dependent_property.py`)

* C12: the fitted forms take the value (and where they are fitted to it the slope) of the method at the
  limit temperature.
* C13: derivatives, integrals and logarithmic transforms of the extrapolated property.

Numbers are reals. The fitted-coefficient helpers of the `chemicals` package are modelled from their
documented equations.
-/

namespace Verif.Extrapolate

open Real intervalIntegral

/-! ## Model -/

/-- `'linear'` (4612-4615), coefficients `(v, d)` = value and slope at the limit (4471-4474). -/
def linear (v d c T : ℝ) : ℝ := v + d * (T - c)

/-- `'log(linear)'` (4616-4620). -/
noncomputable def logLinear (v d c T : ℝ) : ℝ := exp (v + d * (T - c))

/-- `'log(linear)'` coefficients (4475-4478): logarithm of the value and derivative of the logarithm. -/
noncomputable def logLinearCoeffs (P dP : ℝ) : ℝ × ℝ := (log P, dP / P)

/-- `'AntoineAB'` (4626-4628): `Antoine(T, A, B, C=0, base=e)`. -/
noncomputable def antoineAB (A B T : ℝ) : ℝ := exp (A - B / T)

/-- `Antoine_AB_coeffs_from_point(T, Psat, dPsat_dT, base=e)` (4487-4490). -/
noncomputable def antoineCoeffs (T P dP : ℝ) : ℝ × ℝ := (T * dP / P + log P, T ^ 2 * dP / P)

/-- `'DIPPR101_ABC'` (4631-4633): `EQ101(T, A, B, C, 0, 0)`. -/
noncomputable def dippr101 (A B C T : ℝ) : ℝ := exp (A + B / T + C * log T)

/-- `DIPPR101_ABC_coeffs_from_point(T, P, dP, d2P)` (4491-4495): the solution of the three matching
equations for `ln P`. -/
noncomputable def dippr101Coeffs (T P dP d2P : ℝ) : ℝ × ℝ × ℝ :=
  let g1 := dP / P
  let g2 := d2P / P - (dP / P) ^ 2
  let B := T ^ 2 * (g1 + T * g2)
  let C := 2 * T * g1 + T ^ 2 * g2
  (log P - B / T - C * log T, B, C)

/-- `'Watson'` (4640-4643): `Watson(T, Hvap_ref, T_ref, Tc, exponent)`. -/
noncomputable def watson (v0 n c Tc T : ℝ) : ℝ := v0 * ((1 - T / Tc) / (1 - c / Tc)) ^ n

/-- `Watson_n(T1, T2, Hvap1, Hvap2, Tc)` (4496-4502). -/
noncomputable def watsonN (T1 T2 v1 v2 Tc : ℝ) : ℝ := log (v1 / v2) / log ((Tc - T1) / (Tc - T2))

/-- `'DIPPR106_AB'` (4634-4636): `EQ106(T, Tc, A, B)`. -/
noncomputable def dippr106 (A B Tc T : ℝ) : ℝ := A * (1 - T / Tc) ^ B

/-- `EQ106_AB(T, Tc, val, der)` (4512-4515). -/
noncomputable def dippr106Coeffs (T Tc v d : ℝ) : ℝ × ℝ :=
  (v * (1 - T / Tc) ^ (-(d * (T - Tc) / v)), d * (T - Tc) / v)

/-- `'EXP_POLY_LN_TAU2'` / `'EXP_POLY_LN_TAU3'` (4644-4645): `exp_horner_backwards_ln_tau`, with
coefficients in order of increasing power of `ln τ`. -/
noncomputable def expLnTau (a b c Tc T : ℝ) : ℝ :=
  exp (a + b * log (1 - T / Tc) + c * log (1 - T / Tc) ^ 2)

/-- `exp_poly_ln_tau_coeffs2(T, Tc, val, der)` (4503-4506). -/
noncomputable def expLnTau2Coeffs (T Tc v d : ℝ) : ℝ × ℝ :=
  (log v - d * (T - Tc) / v * log (1 - T / Tc), d * (T - Tc) / v)

/-- `exp_poly_ln_tau_coeffs3(T, Tc, val, der, der2)` (4507-4511): the quadratic in `u = ln τ` matching
the value and two derivatives. With `h(u) = ln P`, `du/dT = 1/(T − Tc)`. -/
noncomputable def expLnTau3Coeffs (T Tc v d d2 : ℝ) : ℝ × ℝ × ℝ :=
  let u := log (1 - T / Tc)
  let h1 := d * (T - Tc) / v
  let h2 := (d2 / v - (d / v) ^ 2) * (T - Tc) ^ 2 + h1
  let c := h2 / 2
  let b := h1 - h2 * u
  (log v - b * u - c * u ^ 2, b, c)

/-- `'Arrhenius'` (4621-4623): `Arrhenius_extrapolation(T, T_ref, P_ref, slope)`, logarithm linear in
`1/T`. -/
noncomputable def arrhenius (Tref Pref slope T : ℝ) : ℝ := Pref * exp (slope * (1 / T - 1 / Tref))

/-- `Arrhenius_parameters(T, P, dP_dT)` (4479-4482): reference point and slope. -/
noncomputable def arrheniusCoeffs (T P dP : ℝ) : ℝ × ℝ × ℝ := (T, P, -(T ^ 2 * dP / P))

/-- `'DIPPR106_ABC'` (4637-4639): `EQ106(T, Tc, A, B, C)`, exponent linear in the reduced temperature. -/
noncomputable def dippr106ABC (A B C Tc T : ℝ) : ℝ := A * (1 - T / Tc) ^ (B + C * (T / Tc))

/-- `EQ106_ABC(T, Tc, val, der, der2)` (4516-4520): the solution of the matching equations for the
logarithm in `x = T/Tc`. -/
noncomputable def dippr106ABCCoeffs (T Tc v d d2 : ℝ) : ℝ × ℝ × ℝ :=
  let x := T / Tc
  let L := log (1 - x)
  let g1 := Tc * (d / v)
  let g2 := Tc ^ 2 * (d2 / v - (d / v) ^ 2)
  let C := (g1 - (1 - x) * g2) / (L + 2)
  let B := (1 - x) * (C * L - g1) - C * x
  (v * (1 - x) ^ (-(B + C * x)), B, C)

/-- The clamp at the end of `extrapolate` (4649-4652) with a lower bound. -/
noncomputable def clampLow (m v : ℝ) : ℝ := if v < m then m else v

/-- `extrapolate_integral` for `'constant'` (4790-4797) and `'linear'` (4798-4809). -/
def constIntegral (v T1 T2 : ℝ) : ℝ := v * (T2 - T1)
def linearIntegral (v d c T1 T2 : ℝ) : ℝ := (v - c * d) * (T2 - T1) + 0.5 * d * (T2 * T2 - T1 * T1)

/-- `extrapolate_integral_over_T` for `'constant'` (4854-4861) and `'linear'` (4862-4873). -/
noncomputable def constIntegralOverT (v T1 T2 : ℝ) : ℝ := v * log (T2 / T1)
noncomputable def linearIntegralOverT (v d c T1 T2 : ℝ) : ℝ :=
  d * (T2 - T1) + (v - c * d) * log (T2 / T1)

/-- `extrapolate_derivative` for `'AntoineAB'` (4724-4729): `dAntoine_dT` and `d2Antoine_dT2` with
`C = 0`, `base = e`. -/
noncomputable def dAntoine (A B T : ℝ) : ℝ := B * exp (A - B / T) / T ^ 2
noncomputable def d2Antoine (A B T : ℝ) : ℝ := B * exp (A - B / T) * (B / T - 2) / T ^ 3

/-- `extrapolate_transform` for `'AntoineAB'` (3177-3179, 3187-3189, 3195-3197, 3202-3204, 3211-3214). -/
noncomputable def antoineLog (A B T : ℝ) : ℝ := A - B / T
noncomputable def antoineLogD (B T : ℝ) : ℝ := B / (T * T)
noncomputable def antoineLogD2 (B T : ℝ) : ℝ := -2 * B / (T * T * T)
noncomputable def antoineRatio (B T : ℝ) : ℝ := B / (T * T)
noncomputable def antoineRatio2 (B T : ℝ) : ℝ := B * (B - 2 * T) / (T * T * (T * T))

/-- `extrapolate_transform` for `'DIPPR101_ABC'` (3180-3186, 3191-3194, 3199-3201, 3206-3210). -/
noncomputable def dipprLog (A B C T : ℝ) : ℝ := A + B / T + C * log T
noncomputable def dipprLogD (B C T : ℝ) : ℝ := (-B / T + C) / T
noncomputable def dipprLogD2 (B C T : ℝ) : ℝ := (2 * B * (1 / T) - C) * (1 / T) * (1 / T)
noncomputable def dipprRatio (B C T : ℝ) : ℝ := (-B + C * T) / (T * T)
noncomputable def dipprRatio2 (B C T : ℝ) : ℝ :=
  (2 * B * T - C * (T * T) + (B - C * T) * (B - C * T)) / (T * T * (T * T))

/-! ## C12: value and slope at the limit -/

/-- A form joins a method smoothly at `c`: it takes the value `v` there and has slope `d`. -/
def Joins (f : ℝ → ℝ) (c v d : ℝ) : Prop := f c = v ∧ HasDerivAt f d c

theorem C12_constant_value (v c : ℝ) : (fun _ : ℝ => v) c = v ∧ ContinuousAt (fun _ : ℝ => v) c :=
  ⟨rfl, continuousAt_const⟩

/-- **C12.** `linear` joins with value and slope. -/
theorem C12_linear (v d c : ℝ) : Joins (linear v d c) c v d := by
  refine ⟨by simp [linear], ?_⟩
  have h : HasDerivAt (linear v d c) (d * 1) c :=
    (((hasDerivAt_id c).sub_const c).const_mul d).const_add v
  exact h.congr_deriv (mul_one d)

/-- **C12.** `log(linear)` joins with value and slope for a positive value. -/
theorem C12_logLinear (v d c : ℝ) (hv : 0 < v) :
    Joins (logLinear (logLinearCoeffs v d).1 (logLinearCoeffs v d).2 c) c v d := by
  refine ⟨by simp [logLinear, logLinearCoeffs, exp_log hv], ?_⟩
  have h := (((hasDerivAt_id c).sub_const c).const_mul (d / v) |>.const_add (log v)).exp
  refine HasDerivAt.congr_deriv h ?_
  simp only [id, sub_self, mul_zero, add_zero, exp_log hv, mul_one]
  field_simp

theorem antoineAB_deriv (A B : ℝ) {T : ℝ} (hT : T ≠ 0) :
    HasDerivAt (antoineAB A B) (dAntoine A B T) T := by
  have h := (((hasDerivAt_inv hT).const_mul B).const_sub A).exp
  unfold antoineAB dAntoine
  convert h using 1
  simp only [div_eq_mul_inv]
  ring

/-- **C12.** `AntoineAB` joins with value and slope for a positive value at a positive temperature. -/
theorem C12_antoineAB (v d c : ℝ) (hv : 0 < v) (hc : 0 < c) :
    Joins (antoineAB (antoineCoeffs c v d).1 (antoineCoeffs c v d).2) c v d := by
  have hval : antoineAB (antoineCoeffs c v d).1 (antoineCoeffs c v d).2 c = v := by
    unfold antoineAB antoineCoeffs
    rw [show c * d / v + log v - c ^ 2 * d / v / c = log v by field_simp; ring, exp_log hv]
  refine ⟨hval, ?_⟩
  have h := antoineAB_deriv (antoineCoeffs c v d).1 (antoineCoeffs c v d).2 hc.ne'
  convert h using 1
  unfold dAntoine
  unfold antoineAB at hval
  rw [hval]
  simp only [antoineCoeffs]
  field_simp

theorem dipprLog_deriv (A B C : ℝ) {T : ℝ} (hT : T ≠ 0) :
    HasDerivAt (dipprLog A B C) (dipprLogD B C T) T := by
  have h := ((((hasDerivAt_inv hT).const_mul B).const_add A).add
    ((hasDerivAt_log hT).const_mul C))
  refine HasDerivAt.congr_deriv h ?_
  unfold dipprLogD
  field_simp

theorem dipprLogD_deriv (B C : ℝ) {T : ℝ} (hT : T ≠ 0) :
    HasDerivAt (dipprLogD B C) (dipprLogD2 B C T) T := by
  have h1 : HasDerivAt (fun T : ℝ => -B / T + C) (B / T ^ 2) T := by
    have := ((hasDerivAt_inv hT).const_mul (-B)).add_const C
    refine HasDerivAt.congr_deriv this ?_
    field_simp
  have h := h1.div (hasDerivAt_id T) hT
  refine HasDerivAt.congr_deriv h ?_
  unfold dipprLogD2
  simp only [id]
  field_simp
  ring

theorem dippr101_eq (A B C : ℝ) : dippr101 A B C = fun T => exp (dipprLog A B C T) := rfl

theorem dippr101_deriv (A B C : ℝ) {T : ℝ} (hT : T ≠ 0) :
    HasDerivAt (dippr101 A B C) (dippr101 A B C T * dipprLogD B C T) T :=
  (dipprLog_deriv A B C hT).exp

theorem dippr101_deriv2 (A B C : ℝ) {T : ℝ} (hT : T ≠ 0) :
    HasDerivAt (fun T => dippr101 A B C T * dipprLogD B C T)
      (dippr101 A B C T * (dipprLogD B C T ^ 2 + dipprLogD2 B C T)) T := by
  have h := (dippr101_deriv A B C hT).mul (dipprLogD_deriv B C hT)
  refine HasDerivAt.congr_deriv h ?_
  ring

/-- **C12.** `DIPPR101_ABC` joins with value, slope and curvature. -/
theorem C12_dippr101 (v d d2 c : ℝ) (hv : 0 < v) (hc : 0 < c) :
    let k := dippr101Coeffs c v d d2
    Joins (dippr101 k.1 k.2.1 k.2.2) c v d ∧
    HasDerivAt (fun T => deriv (dippr101 k.1 k.2.1 k.2.2) T) d2 c := by
  intro k
  have hc' := hc.ne'
  have hval : dippr101 k.1 k.2.1 k.2.2 c = v := by
    simp only [k, dippr101, dippr101Coeffs]
    rw [← exp_log hv]
    congr 1
    rw [exp_log hv]
    ring
  have h1 : dipprLogD k.2.1 k.2.2 c = d / v := by
    simp only [k, dipprLogD, dippr101Coeffs]
    field_simp
    ring
  have h2 : dipprLogD2 k.2.1 k.2.2 c = d2 / v - (d / v) ^ 2 := by
    simp only [k, dipprLogD2, dippr101Coeffs]
    field_simp
    ring
  refine ⟨⟨hval, ?_⟩, ?_⟩
  · have := dippr101_deriv k.1 k.2.1 k.2.2 hc'
    rw [hval, h1] at this
    convert this using 1
    field_simp
  · have := dippr101_deriv2 k.1 k.2.1 k.2.2 hc'
    rw [hval, h1, h2] at this
    have heq : (fun T => deriv (dippr101 k.1 k.2.1 k.2.2) T) =ᶠ[nhds c]
        fun T => dippr101 k.1 k.2.1 k.2.2 T * dipprLogD k.2.1 k.2.2 T := by
      filter_upwards [isOpen_ne.mem_nhds hc'] with T hT
      exact (dippr101_deriv k.1 k.2.1 k.2.2 hT).deriv
    refine (this.congr_of_eventuallyEq heq).congr_deriv ?_
    field_simp
    ring

/-- **C12.** `Watson` takes the method's value at the limit and also its value at the neighbouring point
used for the fit. -/
theorem C12_watson (v0 v1 c c' Tc : ℝ) (h0 : 0 < v0) (h1 : 0 < v1) (hc : c < Tc) (hc' : c' < Tc)
    (hT : 0 < Tc) (hne : c ≠ c') :
    watson v0 (watsonN c c' v0 v1 Tc) c Tc c = v0 ∧ watson v0 (watsonN c c' v0 v1 Tc) c Tc c' = v1 := by
  have e1 : 1 - c / Tc ≠ 0 := by
    have : c / Tc < 1 := (div_lt_one hT).2 hc
    linarith
  constructor
  · unfold watson
    rw [div_self e1, one_rpow, mul_one]
  · unfold watson watsonN
    have p1 : 0 < Tc - c := by linarith
    have p2 : 0 < Tc - c' := by linarith
    have er : (1 - c' / Tc) / (1 - c / Tc) = (Tc - c') / (Tc - c) := by
      field_simp
    have hrpos : 0 < (Tc - c') / (Tc - c) := div_pos p2 p1
    have hinv : (Tc - c) / (Tc - c') = ((Tc - c') / (Tc - c))⁻¹ := by rw [inv_div]
    have hln : log ((Tc - c') / (Tc - c)) ≠ 0 := by
      apply log_ne_zero_of_pos_of_ne_one hrpos
      intro h
      rw [div_eq_one_iff_eq p1.ne'] at h
      exact hne (by linarith)
    rw [er, rpow_def_of_pos hrpos, hinv, log_inv]
    rw [show log ((Tc - c') / (Tc - c)) * (log (v0 / v1) / -log ((Tc - c') / (Tc - c)))
      = -log (v0 / v1) by field_simp]
    rw [← log_inv, exp_log (by positivity), inv_div]
    field_simp

theorem lnTau_deriv {T Tc : ℝ} (hT : T < Tc) (hTc : 0 < Tc) :
    HasDerivAt (fun T => log (1 - T / Tc)) (1 / (T - Tc)) T := by
  have e1 : 1 - T / Tc ≠ 0 := by
    have : T / Tc < 1 := (div_lt_one hTc).2 hT
    linarith
  have h := (((hasDerivAt_id T).div_const Tc).const_sub 1).log e1
  refine HasDerivAt.congr_deriv h ?_
  have : T - Tc ≠ 0 := by linarith
  have h2 : Tc - T ≠ 0 := by linarith
  simp only [id]
  rw [show (1 : ℝ) - T / Tc = (Tc - T) / Tc by field_simp]
  field_simp
  ring

/-- **C12.** `EXP_POLY_LN_TAU2` joins with value and slope below the critical temperature. -/
theorem C12_expLnTau2 (v d c Tc : ℝ) (hv : 0 < v) (hc : c < Tc) (hTc : 0 < Tc) :
    Joins (expLnTau (expLnTau2Coeffs c Tc v d).1 (expLnTau2Coeffs c Tc v d).2 0 Tc) c v d := by
  have hval : expLnTau (expLnTau2Coeffs c Tc v d).1 (expLnTau2Coeffs c Tc v d).2 0 Tc c = v := by
    simp only [expLnTau, expLnTau2Coeffs]
    rw [show ∀ x y : ℝ, log v - x * y + x * y + 0 * y ^ 2 = log v by intros; ring, exp_log hv]
  refine ⟨hval, ?_⟩
  have hl := lnTau_deriv hc hTc
  have h := (((hl.const_mul (expLnTau2Coeffs c Tc v d).2).const_add (expLnTau2Coeffs c Tc v d).1).add
    ((hl.pow 2).const_mul 0)).exp
  refine HasDerivAt.congr_deriv h ?_
  have : c - Tc ≠ 0 := by linarith
  have hv' : exp ((expLnTau2Coeffs c Tc v d).1 + (expLnTau2Coeffs c Tc v d).2 * log (1 - c / Tc)
      + 0 * log (1 - c / Tc) ^ 2) = v := hval
  simp only [Pi.add_apply, Pi.pow_apply] at *
  rw [hv']
  simp only [expLnTau2Coeffs]
  field_simp
  ring

/-- **C12.** `EXP_POLY_LN_TAU3` joins with value and slope, and its second derivative is the method's. -/
theorem C12_expLnTau3 (v d d2 c Tc : ℝ) (hv : 0 < v) (hc : c < Tc) (hTc : 0 < Tc) :
    let k := expLnTau3Coeffs c Tc v d d2
    Joins (expLnTau k.1 k.2.1 k.2.2 Tc) c v d ∧
    HasDerivAt (fun T => deriv (expLnTau k.1 k.2.1 k.2.2 Tc) T) d2 c := by
  intro k
  have hne : c - Tc ≠ 0 := by linarith
  have hval : expLnTau k.1 k.2.1 k.2.2 Tc c = v := by
    simp only [expLnTau, k, expLnTau3Coeffs]
    rw [← exp_log hv]
    congr 1
    rw [exp_log hv]
    ring
  have der : ∀ T, T < Tc → HasDerivAt (expLnTau k.1 k.2.1 k.2.2 Tc)
      (expLnTau k.1 k.2.1 k.2.2 Tc T * ((k.2.1 + 2 * k.2.2 * log (1 - T / Tc)) / (T - Tc))) T := by
    intro T hT
    have hl := lnTau_deriv hT hTc
    have h := (((hl.const_mul k.2.1).const_add k.1).add ((hl.pow 2).const_mul k.2.2)).exp
    refine HasDerivAt.congr_deriv h ?_
    have : T - Tc ≠ 0 := by linarith
    simp only [expLnTau, Pi.add_apply, Pi.pow_apply]
    congr 1
    field_simp
    ring
  have s1 : (k.2.1 + 2 * k.2.2 * log (1 - c / Tc)) / (c - Tc) = d / v := by
    simp only [k, expLnTau3Coeffs]
    field_simp
    ring
  refine ⟨⟨hval, ?_⟩, ?_⟩
  · have := der c hc
    rw [hval, s1] at this
    convert this using 1
    field_simp
  · have hl := lnTau_deriv hc hTc
    have hin : HasDerivAt (fun T => (k.2.1 + 2 * k.2.2 * log (1 - T / Tc)) / (T - Tc))
        ((2 * k.2.2 - (k.2.1 + 2 * k.2.2 * log (1 - c / Tc))) / (c - Tc) ^ 2) c := by
      have h := ((hl.const_mul (2 * k.2.2)).const_add k.2.1).div
        ((hasDerivAt_id c).sub_const Tc) hne
      refine HasDerivAt.congr_deriv h ?_
      simp only [id]
      field_simp
    have hm := (der c hc).mul hin
    have heq : (fun T => deriv (expLnTau k.1 k.2.1 k.2.2 Tc) T) =ᶠ[nhds c]
        fun T => expLnTau k.1 k.2.1 k.2.2 Tc T * ((k.2.1 + 2 * k.2.2 * log (1 - T / Tc)) / (T - Tc)) := by
      filter_upwards [isOpen_lt continuous_id continuous_const |>.mem_nhds hc] with T hT
      exact (der T hT).deriv
    refine (hm.congr_of_eventuallyEq heq).congr_deriv ?_
    rw [hval, s1]
    have s2 : k.2.1 + 2 * k.2.2 * log (1 - c / Tc) = d / v * (c - Tc) := by
      rw [← s1]; field_simp
    rw [s2]
    simp only [k, expLnTau3Coeffs]
    field_simp
    ring

/-- **C12.** `DIPPR106_AB` joins with value and slope below the critical temperature. -/
theorem C12_dippr106 (v d c Tc : ℝ) (hv : v ≠ 0) (hc : c < Tc) (hTc : 0 < Tc) :
    Joins (dippr106 (dippr106Coeffs c Tc v d).1 (dippr106Coeffs c Tc v d).2 Tc) c v d := by
  have e1 : 0 < 1 - c / Tc := by
    have : c / Tc < 1 := (div_lt_one hTc).2 hc
    linarith
  have hval : dippr106 (dippr106Coeffs c Tc v d).1 (dippr106Coeffs c Tc v d).2 Tc c = v := by
    simp only [dippr106, dippr106Coeffs]
    rw [mul_assoc, ← rpow_add e1, neg_add_cancel, rpow_zero, mul_one]
  refine ⟨hval, ?_⟩
  have hb : HasDerivAt (fun T => 1 - T / Tc) (-(1 / Tc)) c :=
    ((hasDerivAt_id c).div_const Tc).const_sub 1
  have h := (hb.rpow_const (p := (dippr106Coeffs c Tc v d).2) (.inl e1.ne')).const_mul
    (dippr106Coeffs c Tc v d).1
  refine HasDerivAt.congr_deriv h ?_
  rw [rpow_sub_one e1.ne']
  have : (dippr106Coeffs c Tc v d).1 * (1 - c / Tc) ^ (dippr106Coeffs c Tc v d).2 = v := hval
  have hne : c - Tc ≠ 0 := by linarith
  have hne' : Tc - c ≠ 0 := by linarith
  calc (dippr106Coeffs c Tc v d).1 * (-(1 / Tc) * (dippr106Coeffs c Tc v d).2 *
        ((1 - c / Tc) ^ (dippr106Coeffs c Tc v d).2 / (1 - c / Tc)))
      = (dippr106Coeffs c Tc v d).1 * (1 - c / Tc) ^ (dippr106Coeffs c Tc v d).2 *
        (-(1 / Tc) * (dippr106Coeffs c Tc v d).2 / (1 - c / Tc)) := by ring
    _ = v * (-(1 / Tc) * (dippr106Coeffs c Tc v d).2 / (1 - c / Tc)) := by rw [this]
    _ = d := by
      simp only [dippr106Coeffs]
      rw [show (1 : ℝ) - c / Tc = (Tc - c) / Tc by field_simp]
      field_simp
      ring

/-- **C12.** `Arrhenius` joins with value and slope. -/
theorem C12_arrhenius (v d c : ℝ) (hv : v ≠ 0) (hc : c ≠ 0) :
    let k := arrheniusCoeffs c v d
    Joins (arrhenius k.1 k.2.1 k.2.2) c v d := by
  intro k
  refine ⟨by simp [arrhenius, k, arrheniusCoeffs], ?_⟩
  have h := ((((hasDerivAt_inv hc).sub_const (c⁻¹)).const_mul k.2.2).exp).const_mul k.2.1
  have hf : arrhenius k.1 k.2.1 k.2.2 = fun T => k.2.1 * exp (k.2.2 * (T⁻¹ - c⁻¹)) := by
    funext T; simp [arrhenius, k, arrheniusCoeffs]
  rw [hf]
  refine HasDerivAt.congr_deriv h ?_
  simp only [sub_self, mul_zero, exp_zero, k, arrheniusCoeffs]
  field_simp

/-- **C12.** `DIPPR106_ABC` joins with value and slope below the critical temperature. -/
theorem C12_dippr106ABC (v d d2 c Tc : ℝ) (hv : v ≠ 0) (hc : c < Tc) (hTc : 0 < Tc) :
    let k := dippr106ABCCoeffs c Tc v d d2
    Joins (dippr106ABC k.1 k.2.1 k.2.2 Tc) c v d := by
  intro k
  have e1 : 0 < 1 - c / Tc := by
    have : c / Tc < 1 := (div_lt_one hTc).2 hc
    linarith
  have hval : dippr106ABC k.1 k.2.1 k.2.2 Tc c = v := by
    simp only [dippr106ABC, k, dippr106ABCCoeffs]
    rw [mul_assoc, ← rpow_add e1, neg_add_cancel, rpow_zero, mul_one]
  refine ⟨hval, ?_⟩
  have hx : HasDerivAt (fun T : ℝ => T / Tc) (1 / Tc) c := (hasDerivAt_id c).div_const Tc
  have hb : HasDerivAt (fun T => 1 - T / Tc) (-(1 / Tc)) c := hx.const_sub 1
  have hm : HasDerivAt (fun T => k.2.1 + k.2.2 * (T / Tc)) (k.2.2 * (1 / Tc)) c :=
    (hx.const_mul k.2.2).const_add k.2.1
  have h := (hb.rpow hm e1).const_mul k.1
  refine HasDerivAt.congr_deriv h ?_
  have hval' : k.1 * (1 - c / Tc) ^ (k.2.1 + k.2.2 * (c / Tc)) = v := hval
  rw [rpow_sub_one e1.ne']
  generalize hP : (1 - c / Tc) ^ (k.2.1 + k.2.2 * (c / Tc)) = P at *
  have hM : k.2.1 + k.2.2 * (c / Tc) = (1 - c / Tc) * (k.2.2 * log (1 - c / Tc) - Tc * (d / v)) := by
    simp only [k, dippr106ABCCoeffs]
    ring
  rw [hM]
  generalize log (1 - c / Tc) = L at *
  generalize 1 - c / Tc = y at *
  have hy := e1.ne'
  calc k.1 * (-(1 / Tc) * (y * (k.2.2 * L - Tc * (d / v))) * (P / y) + k.2.2 * (1 / Tc) * P * L)
      = (k.1 * P) * (d / v) := by field_simp; ring
    _ = d := by rw [hval']; field_simp

/-- The hypotheses of the joining theorems hold for a vapour pressure and its slope at 300 K below a
critical temperature of 500 K, and a form fitted there is not constant. -/
example : (0 : ℝ) < 3500 ∧ (0 : ℝ) < 300 ∧ (300 : ℝ) < 500 ∧
    Joins (antoineAB (antoineCoeffs 300 3500 200).1 (antoineCoeffs 300 3500 200).2) 300 3500 200 ∧
    Joins (expLnTau (expLnTau2Coeffs 300 500 3500 200).1 (expLnTau2Coeffs 300 500 3500 200).2 0 500)
      300 3500 200 ∧
    Joins (dippr106 (dippr106Coeffs 300 500 3500 200).1 (dippr106Coeffs 300 500 3500 200).2 500)
      300 3500 200 ∧
    watson 40000 (watsonN 300 299 40000 40100 500) 300 500 299 = 40100 :=
  ⟨by norm_num, by norm_num, by norm_num, C12_antoineAB _ _ _ (by norm_num) (by norm_num),
    C12_expLnTau2 _ _ _ _ (by norm_num) (by norm_num) (by norm_num),
    C12_dippr106 _ _ _ _ (by norm_num) (by norm_num) (by norm_num),
    (C12_watson 40000 40100 300 299 500 (by norm_num) (by norm_num) (by norm_num) (by norm_num)
      (by norm_num) (by norm_num)).2⟩

example : Joins (arrhenius 300 2 (-(300 ^ 2 * 5 / 2))) 300 2 5 :=
  C12_arrhenius 2 5 300 (by norm_num) (by norm_num)

/-! ## C13: derivatives, integrals and transforms -/

/-- **C13.** The derivative returned for `linear` and `constant` is the derivative; higher orders are
zero. -/
theorem C13_linear_derivative (v d c T : ℝ) :
    HasDerivAt (linear v d c) d T ∧ (∀ n, 2 ≤ n → iteratedDeriv n (linear v d c) T = 0) ∧
    HasDerivAt (fun _ : ℝ => v) 0 T := by
  have h1 : ∀ T, HasDerivAt (linear v d c) d T := by
    intro T
    have h : HasDerivAt (linear v d c) (d * 1) T :=
      (((hasDerivAt_id T).sub_const c).const_mul d).const_add v
    exact h.congr_deriv (mul_one d)
  refine ⟨h1 T, ?_, hasDerivAt_const T v⟩
  intro n hn
  obtain ⟨m, rfl⟩ : ∃ m, n = m + 1 + 1 := ⟨n - 2, by omega⟩
  rw [iteratedDeriv_succ', show deriv (linear v d c) = fun _ => d from funext fun T => (h1 T).deriv,
    iteratedDeriv_succ', show deriv (fun _ : ℝ => d) = fun _ => (0 : ℝ) from
      funext fun T => deriv_const T d]
  have : ∀ m, iteratedDeriv m (fun _ : ℝ => (0 : ℝ)) T = 0 := by
    intro m
    induction m with
    | zero => simp
    | succ m ih =>
      rw [iteratedDeriv_succ', show deriv (fun _ : ℝ => (0 : ℝ)) = fun _ => (0 : ℝ) from
        funext fun T => deriv_const T 0]
      exact ih
  exact this m

/-- **C13.** The first and second derivative returned for `AntoineAB`. -/
theorem C13_antoine_derivatives (A B T : ℝ) (hT : T ≠ 0) :
    HasDerivAt (antoineAB A B) (dAntoine A B T) T ∧ HasDerivAt (dAntoine A B) (d2Antoine A B T) T := by
  refine ⟨antoineAB_deriv A B hT, ?_⟩
  have h1 := antoineAB_deriv A B hT
  unfold antoineAB at h1
  have h := (h1.const_mul B).div (hasDerivAt_pow 2 T) (pow_ne_zero 2 hT)
  unfold dAntoine
  refine HasDerivAt.congr_deriv h ?_
  unfold dAntoine d2Antoine
  simp only [Nat.cast_ofNat]
  field_simp
  ring

/-- **C13.** The logarithm and its first two derivatives, and the derivative-to-value ratios, returned
for `AntoineAB`. -/
theorem C13_antoine_transforms (A B T : ℝ) (hT : T ≠ 0) :
    antoineLog A B T = log (antoineAB A B T) ∧
    HasDerivAt (fun T => log (antoineAB A B T)) (antoineLogD B T) T ∧
    HasDerivAt (antoineLogD B) (antoineLogD2 B T) T ∧
    antoineRatio B T = dAntoine A B T / antoineAB A B T ∧
    antoineRatio2 B T = d2Antoine A B T / antoineAB A B T := by
  have hlog : (fun T => log (antoineAB A B T)) = antoineLog A B := by
    funext T; simp [antoineAB, antoineLog]
  refine ⟨by simp [antoineLog, antoineAB], ?_, ?_, ?_, ?_⟩
  · rw [hlog]
    have h := ((hasDerivAt_inv hT).const_mul B).const_sub A
    refine HasDerivAt.congr_deriv h ?_
    simp only [antoineLogD]
    field_simp
  · have h := ((hasDerivAt_pow 2 T).inv (pow_ne_zero 2 hT)).const_mul B
    have hf : antoineLogD B = fun T => B * (T ^ 2)⁻¹ := by
      funext T; simp only [antoineLogD]; rw [div_eq_mul_inv, pow_two]
    rw [hf]
    refine HasDerivAt.congr_deriv h ?_
    simp only [antoineLogD2, Nat.cast_ofNat, Nat.add_one_sub_one, pow_one]
    field_simp
  · have := (exp_pos (A - B / T)).ne'
    simp only [antoineRatio, dAntoine, antoineAB]
    field_simp
  · have := (exp_pos (A - B / T)).ne'
    simp only [antoineRatio2, d2Antoine, antoineAB]
    field_simp

/-- **C13.** The same for `DIPPR101_ABC`; the ratios are those of the true derivatives. -/
theorem C13_dippr101_transforms (A B C T : ℝ) (hT : T ≠ 0) :
    dipprLog A B C T = log (dippr101 A B C T) ∧
    HasDerivAt (fun T => log (dippr101 A B C T)) (dipprLogD B C T) T ∧
    HasDerivAt (dipprLogD B C) (dipprLogD2 B C T) T ∧
    HasDerivAt (dippr101 A B C) (dippr101 A B C T * dipprRatio B C T) T ∧
    HasDerivAt (fun T => dippr101 A B C T * dipprRatio B C T)
      (dippr101 A B C T * dipprRatio2 B C T) T := by
  have hlog : (fun T => log (dippr101 A B C T)) = dipprLog A B C := by
    funext T; simp [dippr101, dipprLog]
  have hr : ∀ T, T ≠ 0 → dipprRatio B C T = dipprLogD B C T := by
    intro T hT
    simp only [dipprRatio, dipprLogD]
    field_simp
  have hr2 : dipprRatio2 B C T = dipprLogD B C T ^ 2 + dipprLogD2 B C T := by
    simp only [dipprRatio2, dipprLogD, dipprLogD2]
    field_simp
    ring
  refine ⟨by simp [dippr101, dipprLog], by rw [hlog]; exact dipprLog_deriv A B C hT,
    dipprLogD_deriv B C hT, by rw [hr T hT]; exact dippr101_deriv A B C hT, ?_⟩
  have heq : (fun T => dippr101 A B C T * dipprRatio B C T) =ᶠ[nhds T]
      fun T => dippr101 A B C T * dipprLogD B C T := by
    filter_upwards [isOpen_ne.mem_nhds hT] with S hS
    rw [hr S hS]
  rw [hr2]
  exact (dippr101_deriv2 A B C hT).congr_of_eventuallyEq heq

/-- **C13 (partial).** Without clamping the integral returned for the `constant` and `linear` forms is
the integral of the extrapolated property. Missing: objects with `extrapolation_min` or
`extrapolation_max`, for which it is not (`C13_clamp_ignored`). -/
theorem C13_integral_partial (v d c T1 T2 : ℝ) :
    constIntegral v T1 T2 = ∫ _T in T1..T2, v ∧
    linearIntegral v d c T1 T2 = ∫ T in T1..T2, linear v d c T := by
  constructor
  · rw [integral_const]; simp [constIntegral, mul_comm]
  · have : ∀ T ∈ Set.uIcc T1 T2, HasDerivAt (fun T => (v - c * d) * T + 0.5 * d * (T * T))
        (linear v d c T) T := by
      intro T _
      have h := ((hasDerivAt_id T).const_mul (v - c * d)).add
        (((hasDerivAt_id T).mul (hasDerivAt_id T)).const_mul (0.5 * d))
      refine HasDerivAt.congr_deriv h ?_
      simp only [id, linear]
      ring
    rw [integral_eq_sub_of_hasDerivAt this]
    · simp only [linearIntegral]; ring
    · apply Continuous.intervalIntegrable
      unfold linear
      fun_prop

/-- **C13 (partial).** The same for the integral of the property over temperature. -/
theorem C13_integral_over_T_partial (v d c T1 T2 : ℝ) (h1 : 0 < T1) (h12 : T1 ≤ T2) :
    constIntegralOverT v T1 T2 = ∫ T in T1..T2, v / T ∧
    linearIntegralOverT v d c T1 T2 = ∫ T in T1..T2, linear v d c T / T := by
  have hpos : ∀ T ∈ Set.uIcc T1 T2, 0 < T := by
    intro T hT
    rw [Set.uIcc_of_le h12] at hT
    exact lt_of_lt_of_le h1 hT.1
  have key : ∀ a b : ℝ, ∫ T in T1..T2, (a + b * T) / T = a * log (T2 / T1) + b * (T2 - T1) := by
    intro a b
    have : ∀ T ∈ Set.uIcc T1 T2, HasDerivAt (fun T => a * log T + b * T) ((a + b * T) / T) T := by
      intro T hT
      have hT' := (hpos T hT).ne'
      have h := ((hasDerivAt_log hT').const_mul a).add ((hasDerivAt_id T).const_mul b)
      refine HasDerivAt.congr_deriv h ?_
      field_simp
    rw [integral_eq_sub_of_hasDerivAt this]
    · rw [log_div (by linarith) h1.ne']; ring
    · apply ContinuousOn.intervalIntegrable
      apply ContinuousOn.div
      · fun_prop
      · fun_prop
      · exact fun T hT => (hpos T hT).ne'
  constructor
  · have := key v 0
    simp only [zero_mul, add_zero] at this
    rw [this, constIntegralOverT]
  · have h := key (v - c * d) d
    have e : ∀ T, linear v d c T / T = (v - c * d + d * T) / T := by
      intro T; unfold linear; ring
    simp only [e]
    rw [h, linearIntegralOverT]; ring

example : (0 : ℝ) < 300 ∧ (300 : ℝ) ≤ 400 := by norm_num

/-- **C13, the claim fails** with a lower bound for extrapolated values: the value is clamped to it, but
the derivative and the integral are those of the unclamped line. -/
theorem C13_clamp_ignored :
    ∃ v d c m T : ℝ, clampLow m (linear v d c T) = m ∧
      HasDerivAt (fun T => clampLow m (linear v d c T)) 0 T ∧ d ≠ 0 ∧
      (∫ S in c..T, clampLow m (linear v d c S)) ≠ linearIntegral v d c c T := by
  refine ⟨0, -1, 0, 0, 1, ?_, ?_, by norm_num, ?_⟩
  · unfold clampLow linear; norm_num
  · have : (fun T => clampLow 0 (linear 0 (-1) 0 T)) =ᶠ[nhds (1 : ℝ)] fun _ => 0 := by
      filter_upwards [isOpen_lt continuous_const continuous_id |>.mem_nhds (show (0 : ℝ) < 1 by norm_num)]
        with S hS
      have hS' : (0 : ℝ) < S := hS
      unfold clampLow linear
      rw [if_pos (by linarith)]
    exact (hasDerivAt_const (1 : ℝ) (0 : ℝ)).congr_of_eventuallyEq this
  · have : ∫ S in (0 : ℝ)..1, clampLow 0 (linear 0 (-1) 0 S) = 0 := by
      have e : ∀ S ∈ Set.uIcc (0 : ℝ) 1, clampLow 0 (linear 0 (-1) 0 S) = 0 := by
        intro S hS
        rw [Set.uIcc_of_le (by norm_num)] at hS
        unfold clampLow linear
        by_cases h : S = 0
        · subst h; norm_num
        · have : 0 < S := lt_of_le_of_ne hS.1 (Ne.symm h)
          rw [if_pos (by linarith)]
      rw [integral_congr e]
      simp
    rw [this]
    unfold linearIntegral
    norm_num

end Verif.Extrapolate
