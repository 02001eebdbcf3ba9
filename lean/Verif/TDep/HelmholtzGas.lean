import Mathlib.Analysis.SpecialFunctions.Log.Deriv
import Mathlib.Analysis.SpecialFunctions.ExpDeriv
import Mathlib.Analysis.SpecialFunctions.Pow.Real
import Mathlib.Analysis.SpecialFunctions.Trigonometric.DerivHyp
import Mathlib.Analysis.Calculus.Deriv.Add
import Mathlib.Analysis.Calculus.Deriv.Inv
import Mathlib.MeasureTheory.Integral.IntervalIntegral.FundThmCalculus
import Mathlib.Tactic

/-!
# Ideal gas heat capacities from reduced Helmholtz energies (`thermo/coolprop.py`)

Models the functions `Helmholtz_A0` … `S_ideal_gas_Helmholtz` (`thermo/coolprop.py` 424-678), the conversion of the JSON
description of CoolProp (350-421), the choice of the CoolProp call (257-347), and their use by `HeatCapacityGas`
(`thermo/heat_capacity.py` 408-436, 483-487, 523-527, 550-559).

Simplifications: floats are reals; a list argument which is `None` is the empty list (the loops are skipped in both cases); the
list arguments are read by index for `range(len(ns))`, an index past the end of a companion list (`IndexError`) reads 0 here and
the theorems on the conversion show when the lists are long enough; the results of the CoolProp library are not modelled, only
which of its functions is called with which state.
-/

namespace Verif.HelmGas

open Real

/-! ## The reduced energy and its derivatives -/

/-- The keyword arguments of the functions (`thermo/coolprop.py` 424-435). -/
structure Coeffs where
  /-- `IdealGasHelmholtzLead_a1`. -/
  a1 : ℝ := 0
  /-- `IdealGasHelmholtzLead_a2`. -/
  a2 : ℝ := 0
  /-- `IdealGasHelmholtzLogTau_a`. -/
  la : ℝ := 0
  /-- `IdealGasHelmholtzPlanckEinstein_ns`. -/
  pn : List ℝ := []
  /-- `IdealGasHelmholtzPlanckEinstein_ts`. -/
  pt : List ℝ := []
  /-- `IdealGasHelmholtzPower_ns`. -/
  wn : List ℝ := []
  /-- `IdealGasHelmholtzPower_ts`. -/
  wt : List ℝ := []
  /-- `IdealGasHelmholtzPlanckEinsteinGeneralized_ns`. -/
  gn : List ℝ := []
  /-- `IdealGasHelmholtzPlanckEinsteinGeneralized_ts`. -/
  gt : List ℝ := []
  /-- `IdealGasHelmholtzPlanckEinsteinGeneralized_cs`. -/
  gc : List ℝ := []
  /-- `IdealGasHelmholtzPlanckEinsteinGeneralized_ds`. -/
  gd : List ℝ := []

/-- A loop `for i in range(len(ns))` adding a term which reads two lists. -/
noncomputable def loop2 (f : ℝ → ℝ → ℝ) (ns ts : List ℝ) : ℝ :=
  ∑ i ∈ Finset.range ns.length, f (ns.getD i 0) (ts.getD i 0)

/-- A loop `for i in range(len(ns))` adding a term which reads four lists. -/
noncomputable def loop4 (f : ℝ → ℝ → ℝ → ℝ → ℝ) (ns ts cs ds : List ℝ) : ℝ :=
  ∑ i ∈ Finset.range ns.length, f (ns.getD i 0) (ts.getD i 0) (cs.getD i 0) (ds.getD i 0)

/-- `Helmholtz_A0` (`thermo/coolprop.py` 441-464). -/
noncomputable def A0 (p : Coeffs) (tau delta : ℝ) : ℝ :=
  log delta + (p.a1 + p.a2 * tau) + p.la * log tau
    + loop2 (fun n t => n * log (1 - exp (-t * tau))) p.pn p.pt
    + loop2 (fun n t => n * exp (t * log tau)) p.wn p.wt
    + loop4 (fun n t c d => n * log (c + d * exp (t * tau))) p.gn p.gt p.gc p.gd

/-- `Helmholtz_dA0_dtau` (`thermo/coolprop.py` 477-503). -/
noncomputable def dA0 (p : Coeffs) (tau : ℝ) : ℝ :=
  p.a2 + p.la / tau
    + loop2 (fun n t => let x0 := exp (-tau * t); n * t * x0 / (1 - x0)) p.pn p.pt
    + loop2 (fun n t => n * t * exp ((t - 1) * log tau)) p.wn p.wt
    + loop4 (fun n t c d => let x0 := d * exp (tau * t); n * t * x0 / (c + x0)) p.gn p.gt p.gc p.gd

/-- `Helmholtz_d2A0_dtau2` (`thermo/coolprop.py` 516-540). -/
noncomputable def d2A0 (p : Coeffs) (tau : ℝ) : ℝ :=
  -(p.la / (tau * tau))
    + loop2 (fun n t => let x1 := exp (-tau * t); let x2 := x1 * t / (1 - x1); -(n * (t + x2) * x2)) p.pn p.pt
    + loop2 (fun n t => n * t * (t - 1) * exp ((t - 2) * log tau)) p.wn p.wt
    + loop4 (fun n t c d => let x0 := exp (tau * t); let x1 := d * x0 / (c + d * x0); -n * t * t * (x1 - 1) * x1)
        p.gn p.gt p.gc p.gd

/-- `Helmholtz_d3A0_dtau3` (`thermo/coolprop.py` 553-577). -/
noncomputable def d3A0 (p : Coeffs) (tau : ℝ) : ℝ :=
  2 * p.la / (tau * tau * tau)
    + loop2 (fun n t => let x1 := exp (-tau * t); let x3 := x1 / (1 - x1); n * t * t * t * x3 * (1 + x3 * (3 + 2 * x3))) p.pn p.pt
    + loop2 (fun n t => n * t * (t * t - 3 * t + 2) * exp ((t - 3) * log tau)) p.wn p.wt
    + loop4 (fun n t c d => let x1 := d * exp (tau * t); let x3 := x1 / (c + x1); n * t * t * t * x3 * (1 + x3 * (-3 + 2 * x3)))
        p.gn p.gt p.gc p.gd

/-- `Cp_ideal_gas_Helmholtz` (`thermo/coolprop.py` 589-604). -/
noncomputable def Cp (p : Coeffs) (Tc R T : ℝ) : ℝ :=
  let tau := Tc / T
  R * (-tau * tau * d2A0 p tau + 1)

/-- `H_ideal_gas_Helmholtz` (`thermo/coolprop.py` 617-632). -/
noncomputable def H (p : Coeffs) (Tc R T : ℝ) : ℝ :=
  let tau := Tc / T
  R * T * (tau * dA0 p tau + 1)

/-- `S_ideal_gas_Helmholtz` (`thermo/coolprop.py` 650-678): the reduced density is the constant 1. -/
noncomputable def S (p : Coeffs) (Tc R T : ℝ) : ℝ :=
  let tau := Tc / T
  let delta := 1
  R * (tau * dA0 p tau - A0 p tau delta)

/-- Where the logarithms of the code are defined (a negative or zero argument raises `ValueError`). -/
structure Defined (p : Coeffs) (tau : ℝ) : Prop where
  /-- The reduced inverse temperature is positive. -/
  pos : 0 < tau
  /-- The Planck–Einstein terms. -/
  planck : ∀ i < p.pn.length, 0 < 1 - exp (-(p.pt.getD i 0) * tau)
  /-- The generalized terms. -/
  general : ∀ i < p.gn.length, 0 < p.gc.getD i 0 + p.gd.getD i 0 * exp (p.gt.getD i 0 * tau)

/-! ## Derivatives -/

private theorem loop2_deriv {f : ℝ → ℝ → ℝ → ℝ} {f' : ℝ → ℝ → ℝ} {ns ts : List ℝ} {x : ℝ}
    (h : ∀ i < ns.length, HasDerivAt (fun y => f y (ns.getD i 0) (ts.getD i 0)) (f' (ns.getD i 0) (ts.getD i 0)) x) :
    HasDerivAt (fun y => loop2 (f y) ns ts) (loop2 f' ns ts) x := by
  unfold loop2
  exact HasDerivAt.fun_sum fun i hi => h i (Finset.mem_range.1 hi)

private theorem loop4_deriv {f : ℝ → ℝ → ℝ → ℝ → ℝ → ℝ} {f' : ℝ → ℝ → ℝ → ℝ → ℝ} {ns ts cs ds : List ℝ} {x : ℝ}
    (h : ∀ i < ns.length, HasDerivAt (fun y => f y (ns.getD i 0) (ts.getD i 0) (cs.getD i 0) (ds.getD i 0))
      (f' (ns.getD i 0) (ts.getD i 0) (cs.getD i 0) (ds.getD i 0)) x) :
    HasDerivAt (fun y => loop4 (f y) ns ts cs ds) (loop4 f' ns ts cs ds) x := by
  unfold loop4
  exact HasDerivAt.fun_sum fun i hi => h i (Finset.mem_range.1 hi)

private theorem exp_mul_deriv (t x : ℝ) : HasDerivAt (fun y => exp (t * y)) (t * exp (t * x)) x := by
  have h := ((hasDerivAt_id x).const_mul t).exp
  refine h.congr_deriv ?_
  simp [mul_comm]

private theorem exp_neg_deriv (t x : ℝ) : HasDerivAt (fun y => exp (-y * t)) (-t * exp (-x * t)) x := by
  have h := exp_mul_deriv (-t) x
  refine (h.congr_deriv (by rw [show -t * x = -x * t by ring])).congr_of_eventuallyEq ?_
  filter_upwards with y
  rw [show -t * y = -y * t by ring]

private theorem power_deriv (n t x : ℝ) (hx : 0 < x) :
    HasDerivAt (fun y => n * exp (t * log y)) (n * t * exp ((t - 1) * log x)) x := by
  have h := (((hasDerivAt_log hx.ne').const_mul t).exp).const_mul n
  refine h.congr_deriv ?_
  rw [show (t - 1) * log x = t * log x - log x by ring, exp_sub, exp_log hx]
  field_simp

/-- **C137**: the first derivative function is the derivative of the reduced energy with respect to the inverse temperature,
the second is the derivative of the first, and the third of the second, wherever the energy is defined. -/
theorem C137_derivatives {p : Coeffs} {tau : ℝ} (h : Defined p tau) (delta : ℝ) :
    HasDerivAt (fun y => A0 p y delta) (dA0 p tau) tau ∧ HasDerivAt (dA0 p) (d2A0 p tau) tau ∧
      HasDerivAt (d2A0 p) (d3A0 p tau) tau := by
  have hx := h.pos
  have hx' := hx.ne'
  refine ⟨?_, ?_, ?_⟩
  · unfold A0 dA0
    refine ((((?_ : HasDerivAt _ (p.a2 + p.la / tau) tau).fun_add (loop2_deriv fun i hi => ?_)).fun_add
      (loop2_deriv fun i _ => power_deriv _ _ _ hx)).fun_add (loop4_deriv fun i hi => ?_))
    · have e := ((((hasDerivAt_id tau).const_mul p.a2).const_add p.a1).const_add (log delta)).fun_add
        ((hasDerivAt_log hx').const_mul p.la)
      refine e.congr_deriv ?_
      simp [div_eq_mul_inv]
    · have hp := h.planck i hi
      have e := (((exp_mul_deriv (-p.pt.getD i 0) tau).const_sub 1).log hp.ne').const_mul (p.pn.getD i 0)
      refine e.congr_deriv ?_
      rw [show -tau * p.pt.getD i 0 = -p.pt.getD i 0 * tau by ring]
      have := hp.ne'
      field_simp
    · have hp := h.general i hi
      have e := ((((exp_mul_deriv (p.gt.getD i 0) tau).const_mul (p.gd.getD i 0)).const_add (p.gc.getD i 0)).log hp.ne').const_mul
        (p.gn.getD i 0)
      refine e.congr_deriv ?_
      rw [show tau * p.gt.getD i 0 = p.gt.getD i 0 * tau by ring]
      have := hp.ne'
      field_simp
  · unfold dA0 d2A0
    refine ((((?_ : HasDerivAt _ (-(p.la / (tau * tau))) tau).fun_add (loop2_deriv fun i hi => ?_)).fun_add
      (loop2_deriv fun i _ => ?_)).fun_add (loop4_deriv fun i hi => ?_))
    · have e := ((hasDerivAt_inv hx').const_mul p.la).const_add p.a2
      refine (e.congr_deriv ?_).congr_of_eventuallyEq ?_
      · field_simp
      · filter_upwards with y
        rw [div_eq_mul_inv]
    · have hp := h.planck i hi
      have hp' : (1 - exp (-tau * p.pt.getD i 0)) ≠ 0 := by
        rw [show -tau * p.pt.getD i 0 = -p.pt.getD i 0 * tau by ring]; exact hp.ne'
      have e0 := exp_neg_deriv (p.pt.getD i 0) tau
      have e := (e0.const_mul (p.pn.getD i 0 * p.pt.getD i 0)).fun_div (e0.const_sub 1) hp'
      refine e.congr_deriv ?_
      dsimp only
      generalize exp (-tau * p.pt.getD i 0) = x at hp' ⊢
      field_simp
      ring
    · have e := power_deriv (p.wn.getD i 0 * p.wt.getD i 0) (p.wt.getD i 0 - 1) tau hx
      refine e.congr_deriv ?_
      rw [show p.wt.getD i 0 - 1 - 1 = p.wt.getD i 0 - 2 by ring]
    · have hp := h.general i hi
      have hp' : p.gc.getD i 0 + p.gd.getD i 0 * exp (tau * p.gt.getD i 0) ≠ 0 := by
        rw [show tau * p.gt.getD i 0 = p.gt.getD i 0 * tau by ring]; exact hp.ne'
      have e0 : HasDerivAt (fun y => exp (y * p.gt.getD i 0)) (p.gt.getD i 0 * exp (tau * p.gt.getD i 0)) tau := by
        have := exp_mul_deriv (p.gt.getD i 0) tau
        simpa only [mul_comm] using this
      have e1 := e0.const_mul (p.gd.getD i 0)
      have e := (e1.const_mul (p.gn.getD i 0 * p.gt.getD i 0)).fun_div (e1.const_add (p.gc.getD i 0)) hp'
      refine e.congr_deriv ?_
      dsimp only
      field_simp
      ring
  · unfold d2A0 d3A0
    refine ((((?_ : HasDerivAt _ (2 * p.la / (tau * tau * tau)) tau).fun_add (loop2_deriv fun i hi => ?_)).fun_add
      (loop2_deriv fun i _ => ?_)).fun_add (loop4_deriv fun i hi => ?_))
    · have e1 : HasDerivAt (fun y : ℝ => y * y) (1 * tau + tau * 1) tau := (hasDerivAt_id tau).fun_mul (hasDerivAt_id tau)
      have e := (((hasDerivAt_const tau p.la).fun_div e1 (mul_ne_zero hx' hx')).fun_neg)
      refine e.congr_deriv ?_
      field_simp
      ring
    · have hp := h.planck i hi
      have hp' : (1 - exp (-tau * p.pt.getD i 0)) ≠ 0 := by
        rw [show -tau * p.pt.getD i 0 = -p.pt.getD i 0 * tau by ring]; exact hp.ne'
      have e0 := exp_neg_deriv (p.pt.getD i 0) tau
      have e2 := (e0.mul_const (p.pt.getD i 0)).fun_div (e0.const_sub 1) hp'
      have e := (((e2.const_add (p.pt.getD i 0)).const_mul (p.pn.getD i 0)).fun_mul e2).fun_neg
      refine e.congr_deriv ?_
      dsimp only
      generalize exp (-tau * p.pt.getD i 0) = x at hp' ⊢
      field_simp
      ring
    · have e := power_deriv (p.wn.getD i 0 * p.wt.getD i 0 * (p.wt.getD i 0 - 1)) (p.wt.getD i 0 - 2) tau hx
      refine e.congr_deriv ?_
      rw [show p.wt.getD i 0 - 2 - 1 = p.wt.getD i 0 - 3 by ring]
      ring
    · have hp := h.general i hi
      have hp' : p.gc.getD i 0 + p.gd.getD i 0 * exp (tau * p.gt.getD i 0) ≠ 0 := by
        rw [show tau * p.gt.getD i 0 = p.gt.getD i 0 * tau by ring]; exact hp.ne'
      have e0 : HasDerivAt (fun y => exp (y * p.gt.getD i 0)) (p.gt.getD i 0 * exp (tau * p.gt.getD i 0)) tau := by
        have := exp_mul_deriv (p.gt.getD i 0) tau
        simpa only [mul_comm] using this
      have e1 := e0.const_mul (p.gd.getD i 0)
      have e2 := e1.fun_div (e1.const_add (p.gc.getD i 0)) hp'
      have e := (((e2.sub_const 1).const_mul (-p.gn.getD i 0 * p.gt.getD i 0 * p.gt.getD i 0)).fun_mul e2)
      refine e.congr_deriv ?_
      dsimp only
      field_simp
      ring

private theorem tau_deriv (Tc : ℝ) {T : ℝ} (hT : T ≠ 0) : HasDerivAt (fun y => Tc / y) (-Tc / (T * T)) T := by
  refine (((hasDerivAt_inv hT).const_mul Tc).congr_deriv ?_).congr_of_eventuallyEq ?_
  · field_simp
  · filter_upwards with y
    rw [div_eq_mul_inv]

/-- **C137**: the heat capacity at constant pressure is the temperature derivative of the enthalpy of the same coefficients, and
`(Cp - R)/T` — the heat capacity at constant *volume* over the temperature — is the derivative of the entropy function, which
keeps the density constant. -/
theorem C137_caloric {p : Coeffs} {Tc T : ℝ} (R : ℝ) (hT : 0 < T) (h : Defined p (Tc / T)) :
    HasDerivAt (H p Tc R) (Cp p Tc R T) T ∧ HasDerivAt (S p Tc R) ((Cp p Tc R T - R) / T) T := by
  have ht := tau_deriv Tc hT.ne'
  obtain ⟨d0, d1, -⟩ := C137_derivatives h 1
  have c0 : HasDerivAt (fun y => A0 p (Tc / y) 1) (dA0 p (Tc / T) * (-Tc / (T * T))) T := d0.comp T ht
  have c1 : HasDerivAt (fun y => dA0 p (Tc / y)) (d2A0 p (Tc / T) * (-Tc / (T * T))) T := d1.comp T ht
  have hTne := hT.ne'
  constructor
  · have e := ((hasDerivAt_id T).const_mul R).fun_mul ((ht.fun_mul c1).add_const 1)
    refine e.congr_deriv ?_
    unfold Cp
    dsimp only [id]
    field_simp
    ring
  · have e := ((ht.fun_mul c1).fun_sub c0).const_mul R
    refine e.congr_deriv ?_
    unfold Cp
    dsimp only
    field_simp
    ring

private theorem Cp_continuousOn {p : Coeffs} {Tc : ℝ} (R : ℝ) {s : Set ℝ} (h : ∀ T ∈ s, 0 < T ∧ Defined p (Tc / T)) :
    ContinuousOn (Cp p Tc R) s := by
  intro T hT
  obtain ⟨hpos, hd⟩ := h T hT
  have ht := tau_deriv Tc hpos.ne'
  have c2 : HasDerivAt (fun y => d2A0 p (Tc / y)) _ T := (C137_derivatives hd 1).2.2.comp T ht
  have e := ((((ht.fun_neg.fun_mul ht).fun_mul c2).add_const 1).const_mul R)
  exact e.continuousAt.continuousWithinAt

/-- **C137**: the enthalpy change `HeatCapacityGas.calculate_integral` returns for the CoolProp method
(`thermo/heat_capacity.py` 523-525) is the integral of the heat capacity `calculate` returns. -/
theorem C137_integral {p : Coeffs} {Tc T1 T2 : ℝ} (R : ℝ) (h : ∀ T ∈ Set.uIcc T1 T2, 0 < T ∧ Defined p (Tc / T)) :
    ∫ T in T1..T2, Cp p Tc R T = H p Tc R T2 - H p Tc R T1 :=
  intervalIntegral.integral_eq_sub_of_hasDerivAt (fun T hT => (C137_caloric R (h T hT).1 (h T hT).2).1)
    (Cp_continuousOn R h).intervalIntegrable

/-- **C137**: the integral of `Cp/T` has a closed form as well: the change of the entropy function plus `R ln(T2/T1)`. The
docstring of `S_ideal_gas_Helmholtz` (`thermo/coolprop.py` 647-649) says that it cannot be used for this and that the heat
capacity cannot be integrated over the temperature analytically. -/
theorem C137_integral_over_T {p : Coeffs} {Tc T1 T2 : ℝ} (R : ℝ) (h : ∀ T ∈ Set.uIcc T1 T2, 0 < T ∧ Defined p (Tc / T)) :
    ∫ T in T1..T2, Cp p Tc R T / T = S p Tc R T2 - S p Tc R T1 + R * log (T2 / T1) := by
  have h1 := (h T1 Set.left_mem_uIcc).1
  have h2 := (h T2 Set.right_mem_uIcc).1
  have hd : ∀ T ∈ Set.uIcc T1 T2, HasDerivAt (fun T => S p Tc R T + R * log T) (Cp p Tc R T / T) T := by
    intro T hT
    have hpos := (h T hT).1
    have e := (C137_caloric R hpos (h T hT).2).2.fun_add ((hasDerivAt_log hpos.ne').const_mul R)
    refine e.congr_deriv ?_
    have := hpos.ne'
    field_simp
    ring
  rw [intervalIntegral.integral_eq_sub_of_hasDerivAt hd, log_div h2.ne' h1.ne']
  · ring
  · refine ContinuousOn.intervalIntegrable ?_
    exact (Cp_continuousOn R h).div continuousOn_id fun T hT => (h T hT).1.ne'

/-- **C137**: the heat capacity in terms of the temperature: the logarithmic term adds its coefficient, a Planck–Einstein term
the Einstein function of `t·Tc/T`, a power term `-n t(t-1) (Tc/T)^t`, and a generalized term
`-n c d x² eˣ/(c + d eˣ)²` with `x = t·Tc/T`. -/
theorem C137_Cp {p : Coeffs} {Tc T : ℝ} (R : ℝ) (h : Defined p (Tc / T)) :
    Cp p Tc R T = R * (1 + p.la
      + (∑ i ∈ Finset.range p.pn.length, p.pn.getD i 0 * (p.pt.getD i 0 * (Tc / T)) ^ 2 * exp (-(p.pt.getD i 0 * (Tc / T)))
          / (1 - exp (-(p.pt.getD i 0 * (Tc / T)))) ^ 2)
      - (∑ i ∈ Finset.range p.wn.length, p.wn.getD i 0 * p.wt.getD i 0 * (p.wt.getD i 0 - 1) * (Tc / T) ^ p.wt.getD i 0)
      - (∑ i ∈ Finset.range p.gn.length, p.gn.getD i 0 * (p.gc.getD i 0 * p.gd.getD i 0) * (p.gt.getD i 0 * (Tc / T)) ^ 2
          * exp (p.gt.getD i 0 * (Tc / T)) / (p.gc.getD i 0 + p.gd.getD i 0 * exp (p.gt.getD i 0 * (Tc / T))) ^ 2)) := by
  unfold Cp d2A0 loop2 loop4
  dsimp only
  generalize hτ : Tc / T = τ at *
  have hx := h.pos
  have hx' := hx.ne'
  congr 1
  have e1 : -τ * τ * -(p.la / (τ * τ)) = p.la := by field_simp
  have e2 : -τ * τ * (∑ i ∈ Finset.range p.pn.length, -(p.pn.getD i 0 * (p.pt.getD i 0 + exp (-τ * p.pt.getD i 0) * p.pt.getD i 0
        / (1 - exp (-τ * p.pt.getD i 0))) * (exp (-τ * p.pt.getD i 0) * p.pt.getD i 0 / (1 - exp (-τ * p.pt.getD i 0)))))
      = ∑ i ∈ Finset.range p.pn.length, p.pn.getD i 0 * (p.pt.getD i 0 * τ) ^ 2 * exp (-(p.pt.getD i 0 * τ))
          / (1 - exp (-(p.pt.getD i 0 * τ))) ^ 2 := by
    rw [Finset.mul_sum]
    refine Finset.sum_congr rfl fun i hi => ?_
    have hp := (h.planck i (Finset.mem_range.1 hi)).ne'
    rw [show -p.pt.getD i 0 * τ = -(p.pt.getD i 0 * τ) by ring] at hp
    rw [show -τ * p.pt.getD i 0 = -(p.pt.getD i 0 * τ) by ring]
    generalize exp (-(p.pt.getD i 0 * τ)) = x at hp ⊢
    field_simp
    ring
  have e3 : -τ * τ * (∑ i ∈ Finset.range p.wn.length, p.wn.getD i 0 * p.wt.getD i 0 * (p.wt.getD i 0 - 1)
        * exp ((p.wt.getD i 0 - 2) * log τ))
      = -∑ i ∈ Finset.range p.wn.length, p.wn.getD i 0 * p.wt.getD i 0 * (p.wt.getD i 0 - 1) * τ ^ p.wt.getD i 0 := by
    rw [Finset.mul_sum, ← Finset.sum_neg_distrib]
    refine Finset.sum_congr rfl fun i _ => ?_
    rw [show (p.wt.getD i 0 - 2) * log τ = log τ * p.wt.getD i 0 - log τ - log τ by ring, exp_sub, exp_sub, exp_log hx,
      ← rpow_def_of_pos hx]
    field_simp
  have e4 : -τ * τ * (∑ i ∈ Finset.range p.gn.length, -p.gn.getD i 0 * p.gt.getD i 0 * p.gt.getD i 0
        * (p.gd.getD i 0 * exp (τ * p.gt.getD i 0) / (p.gc.getD i 0 + p.gd.getD i 0 * exp (τ * p.gt.getD i 0)) - 1)
        * (p.gd.getD i 0 * exp (τ * p.gt.getD i 0) / (p.gc.getD i 0 + p.gd.getD i 0 * exp (τ * p.gt.getD i 0))))
      = -∑ i ∈ Finset.range p.gn.length, p.gn.getD i 0 * (p.gc.getD i 0 * p.gd.getD i 0) * (p.gt.getD i 0 * τ) ^ 2
          * exp (p.gt.getD i 0 * τ) / (p.gc.getD i 0 + p.gd.getD i 0 * exp (p.gt.getD i 0 * τ)) ^ 2 := by
    rw [Finset.mul_sum, ← Finset.sum_neg_distrib]
    refine Finset.sum_congr rfl fun i hi => ?_
    have hp := (h.general i (Finset.mem_range.1 hi)).ne'
    rw [show τ * p.gt.getD i 0 = p.gt.getD i 0 * τ by ring]
    generalize exp (p.gt.getD i 0 * τ) = x at hp ⊢
    field_simp
    ring
  rw [mul_add, mul_add, mul_add, e1, e2, e3, e4]
  ring

/-- The Einstein function lies between 0 and 1. -/
private theorem einstein_bounds {x : ℝ} (hx : 0 < x) :
    0 ≤ x ^ 2 * exp (-x) / (1 - exp (-x)) ^ 2 ∧ x ^ 2 * exp (-x) / (1 - exp (-x)) ^ 2 ≤ 1 := by
  have hd : 0 < 1 - exp (-x) := by
    have : exp (-x) < 1 := by rw [exp_lt_one_iff]; linarith
    linarith
  refine ⟨by positivity, ?_⟩
  rw [div_le_one (by positivity)]
  have hs : x / 2 ≤ sinh (x / 2) := Real.self_le_sinh_iff.2 (by linarith)
  rw [sinh_eq] at hs
  have hE : exp (-x) = exp (-(x / 2)) ^ 2 := by rw [← exp_nat_mul]; congr 1; push_cast; ring
  have h1 : exp (x / 2) * exp (-(x / 2)) = 1 := by rw [← exp_add]; simp
  have hpos := exp_pos (-(x / 2))
  have h2 : x * exp (-(x / 2)) ≤ 1 - exp (-x) := by
    rw [hE]
    nlinarith
  calc x ^ 2 * exp (-x) = (x * exp (-(x / 2))) ^ 2 := by rw [hE]; ring
    _ ≤ (1 - exp (-x)) ^ 2 := by
      apply pow_le_pow_left₀ (by positivity) h2

/-- **C137**: for coefficients with only lead, logarithmic and Planck–Einstein terms of positive characteristic temperatures and
non-negative weights, the heat capacity is defined at every positive temperature and lies between `R(1 + a)` (no vibration
excited) and `R(1 + a + Σ n)` (all excited). -/
theorem C137_bounds {p : Coeffs} {Tc R T : ℝ} (hR : 0 < R) (hTc : 0 < Tc) (hT : 0 < T) (hw : p.wn = []) (hg : p.gn = [])
    (hn : ∀ i < p.pn.length, 0 ≤ p.pn.getD i 0 ∧ 0 < p.pt.getD i 0) :
    Defined p (Tc / T) ∧ R * (1 + p.la) ≤ Cp p Tc R T ∧
      Cp p Tc R T ≤ R * (1 + p.la + ∑ i ∈ Finset.range p.pn.length, p.pn.getD i 0) := by
  have hτ : 0 < Tc / T := by positivity
  have hd : Defined p (Tc / T) := by
    refine ⟨hτ, fun i hi => ?_, fun i hi => ?_⟩
    · have h1 : exp (-(p.pt.getD i 0) * (Tc / T)) < 1 := by
        rw [exp_lt_one_iff]
        have := mul_pos (hn i hi).2 hτ
        linarith
      linarith
    · simp [hg] at hi
  refine ⟨hd, ?_, ?_⟩
  all_goals
    rw [C137_Cp R hd, hw, hg]
    simp only [List.length_nil, Finset.range_zero, Finset.sum_empty, sub_zero]
    refine mul_le_mul_of_nonneg_left ?_ hR.le
  · have : 0 ≤ ∑ i ∈ Finset.range p.pn.length, p.pn.getD i 0 * (p.pt.getD i 0 * (Tc / T)) ^ 2 * exp (-(p.pt.getD i 0 * (Tc / T)))
          / (1 - exp (-(p.pt.getD i 0 * (Tc / T)))) ^ 2 := by
      refine Finset.sum_nonneg fun i hi => ?_
      have h0 := hn i (Finset.mem_range.1 hi)
      have := mul_nonneg h0.1 (einstein_bounds (mul_pos h0.2 hτ)).1
      rw [mul_assoc, mul_div_assoc]
      exact this
    linarith
  · refine add_le_add le_rfl (Finset.sum_le_sum fun i hi => ?_)
    have h0 := hn i (Finset.mem_range.1 hi)
    have := mul_le_mul_of_nonneg_left (einstein_bounds (mul_pos h0.2 hτ)).2 h0.1
    rw [mul_assoc, mul_div_assoc]
    simpa using this

/-- **C137**: a generalized term with `c = 1`, `d = -1` and exponent `-t` is the Planck–Einstein term with `t`, in the energy and
in its three derivatives. -/
theorem C137_generalized (n t tau delta : ℝ) (ht : 0 < t) (htau : 0 < tau) :
    let g : Coeffs := { gn := [n], gt := [-t], gc := [1], gd := [-1] }
    let q : Coeffs := { pn := [n], pt := [t] }
    A0 g tau delta = A0 q tau delta ∧ dA0 g tau = dA0 q tau ∧ d2A0 g tau = d2A0 q tau ∧ d3A0 g tau = d3A0 q tau := by
  have hx : exp (-tau * t) < 1 := by
    rw [exp_lt_one_iff]
    have := mul_pos htau ht
    linarith
  have e1 : -t * tau = -tau * t := by ring
  have e2 : tau * -t = -tau * t := by ring
  have hne : (1 : ℝ) - exp (-tau * t) ≠ 0 := by linarith
  have hne' : (1 : ℝ) + -exp (-tau * t) ≠ 0 := by rw [← sub_eq_add_neg]; exact hne
  refine ⟨?_, ?_, ?_, ?_⟩
  · simp [A0, loop2, loop4, sub_eq_add_neg]
  · simp only [dA0, loop2, loop4, List.length_nil, List.length_cons, Finset.range_zero, Finset.sum_empty, Finset.sum_range_one,
      List.getD_cons_zero, e2, zero_add, add_zero]
    generalize exp (-tau * t) = x at *
    field_simp
    ring
  · simp only [d2A0, loop2, loop4, List.length_nil, List.length_cons, Finset.range_zero, Finset.sum_empty, Finset.sum_range_one,
      List.getD_cons_zero, e2, zero_add, add_zero]
    generalize exp (-tau * t) = x at *
    field_simp
    ring
  · simp only [d3A0, loop2, loop4, List.length_nil, List.length_cons, Finset.range_zero, Finset.sum_empty, Finset.sum_range_one,
      List.getD_cons_zero, e2, zero_add, add_zero]
    generalize exp (-tau * t) = x at *
    field_simp
    ring

/-- A fluid with one term of every kind (`a = 3/2`, Planck–Einstein 2 at 3, power 1 at -1, generalized as for air). -/
noncomputable def demo : Coeffs where
  a1 := 1
  a2 := 2
  la := 3 / 2
  pn := [2]
  pt := [3]
  wn := [1]
  wt := [-1]
  gn := [-1 / 5]
  gt := [4]
  gc := [2 / 3]
  gd := [1]

theorem demo_defined {tau : ℝ} (h : 0 < tau) : Defined demo tau := by
  refine ⟨h, fun i hi => ?_, fun i hi => ?_⟩
  · have : i = 0 := by simpa [demo] using hi
    subst this
    have : exp (-3 * tau) < 1 := by rw [exp_lt_one_iff]; linarith
    simpa [demo] using this
  · have : i = 0 := by simpa [demo] using hi
    subst this
    simp only [demo, List.getD_cons_zero]
    positivity

/-- The hypotheses of `C137_derivatives`, `C137_caloric` and the integrals hold for the demonstration fluid at every positive
temperature. -/
example : Defined demo (2 : ℝ) ∧ ∀ T ∈ Set.uIcc (300 : ℝ) 400, 0 < T ∧ Defined demo (132.5 / T) := by
  refine ⟨demo_defined (by norm_num), fun T hT => ?_⟩
  have : 300 ≤ T := by
    rw [Set.uIcc_of_le (by norm_num)] at hT
    exact hT.1
  exact ⟨by linarith, demo_defined (by apply div_pos <;> linarith)⟩

/-- A monatomic gas (`a = 3/2` in the energy gives `Cp = 5/2 R`): the hypotheses of `C137_bounds` with no vibration, where the
bounds meet. -/
example {T : ℝ} (hT : 0 < T) : Cp { la := 3 / 2 } 150 8 T = 20 := by
  have h := C137_bounds (p := { la := 3 / 2 }) (Tc := 150) (R := 8) (by norm_num) (by norm_num) hT rfl rfl (by simp)
  have h1 := h.2.1
  have h2 := h.2.2
  simp only [List.length_nil, Finset.range_zero, Finset.sum_empty] at h1 h2
  linarith

/-- **C137**: the entropy function itself is not an antiderivative of `Cp/T`: for a monatomic gas between 100 and 200 K it is
short by `R ln 2`. -/
theorem C137_entropy_fails : ∃ (p : Coeffs) (Tc R T1 T2 : ℝ), 0 < R ∧ (∀ T ∈ Set.uIcc T1 T2, 0 < T ∧ Defined p (Tc / T)) ∧
    ∫ T in T1..T2, Cp p Tc R T / T ≠ S p Tc R T2 - S p Tc R T1 := by
  have h : ∀ T ∈ Set.uIcc (100 : ℝ) 200, 0 < T ∧ Defined { la := 3 / 2 } (150 / T) := by
    intro T hT
    rw [Set.uIcc_of_le (by norm_num)] at hT
    have : 0 < T := by linarith [hT.1]
    exact ⟨this, ⟨by positivity, by simp, by simp⟩⟩
  refine ⟨{ la := 3 / 2 }, 150, 8, 100, 200, by norm_num, h, ?_⟩
  rw [C137_integral_over_T 8 h]
  have : 0 < log ((200 : ℝ) / 100) := log_pos (by norm_num)
  intro e
  linarith

/-! ## Conversion of the JSON description -/

/-- The lists of the JSON data and of the result; a list object is its position here. -/
abbrev Heap := List (List ℝ)

/-- The content of a list object. -/
def Heap.get (h : Heap) (r : ℕ) : List ℝ := h.getD r []

/-- `h[r].extend(h[a])`. -/
def Heap.extend (h : Heap) (r a : ℕ) : Heap := h.set r (h.get r ++ h.get a)

/-- One entry of `alpha0`; the lists are the objects of the JSON data. -/
inductive Term
  /-- `IdealGasHelmholtzLead`. -/
  | lead (a1 a2 : ℝ)
  /-- `IdealGasHelmholtzLogTau`. -/
  | logTau (a : ℝ)
  /-- `IdealGasHelmholtzPlanckEinstein`. -/
  | planck (n t : ℕ)
  /-- `IdealGasHelmholtzPlanckEinsteinGeneralized`. -/
  | general (n t c d : ℕ)
  /-- `IdealGasHelmholtzPower`. -/
  | power (n t : ℕ)
  /-- `IdealGasHelmholtzPlanckEinsteinFunctionT`. -/
  | functionT (n v : ℕ)
  /-- `IdealGasHelmholtzEnthalpyEntropyOffset`. -/
  | offset
  /-- Any other type. -/
  | other

/-- The dictionary `kwargs`; the lists are objects. -/
structure Kw where
  /-- `IdealGasHelmholtzLead_a1`. -/
  a1 : Option ℝ := none
  /-- `IdealGasHelmholtzLead_a2`. -/
  a2 : Option ℝ := none
  /-- `IdealGasHelmholtzLogTau_a`. -/
  la : Option ℝ := none
  /-- `IdealGasHelmholtzPlanckEinstein_ns`. -/
  pn : Option ℕ := none
  /-- `IdealGasHelmholtzPlanckEinstein_ts`. -/
  pt : Option ℕ := none
  /-- `IdealGasHelmholtzPower_ns`. -/
  wn : Option ℕ := none
  /-- `IdealGasHelmholtzPower_ts`. -/
  wt : Option ℕ := none
  /-- `IdealGasHelmholtzPlanckEinsteinGeneralized_ns`. -/
  gn : Option ℕ := none
  /-- `IdealGasHelmholtzPlanckEinsteinGeneralized_ts`. -/
  gt : Option ℕ := none
  /-- `IdealGasHelmholtzPlanckEinsteinGeneralized_cs`. -/
  gc : Option ℕ := none
  /-- `IdealGasHelmholtzPlanckEinsteinGeneralized_ds`. -/
  gd : Option ℕ := none

/-- `if name in kwargs: kwargs[name].extend(arg) else: kwargs[name] = arg` (`thermo/coolprop.py` 384-387, 405-408). -/
def put (slot : Option ℕ) (h : Heap) (arg : ℕ) : ℕ × Heap :=
  match slot with
  | some r => (r, h.extend r arg)
  | none => (arg, h)

/-- The loop over the four lists (`thermo/coolprop.py` 380-387, 401-408). -/
def putFour (k : Kw) (h : Heap) (n t c d : ℕ) : Kw × Heap :=
  let rn := put k.gn h n
  let rt := put k.gt rn.2 t
  let rc := put k.gc rt.2 c
  let rd := put k.gd rc.2 d
  ({ k with gn := some rn.1, gt := some rt.1, gc := some rc.1, gd := some rd.1 }, rd.2)

/-- One round of the loop (`thermo/coolprop.py` 370-414). -/
noncomputable def step (Tc : ℝ) (k : Kw) (h : Heap) : Term → Except String (Kw × Heap)
  | .lead a1 a2 => .ok ({ k with a1 := some a1, a2 := some a2 }, h)
  | .logTau a => .ok ({ k with la := some a }, h)
  | .planck n t => .ok ({ k with pn := some n, pt := some t }, h)
  | .general n t c d => .ok (putFour k h n t c d)
  | .power n t => .ok ({ k with wn := some n, wt := some t }, h)
  | .functionT n v =>
    let theta := (h.get v).map fun x => -x / Tc
    let c := List.replicate (h.get v).length (1 : ℝ)
    let d := List.replicate (h.get v).length (-1 : ℝ)
    let h' := h ++ [theta, c, d]
    let l := h.length
    .ok (putFour { k with gt := some l, gc := some (l + 1), gd := some (l + 2) } h' n l (l + 1) (l + 2))
  | .offset => .ok (k, h)
  | .other => .error "ValueError"

/-- `CoolProp_json_alpha0_to_kwargs` (`thermo/coolprop.py` 366-421), without the conversion to arrays. -/
noncomputable def convert (Tc : ℝ) : List Term → Kw → Heap → Except String (Kw × Heap)
  | [], k, h => .ok (k, h)
  | x :: xs, k, h =>
    match step Tc k h x with
    | .ok (k', h') => convert Tc xs k' h'
    | .error e => .error e

/-- The arguments the functions above receive as `**kwargs`. -/
def coeffs (k : Kw) (h : Heap) : Coeffs where
  a1 := k.a1.getD 0
  a2 := k.a2.getD 0
  la := k.la.getD 0
  pn := (k.pn.map h.get).getD []
  pt := (k.pt.map h.get).getD []
  wn := (k.wn.map h.get).getD []
  wt := (k.wt.map h.get).getD []
  gn := (k.gn.map h.get).getD []
  gt := (k.gt.map h.get).getD []
  gc := (k.gc.map h.get).getD []
  gd := (k.gd.map h.get).getD []

/-- What an entry of `alpha0` means: its part of the reduced energy at temperature `T` (a `FunctionT` entry gives characteristic
temperatures in kelvin). -/
noncomputable def meaning (Tc : ℝ) (h : Heap) (T : ℝ) : Term → ℝ
  | .lead a1 a2 => a1 + a2 * (Tc / T)
  | .logTau a => a * log (Tc / T)
  | .planck n t => ∑ i ∈ Finset.range (h.get n).length, (h.get n).getD i 0 * log (1 - exp (-((h.get t).getD i 0 * Tc / T)))
  | .general n t c d => ∑ i ∈ Finset.range (h.get n).length,
      (h.get n).getD i 0 * log ((h.get c).getD i 0 + (h.get d).getD i 0 * exp ((h.get t).getD i 0 * Tc / T))
  | .power n t => ∑ i ∈ Finset.range (h.get n).length, (h.get n).getD i 0 * (Tc / T) ^ (h.get t).getD i 0
  | .functionT n v => ∑ i ∈ Finset.range (h.get n).length, (h.get n).getD i 0 * log (1 - exp (-((h.get v).getD i 0 / T)))
  | .offset => 0
  | .other => 0

/-- The keywords an entry sets. -/
def slot : Term → Option (Fin 5)
  | .lead _ _ => some 0
  | .logTau _ => some 1
  | .planck _ _ => some 2
  | .power _ _ => some 3
  | .general _ _ _ _ => some 4
  | .functionT _ _ => some 4
  | .offset => none
  | .other => none

/-- A well-formed entry: a known type, lists of the JSON data, and at least as many temperatures as weights. -/
def WellFormed (h : Heap) : Term → Prop
  | .planck n t => n < h.length ∧ t < h.length
  | .power n t => n < h.length ∧ t < h.length
  | .general n t c d => n < h.length ∧ t < h.length ∧ c < h.length ∧ d < h.length
  | .functionT n v => n < h.length ∧ v < h.length ∧ (h.get n).length ≤ (h.get v).length
  | .other => False
  | _ => True

/-- No entry of this kind has been read. -/
def Free (k : Kw) : Fin 5 → Prop
  | 0 => k.a1 = none ∧ k.a2 = none
  | 1 => k.la = none
  | 2 => k.pn = none ∧ k.pt = none
  | 3 => k.wn = none ∧ k.wt = none
  | 4 => k.gn = none ∧ k.gt = none ∧ k.gc = none ∧ k.gd = none

/-- The list objects of the dictionary exist. -/
def Valid (k : Kw) (h : Heap) : Prop :=
  (∀ r ∈ k.pn, r < h.length) ∧ (∀ r ∈ k.pt, r < h.length) ∧ (∀ r ∈ k.wn, r < h.length) ∧ (∀ r ∈ k.wt, r < h.length) ∧
    (∀ r ∈ k.gn, r < h.length) ∧ (∀ r ∈ k.gt, r < h.length) ∧ (∀ r ∈ k.gc, r < h.length) ∧ (∀ r ∈ k.gd, r < h.length)

private theorem get_set (h : Heap) (r s : ℕ) (l : List ℝ) (hr : r < h.length) :
    Heap.get (h.set r l) s = if s = r then l else h.get s := by
  unfold Heap.get
  by_cases e : s = r
  · subst e
    simp [List.getD_eq_getElem?_getD, hr]
  · simp [List.getD_eq_getElem?_getD, List.getElem?_set, e, Ne.symm e]

private theorem get_append_left (h t : Heap) (r : ℕ) (hr : r < h.length) : Heap.get (h ++ t) r = h.get r := by
  unfold Heap.get
  simp [List.getD_eq_getElem?_getD, List.getElem?_append_left hr]

private theorem get_append_right (h t : Heap) (i : ℕ) : Heap.get (h ++ t) (h.length + i) = t.getD i [] := by
  unfold Heap.get
  rw [List.getD_eq_getElem?_getD, List.getD_eq_getElem?_getD, List.getElem?_append_right (Nat.le_add_right _ _)]
  congr 2
  exact Nat.add_sub_cancel_left ..

private theorem getD_double (l : List ℝ) (i : ℕ) (hi : i < l.length) : (l ++ l).getD i 0 = l.getD i 0 := by
  simp [List.getD_eq_getElem?_getD, List.getElem?_append_left hi]

/-- What reading a `FunctionT` entry does: the three lists made for it are each extended by themselves. -/
private theorem step_functionT (Tc : ℝ) (k : Kw) (h : Heap) (n v : ℕ) (hk : k.gn = none) (hn : n < h.length) :
    ∃ h', step Tc k h (.functionT n v) = .ok ({ k with gn := some n, gt := some h.length, gc := some (h.length + 1), gd := some (h.length + 2) }, h') ∧
      h'.length = h.length + 3 ∧ (∀ r < h.length, h'.get r = h.get r) ∧
      h'.get h.length = ((h.get v).map fun x => -x / Tc) ++ ((h.get v).map fun x => -x / Tc) ∧
      h'.get (h.length + 1) = List.replicate (h.get v).length 1 ++ List.replicate (h.get v).length 1 ∧
      h'.get (h.length + 2) = List.replicate (h.get v).length (-1) ++ List.replicate (h.get v).length (-1) := by
  set θ := (h.get v).map fun x => -x / Tc with hθ
  set c := List.replicate (h.get v).length (1 : ℝ) with hc
  set d := List.replicate (h.get v).length (-1 : ℝ) with hd
  have g0 : Heap.get (h ++ [θ, c, d]) h.length = θ := by simpa using get_append_right h [θ, c, d] 0
  have g1 : Heap.get (h ++ [θ, c, d]) (h.length + 1) = c := by simpa using get_append_right h [θ, c, d] 1
  have g2 : Heap.get (h ++ [θ, c, d]) (h.length + 2) = d := by simpa using get_append_right h [θ, c, d] 2
  refine ⟨_, by simp only [step, putFour, put, hk]; rfl, ?_, ?_, ?_, ?_, ?_⟩
  · simp [Heap.extend]
  · intro r hr
    have h0 : r ≠ h.length := by omega
    have h1 : r ≠ h.length + 1 := by omega
    have h2 : r ≠ h.length + 2 := by omega
    simp only [Heap.extend]
    rw [get_set _ _ _ _ (by simp), if_neg h2, get_set _ _ _ _ (by simp), if_neg h1, get_set _ _ _ _ (by simp), if_neg h0,
      get_append_left _ _ _ hr]
  · simp only [Heap.extend]
    rw [get_set _ _ _ _ (by simp), if_neg (by omega), get_set _ _ _ _ (by simp), if_neg (by omega), get_set _ _ _ _ (by simp),
      if_pos rfl, g0]
  · simp only [Heap.extend]
    rw [get_set _ _ _ _ (by simp), if_neg (by omega), get_set _ _ _ _ (by simp), if_pos rfl, get_set _ _ _ _ (by simp),
      if_neg (by omega), g1]
  · simp only [Heap.extend]
    rw [get_set _ _ _ _ (by simp), if_pos rfl, get_set _ _ _ _ (by simp), if_neg (by omega), get_set _ _ _ _ (by simp),
      if_neg (by omega), g2]

private theorem coeffs_congr {k : Kw} {h h' : Heap} (hv : Valid k h) (hh : ∀ r < h.length, h'.get r = h.get r) :
    coeffs k h' = coeffs k h := by
  obtain ⟨v1, v2, v3, v4, v5, v6, v7, v8⟩ := hv
  have key : ∀ o : Option ℕ, (∀ r ∈ o, r < h.length) → o.map h'.get = o.map h.get := by
    intro o ho
    cases o with
    | none => rfl
    | some r => simp [hh r (ho r rfl)]
  simp only [coeffs, key _ v1, key _ v2, key _ v3, key _ v4, key _ v5, key _ v6, key _ v7, key _ v8]

private theorem step_spec (Tc : ℝ) (k : Kw) (h : Heap) (x : Term) (hw : WellFormed h x) (hf : ∀ i ∈ slot x, Free k i)
    (hv : Valid k h) :
    ∃ k' h', step Tc k h x = .ok (k', h') ∧ h.length ≤ h'.length ∧ (∀ r < h.length, h'.get r = h.get r) ∧ Valid k' h' ∧
      (∀ i, Free k i → slot x ≠ some i → Free k' i) ∧
      ∀ T delta, 0 < T → 0 < Tc → A0 (coeffs k' h') (Tc / T) delta = A0 (coeffs k h) (Tc / T) delta + meaning Tc h T x := by
  obtain ⟨v1, v2, v3, v4, v5, v6, v7, v8⟩ := hv
  cases x with
  | lead a1 a2 =>
    obtain ⟨f1, f2⟩ := hf 0 rfl
    refine ⟨_, _, rfl, le_rfl, fun _ _ => rfl, ⟨v1, v2, v3, v4, v5, v6, v7, v8⟩, ?_, ?_⟩
    · intro i hi hne
      fin_cases i <;> simp_all [Free, slot]
    · intro T delta _ _
      simp only [A0, coeffs, meaning, f1, f2, Option.getD_none, Option.getD_some]
      ring
  | logTau a =>
    have f1 := hf 1 rfl
    refine ⟨_, _, rfl, le_rfl, fun _ _ => rfl, ⟨v1, v2, v3, v4, v5, v6, v7, v8⟩, ?_, ?_⟩
    · intro i hi hne
      fin_cases i <;> simp_all [Free, slot]
    · intro T delta _ _
      simp only [Free] at f1
      simp only [A0, coeffs, meaning, f1, Option.getD_none, Option.getD_some]
      ring
  | planck n t =>
    obtain ⟨f1, f2⟩ := hf 2 rfl
    obtain ⟨w1, w2⟩ := hw
    refine ⟨_, _, rfl, le_rfl, fun _ _ => rfl, ⟨?_, ?_, v3, v4, v5, v6, v7, v8⟩, ?_, ?_⟩
    · simpa using w1
    · simpa using w2
    · intro i hi hne
      fin_cases i <;> simp_all [Free, slot]
    · intro T delta _ _
      simp only [A0, coeffs, meaning, f1, f2, Option.map_some, Option.map_none, Option.getD_none, Option.getD_some]
      have e0 : loop2 (fun n t => n * log (1 - exp (-t * (Tc / T)))) [] [] = 0 := by simp [loop2]
      have e1 : loop2 (fun n t => n * log (1 - exp (-t * (Tc / T)))) (h.get n) (h.get t) = ∑ i ∈ Finset.range (h.get n).length,
          (h.get n).getD i 0 * log (1 - exp (-((h.get t).getD i 0 * Tc / T))) := by
        unfold loop2
        refine Finset.sum_congr rfl fun i _ => ?_
        dsimp only
        rw [show -(h.get t).getD i 0 * (Tc / T) = -((h.get t).getD i 0 * Tc / T) by ring]
      rw [e0, e1]
      ring
  | power n t =>
    obtain ⟨f1, f2⟩ := hf 3 rfl
    obtain ⟨w1, w2⟩ := hw
    refine ⟨_, _, rfl, le_rfl, fun _ _ => rfl, ⟨v1, v2, ?_, ?_, v5, v6, v7, v8⟩, ?_, ?_⟩
    · simpa using w1
    · simpa using w2
    · intro i hi hne
      fin_cases i <;> simp_all [Free, slot]
    · intro T delta hT hTc
      simp only [A0, coeffs, meaning, f1, f2, Option.map_some, Option.map_none, Option.getD_none, Option.getD_some]
      have e0 : loop2 (fun n t => n * exp (t * log (Tc / T))) [] [] = 0 := by simp [loop2]
      have e1 : loop2 (fun n t => n * exp (t * log (Tc / T))) (h.get n) (h.get t) = ∑ i ∈ Finset.range (h.get n).length,
          (h.get n).getD i 0 * (Tc / T) ^ (h.get t).getD i 0 := by
        unfold loop2
        refine Finset.sum_congr rfl fun i _ => ?_
        rw [rpow_def_of_pos (by positivity), mul_comm (log (Tc / T))]
      rw [e0, e1]
      ring
  | general n t c d =>
    obtain ⟨f1, f2, f3, f4⟩ := hf 4 rfl
    obtain ⟨w1, w2, w3, w4⟩ := hw
    refine ⟨{ k with gn := some n, gt := some t, gc := some c, gd := some d }, h, ?_, le_rfl, fun _ _ => rfl,
      ⟨v1, v2, v3, v4, ?_, ?_, ?_, ?_⟩, ?_, ?_⟩
    · simp only [step, putFour, put, f1, f2, f3, f4]
    · simpa using w1
    · simpa using w2
    · simpa using w3
    · simpa using w4
    · intro i hi hne
      fin_cases i <;> simp_all [Free, slot]
    · intro T delta _ _
      simp only [A0, coeffs, meaning, f1, f2, f3, f4, Option.map_some, Option.map_none, Option.getD_none, Option.getD_some]
      have e0 : loop4 (fun n t c d => n * log (c + d * exp (t * (Tc / T)))) [] [] [] [] = 0 := by simp [loop4]
      rw [e0]
      unfold loop4
      simp only [mul_div_assoc, add_zero]
  | functionT n v =>
    obtain ⟨f1, f2, f3, f4⟩ := hf 4 rfl
    obtain ⟨w1, w2, w3⟩ := hw
    obtain ⟨h', e, hl, hp, ht, hc, hd⟩ := step_functionT Tc k h n v f1 w1
    refine ⟨_, h', e, by omega, hp, ⟨?_, ?_, ?_, ?_, ?_, ?_, ?_, ?_⟩, ?_, ?_⟩
    · exact fun r hr => by have := v1 r hr; omega
    · exact fun r hr => by have := v2 r hr; omega
    · exact fun r hr => by have := v3 r hr; omega
    · exact fun r hr => by have := v4 r hr; omega
    · intro r hr
      simp only [Option.mem_def, Option.some.injEq] at hr
      omega
    · intro r hr
      simp only [Option.mem_def, Option.some.injEq] at hr
      omega
    · intro r hr
      simp only [Option.mem_def, Option.some.injEq] at hr
      omega
    · intro r hr
      simp only [Option.mem_def, Option.some.injEq] at hr
      omega
    · intro i hi hne
      fin_cases i <;> simp_all [Free, slot]
    · intro T delta hT hTc
      have key : ∀ o : Option ℕ, (∀ r ∈ o, r < h.length) → o.map h'.get = o.map h.get := by
        intro o ho
        cases o with
        | none => rfl
        | some r => simp [hp r (ho r rfl)]
      simp only [A0, coeffs, meaning, f1, f2, f3, f4, Option.map_some, Option.map_none, Option.getD_none, Option.getD_some,
        key _ v1, key _ v2, key _ v3, key _ v4, hp n w1, ht, hc, hd]
      have e0 : loop4 (fun n t c d => n * log (c + d * exp (t * (Tc / T)))) [] [] [] [] = 0 := by simp [loop4]
      rw [e0]
      unfold loop4
      rw [add_zero]
      congr 1
      refine Finset.sum_congr rfl fun i hi => ?_
      have hi' : i < (h.get v).length := lt_of_lt_of_le (Finset.mem_range.1 hi) w3
      rw [getD_double _ _ (by simpa using hi'), getD_double _ _ (by simpa using hi'), getD_double _ _ (by simpa using hi')]
      have m0 : ((h.get v).map fun x => -x / Tc).getD i 0 = -(h.get v).getD i 0 / Tc := by
        simp [List.getD_eq_getElem?_getD, hi']
      have m1 : (List.replicate (h.get v).length (1 : ℝ)).getD i 0 = 1 := by
        simp [List.getD_eq_getElem?_getD, hi']
      have m2 : (List.replicate (h.get v).length (-1 : ℝ)).getD i 0 = -1 := by
        simp [List.getD_eq_getElem?_getD, hi']
      rw [m0, m1, m2]
      have : -(h.get v).getD i 0 / Tc * (Tc / T) = -((h.get v).getD i 0 / T) := by
        field_simp
      dsimp only
      rw [this]
      ring_nf
  | offset =>
    refine ⟨_, _, rfl, le_rfl, fun _ _ => rfl, ⟨v1, v2, v3, v4, v5, v6, v7, v8⟩, fun i hi _ => hi, ?_⟩
    intro T delta _ _
    simp [meaning]
  | other => exact hw.elim

private theorem meaning_congr {Tc T : ℝ} {h h' : Heap} {x : Term} (hw : WellFormed h x) (hh : ∀ r < h.length, h'.get r = h.get r) :
    meaning Tc h' T x = meaning Tc h T x := by
  cases x with
  | planck n t => simp only [meaning, hh n hw.1, hh t hw.2]
  | power n t => simp only [meaning, hh n hw.1, hh t hw.2]
  | general n t c d => simp only [meaning, hh n hw.1, hh t hw.2.1, hh c hw.2.2.1, hh d hw.2.2.2]
  | functionT n v => simp only [meaning, hh n hw.1, hh v hw.2.1]
  | _ => rfl

private theorem wellFormed_congr {h h' : Heap} {x : Term} (hl : h.length ≤ h'.length) (hh : ∀ r < h.length, h'.get r = h.get r)
    (hw : WellFormed h x) : WellFormed h' x := by
  cases x with
  | planck n t => exact ⟨hw.1.trans_le hl, hw.2.trans_le hl⟩
  | power n t => exact ⟨hw.1.trans_le hl, hw.2.trans_le hl⟩
  | general n t c d => exact ⟨hw.1.trans_le hl, hw.2.1.trans_le hl, hw.2.2.1.trans_le hl, hw.2.2.2.trans_le hl⟩
  | functionT n v => exact ⟨hw.1.trans_le hl, hw.2.1.trans_le hl, by rw [hh n hw.1, hh v hw.2.1]; exact hw.2.2⟩
  | other => exact hw
  | _ => trivial

private theorem convert_spec (Tc : ℝ) (hTc : 0 < Tc) (xs : List Term) : ∀ (k : Kw) (h : Heap), (∀ x ∈ xs, WellFormed h x) →
    (xs.filterMap slot).Nodup → (∀ i ∈ xs.filterMap slot, Free k i) → Valid k h →
    ∃ k' h', convert Tc xs k h = .ok (k', h') ∧ (∀ r < h.length, h'.get r = h.get r) ∧
      ∀ T delta, 0 < T → A0 (coeffs k' h') (Tc / T) delta = A0 (coeffs k h) (Tc / T) delta + (xs.map (meaning Tc h T)).sum := by
  induction xs with
  | nil =>
    intro k h _ _ _ _
    exact ⟨k, h, rfl, fun _ _ => rfl, fun T delta _ => by simp⟩
  | cons x xs ih =>
    intro k h hw hn hf hv
    have hwx := hw x (by simp)
    have hfx : ∀ i ∈ slot x, Free k i := by
      intro i hi
      refine hf i ?_
      simp only [Option.mem_def] at hi
      simp [List.filterMap_cons, hi]
    obtain ⟨k1, h1, e, hl, hh, hv1, hf1, hA⟩ := step_spec Tc k h x hwx hfx hv
    have hn' : (xs.filterMap slot).Nodup := by
      cases hs : slot x with
      | none => simpa [List.filterMap_cons, hs] using hn
      | some i => exact (List.nodup_cons.1 (by simpa [List.filterMap_cons, hs] using hn)).2
    have hfree : ∀ i ∈ xs.filterMap slot, Free k1 i := by
      intro i hi
      refine hf1 i (hf i ?_) ?_
      · cases hs : slot x with
        | none => simpa [List.filterMap_cons, hs] using hi
        | some j =>
          rw [List.filterMap_cons, hs]
          exact List.mem_cons_of_mem _ hi
      · intro hs
        rw [List.filterMap_cons, hs] at hn
        exact (List.nodup_cons.1 hn).1 hi
    obtain ⟨k', h', e', hh', hA'⟩ := ih k1 h1 (fun y hy => wellFormed_congr hl hh (hw y (by simp [hy]))) hn' hfree hv1
    refine ⟨k', h', by simp only [convert, e, e'], fun r hr => (hh' r (hr.trans_le hl)).trans (hh r hr), ?_⟩
    intro T delta hT
    rw [hA' T delta hT, hA T delta hT hTc, List.map_cons, List.sum_cons]
    have : xs.map (meaning Tc h1 T) = xs.map (meaning Tc h T) :=
      List.map_congr_left fun y hy => meaning_congr (hw y (by simp [hy])) hh
    rw [this]
    ring

/-- **C137** (partial): for a description in which every kind of entry occurs at most once, and not a generalized together with a
`FunctionT` entry, the conversion succeeds, leaves the JSON data as they were, and the energy computed from its result is the
logarithm of the density plus the meaning of every entry. Missing: descriptions with two entries of a kind
(`C137_convert_fails`). -/
theorem C137_convert_partial {Tc : ℝ} (hTc : 0 < Tc) {xs : List Term} {h : Heap} (hw : ∀ x ∈ xs, WellFormed h x)
    (hn : (xs.filterMap slot).Nodup) :
    ∃ k h', convert Tc xs {} h = .ok (k, h') ∧ (∀ r < h.length, h'.get r = h.get r) ∧
      ∀ T delta, 0 < T → A0 (coeffs k h') (Tc / T) delta = log delta + (xs.map (meaning Tc h T)).sum := by
  obtain ⟨k, h', e, hh, hA⟩ := convert_spec Tc hTc xs {} h hw hn
    (by intro i _; fin_cases i <;> simp [Free]) (by simp [Valid])
  refine ⟨k, h', e, hh, fun T delta hT => ?_⟩
  rw [hA T delta hT]
  simp [A0, coeffs, loop2, loop4]

/-- The description of methane: lead, logarithm, and characteristic temperatures in kelvin. -/
example : let h : Heap := [[1, 2], [600, 1900]]
    let xs : List Term := [.lead 1 2, .logTau 3, .offset, .functionT 0 1]
    (∀ x ∈ xs, WellFormed h x) ∧ (xs.filterMap slot).Nodup := by
  refine ⟨?_, by simp [slot, List.filterMap_cons]⟩
  simp [WellFormed, Heap.get]

/-- **C137**: a `FunctionT` entry leaves lists of temperatures, `c` and `d` twice as long as its list of weights; the shipped
data for hydrogen, nitrogen and methane have them. -/
theorem C137_doubled (Tc : ℝ) (h : Heap) (n v : ℕ) (hn : n < h.length) (hl : (h.get n).length = (h.get v).length) :
    ∃ k h', convert Tc [.functionT n v] {} h = .ok (k, h') ∧ (coeffs k h').gn = h.get n ∧
      (coeffs k h').gt.length = 2 * (coeffs k h').gn.length ∧ (coeffs k h').gc.length = 2 * (coeffs k h').gn.length ∧
      (coeffs k h').gd.length = 2 * (coeffs k h').gn.length := by
  obtain ⟨h', e, _, hp, ht, hc, hd⟩ := step_functionT Tc {} h n v rfl hn
  refine ⟨_, h', by simp only [convert, e]; rfl, ?_, ?_, ?_, ?_⟩
  · simp [coeffs, hp n hn]
  all_goals
    simp only [coeffs, Option.map_some, Option.getD_some, hp n hn, ht, hc, hd, hl, List.length_append, List.length_map,
      List.length_replicate]
    ring

/-- **C137**: two Planck–Einstein entries: only the last is kept (`thermo/coolprop.py` 375-377 assigns, the generalized ones are
extended). A generalized entry followed by one of temperatures loses the exponents of the first. An unknown type raises. -/
theorem C137_convert_fails :
    (∀ (Tc : ℝ) (h : Heap) (n t n' t' : ℕ), ∃ k, convert Tc [.planck n t, .planck n' t'] {} h = .ok (k, h) ∧
      (coeffs k h).pn = h.get n' ∧ (coeffs k h).pt = h.get t') ∧
    (∃ (Tc : ℝ) (h : Heap) (k : Kw) (h' : Heap), convert Tc [.general 0 1 2 3, .functionT 4 5] {} h = .ok (k, h') ∧
      (coeffs k h').gn = h.get 0 ++ h.get 4 ∧ (coeffs k h').gt.getD 0 0 ≠ (h.get 1).getD 0 0) ∧
    (∀ (Tc : ℝ) (k : Kw) (h : Heap) (xs : List Term), convert Tc (.other :: xs) k h = .error "ValueError") := by
  refine ⟨fun Tc h n t n' t' => ⟨_, rfl, rfl, rfl⟩, ?_, fun Tc k h xs => rfl⟩
  refine ⟨1, [[7], [5], [1], [1], [8], [6]], _, _, rfl, ?_, ?_⟩
  · simp [coeffs, putFour, put, Heap.extend, Heap.get]
  · simp [coeffs, putFour, put, Heap.extend, Heap.get]
    norm_num

/-- **C137**: the conversion changes its argument: with two generalized entries the lists of the first are extended in the JSON
data, so that a second conversion of the same data has more terms than the first. -/
theorem C137_mutation_fails : ∃ (Tc : ℝ) (h : Heap) (xs : List Term) (k k' : Kw) (h' h'' : Heap),
    (∀ x ∈ xs, WellFormed h x) ∧ convert Tc xs {} h = .ok (k, h') ∧ convert Tc xs {} h' = .ok (k', h'') ∧
      (coeffs k h').gn.length = 2 ∧ (coeffs k' h'').gn.length = 3 := by
  refine ⟨1, [[7], [-5], [1], [-1], [8], [-6], [1], [-1]], [.general 0 1 2 3, .general 4 5 6 7], _, _, _, _, ?_, rfl, rfl, ?_, ?_⟩
  · simp [WellFormed]
  · simp [coeffs, putFour, put, Heap.extend, Heap.get]
  · simp [coeffs, putFour, put, Heap.extend, Heap.get]

/-! ## Which state the CoolProp library is asked for -/

/-- The state in the call of `PropsSI`: temperature with the pressure 101325 Pa, or with a quality; or an exception. -/
inductive Call
  /-- At the given pressure. -/
  | atP (P : ℝ)
  /-- On the saturation line, with the given vapour quality. -/
  | atQ (q : ℝ)
  /-- `raise Exception`. -/
  | error

/-- The phases the library reports. -/
inductive LibPhase
  /-- `'liquid'`. -/
  | liquid
  /-- `'supercritical_liquid'`. -/
  | supercriticalLiquid
  /-- `'gas'`. -/
  | gas
  /-- `'supercritical_gas'`, `'supercritical'` and the others. -/
  | others
  deriving DecidableEq

/-- The phase asked for. -/
inductive Ask
  /-- `'l'`. -/
  | l
  /-- `'g'`. -/
  | g
  /-- Anything else. -/
  | bad
  deriving DecidableEq

open Classical in
/-- `CoolProp_T_dependent_property` for a supported fluid and a property other than the ideal gas heat capacity
(`thermo/coolprop.py` 325-347); `lib` is the phase the library reports at `T` and 101325 Pa. -/
noncomputable def call (lib : LibPhase) (T Tc : ℝ) : Ask → Call
  | .l => if T > Tc then .error else if lib = .liquid ∨ lib = .supercriticalLiquid then .atP 101325 else .atQ 0
  | .g => if lib = .gas then .atP 101325 else if T < Tc then .atQ 1 else .atP 101325
  | .bad => .error

/-- **C137**: a liquid property is never asked for above the critical temperature, a saturated state never above it either; the
saturated state is the liquid for a liquid property and the vapour for a gas property; and the state at one atmosphere is used
exactly when the library reports the asked phase there (or, for a gas, from the critical temperature on). -/
theorem C137_call (lib : LibPhase) (T Tc : ℝ) :
    (call lib T Tc .l = .error ↔ Tc < T) ∧ call lib T Tc .g ≠ .error ∧
      (∀ a q, call lib T Tc a = .atQ q → T ≤ Tc ∧ ((a = .l ∧ q = 0) ∨ (a = .g ∧ q = 1 ∧ T < Tc))) ∧
      (∀ P, call lib T Tc .l = .atP P ↔ (P = 101325 ∧ T ≤ Tc ∧ (lib = .liquid ∨ lib = .supercriticalLiquid))) ∧
      (∀ P, call lib T Tc .g = .atP P ↔ (P = 101325 ∧ (lib = .gas ∨ Tc ≤ T))) := by
  refine ⟨?_, ?_, ?_, ?_, ?_⟩
  · simp only [call]
    split_ifs <;> simp_all
  · simp only [call]
    split_ifs <;> simp
  · intro a q
    cases a <;> simp only [call] <;> (try split_ifs) <;> simp_all
    all_goals
      intro e
      first
        | exact e.symm
        | exact ⟨by linarith, e.symm⟩
        | linarith
  · intro P
    simp only [call]
    split_ifs with h1 h2
    · simp only [false_iff, reduceCtorEq]
      rintro ⟨-, h, -⟩
      linarith
    · have h1' : T ≤ Tc := not_lt.1 h1
      simp only [Call.atP.injEq, h2, h1', and_true]
      exact eq_comm
    · simp [h2]
  · intro P
    simp only [call]
    split_ifs with h1 h2
    · simp [h1, eq_comm]
    · simp only [h1, false_or, false_iff, reduceCtorEq]
      rintro ⟨-, h⟩
      linarith
    · have h2' : Tc ≤ T := not_lt.1 h2
      simp [h2', eq_comm]

/-- A fluid boiling below room temperature: its liquid density at 300 K is the saturated one, its vapour that of one atmosphere. -/
example : call .gas 300 370 .l = .atQ 0 ∧ call .gas 300 370 .g = .atP 101325 := by
  constructor
  · have h : ¬ (300 : ℝ) > 370 := by norm_num
    simp [call, h]
  · simp [call]

/-- The temperature limits of the method (`thermo/heat_capacity.py` 411-436): `useA0` when the coefficients are stored. -/
noncomputable def limits (useA0 : Bool) (Tt fTmin fTc fTmax : ℝ) : ℝ × ℝ :=
  if useA0 then (min Tt fTmin, max fTc fTmax) else (max Tt fTmin, min fTc fTmax)

/-- **C137**: with the stored coefficients the method is offered on a range containing the one of the library, the triple point
and the critical point; without them on the range common to the library's limits and the saturation line. -/
theorem C137_limits (Tt fTmin fTc fTmax T : ℝ) :
    ((limits false Tt fTmin fTc fTmax).1 ≤ T → T ≤ (limits false Tt fTmin fTc fTmax).2 →
      (limits true Tt fTmin fTc fTmax).1 ≤ T ∧ T ≤ (limits true Tt fTmin fTc fTmax).2 ∧ Tt ≤ T ∧ T ≤ fTc ∧ fTmin ≤ T ∧ T ≤ fTmax) ∧
    (∀ x ∈ [Tt, fTmin], (limits true Tt fTmin fTc fTmax).1 ≤ x) ∧ (∀ x ∈ [fTc, fTmax], x ≤ (limits true Tt fTmin fTc fTmax).2) := by
  refine ⟨fun h1 h2 => ?_, ?_, ?_⟩
  · simp only [limits, Bool.false_eq_true, if_false, max_le_iff, le_min_iff] at h1 h2
    simp only [limits, if_true, min_le_iff, le_max_iff]
    exact ⟨Or.inl h1.1, Or.inl h2.1, h1.1, h2.1, h1.2, h2.2⟩
  · simp [limits]
  · simp [limits]

/-- Limits of a refrigerant. -/
example : limits true 170 175 370 500 = (170, 500) ∧ limits false 170 175 370 500 = (175, 370) := by
  constructor <;> (simp [limits]; norm_num)

end Verif.HelmGas
