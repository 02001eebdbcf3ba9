import Verif.Phases.Phase

/-!
# Phases from a reduced Helmholtz energy (`thermo/phases/helmholtz_eos.py`)

* C76: every state property and derivative a `HelmholtzEOS` phase supplies is exact.
* C77: fugacity coefficients, virial coefficients, the departure functions and the Helmholtz energy of such a phase.

The class is the base of `IAPWS95` and `DryAirLemmon`. The reduced residual energy and its derivatives by the inverse
reduced temperature `tau` and the reduced density `delta` come from the `chemicals` package; here they are arbitrary
functions, assumed to be derivatives of one another where a theorem needs it. The ideal part is, as both papers
document it, `log delta` plus a function of `tau`. The pressure (`iapws95_P`, `lemmon2000_P` of that package) is the
documented `ρRT(1 + δ ∂αʳ/∂δ)`. Caches are not modelled, nor are the fallbacks of the virial coefficients to
`delta = 1e-20` when the evaluation at zero fails.
-/

namespace Verif.Helmholtz

open Verif.Departure (Along Total)
open Verif.Phase

/-! ## Model -/

/-- The constants and functions a subclass of `HelmholtzEOS` supplies (`iapws_phase.py` 41-85, `air_phase.py` 35-73):
gas constant, `T_red`, `rho_red`; the `tau` part of `A0` with its derivatives; `_Ar_func`, `_dAr_ddelta_func` etc. as
functions of `tau` and `delta`. -/
structure Fluid where
  (R T_red rho_red : ℝ)
  (A0 dA0_dtau d2A0_dtau2 : ℝ → ℝ)
  (Ar dAr_ddelta d2Ar_ddelta2 d3Ar_ddelta3 dAr_dtau d2Ar_dtau2 d2Ar_ddeltadtau d3Ar_ddelta2dtau d3Ar_ddeltadtau2
    d4Ar_ddeltadtau3 d4Ar_ddelta2dtau2 : ℝ → ℝ → ℝ)

namespace Fluid

variable (f : Fluid) (T V : ℝ)

/-- `tau` (`iapws_phase.py` 133, `air_phase.py` 123) and `delta` (134, 124), `rho_red_inv` (58, 44). -/
noncomputable def tau (T : ℝ) : ℝ := f.T_red / T
@[inherit_doc tau] noncomputable def rho_red_inv : ℝ := 1 / f.rho_red
@[inherit_doc tau] noncomputable def delta (V : ℝ) : ℝ := 1 / V * f.rho_red_inv

/-- The attribute `A0` at a state: `iapws95_A0_tau_derivatives`, `lemmon2000_air_A0`, the `log delta` made explicit. -/
noncomputable def A0_at : ℝ := Real.log (f.delta V) + f.A0 (f.tau T)

/-- `A` (71): what the method returns. -/
noncomputable def A : ℝ := f.A0_at T V + f.Ar (f.tau T) (f.delta V)

/-- `dA_ddelta` (80), `d2A_ddelta2` (89), `d3A_ddelta3` (99). -/
noncomputable def dA_ddelta : ℝ := f.dAr_ddelta (f.tau T) (f.delta V) + 1 / f.delta V
@[inherit_doc dA_ddelta] noncomputable def d2A_ddelta2 : ℝ :=
  f.d2Ar_ddelta2 (f.tau T) (f.delta V) - 1 / (f.delta V * f.delta V)
@[inherit_doc dA_ddelta] noncomputable def d3A_ddelta3 : ℝ :=
  f.d3Ar_ddelta3 (f.tau T) (f.delta V) + 2 / (f.delta V * f.delta V * f.delta V)

/-- `dA_dtau` (107), `d2A_dtau2` (115), `d2A_ddeltadtau` (123), `d3A_ddelta2dtau` (131), `d3A_ddeltadtau2` (139). -/
noncomputable def dA_dtau : ℝ := f.dAr_dtau (f.tau T) (f.delta V) + f.dA0_dtau (f.tau T)
@[inherit_doc dA_dtau] noncomputable def d2A_dtau2 : ℝ := f.d2Ar_dtau2 (f.tau T) (f.delta V) + f.d2A0_dtau2 (f.tau T)
@[inherit_doc dA_dtau] noncomputable def d2A_ddeltadtau : ℝ := f.d2Ar_ddeltadtau (f.tau T) (f.delta V)
@[inherit_doc dA_dtau] noncomputable def d3A_ddelta2dtau : ℝ := f.d3Ar_ddelta2dtau (f.tau T) (f.delta V)
@[inherit_doc dA_dtau] noncomputable def d3A_ddeltadtau2 : ℝ := f.d3Ar_ddeltadtau2 (f.tau T) (f.delta V)

/-- The pressure of the state: `iapws95_P`, `lemmon2000_P`. -/
noncomputable def P : ℝ := 1 / V * f.R * T * (1 + f.delta V * f.dAr_ddelta (f.tau T) (f.delta V))

/-- `S` (243), `H` (316). -/
noncomputable def S : ℝ := (f.tau T * f.dA_dtau T V - f.A T V) * f.R
@[inherit_doc S] noncomputable def H : ℝ := (f.tau T * f.dA_dtau T V + f.dA_ddelta T V * f.delta V) * T * f.R

/-- `dP_dT` (455), `dP_dV` (474). -/
noncomputable def dP_dT : ℝ := f.R / V * f.delta V * (f.dA_ddelta T V - f.tau T * f.d2A_ddeltadtau T V)
@[inherit_doc dP_dT] noncomputable def dP_dV : ℝ :=
  -f.R * rho T V * rho T V * T * f.delta V * (2 * f.dA_ddelta T V + f.delta V * f.d2A_ddelta2 T V)

/-- `d2P_dT2` (487), `d2P_dV2` (525), `d2P_dTdV` (548-549). -/
noncomputable def d2P_dT2 : ℝ := f.R * f.T_red * f.T_red * f.d3A_ddeltadtau2 T V / (T * T * T * V * V * f.rho_red)
@[inherit_doc d2P_dT2] noncomputable def d2P_dV2 : ℝ :=
  f.R * T * (6 * f.dA_ddelta T V + (2 * f.d2A_ddelta2 T V + f.d3A_ddelta3 T V / (V * f.rho_red)) / (V * f.rho_red)
    + 4 * f.d2A_ddelta2 T V / (V * f.rho_red)) / (V ^ 4 * f.rho_red)
@[inherit_doc d2P_dT2] noncomputable def d2P_dTdV : ℝ :=
  f.R * (-2 * f.dA_ddelta T V - f.d2A_ddelta2 T V / (V * f.rho_red) + 2 * f.T_red * f.d2A_ddeltadtau T V / T
    + f.T_red * f.d3A_ddelta2dtau T V / (T * V * f.rho_red)) / (V * V * V * f.rho_red)

/-- `dS_dT_V` (262), `dS_dV_T` (281), `dS_dP_T` (286), `dS_dT_P` (296), `dS_dP_V` (301). -/
noncomputable def dS_dT_V : ℝ := (-f.T_red * f.T_red * f.d2A_dtau2 T V) * f.R / (T * T * T)
@[inherit_doc dS_dT_V] noncomputable def dS_dV_T : ℝ :=
  f.R * (f.dA_ddelta T V - f.T_red * f.d2A_ddeltadtau T V / T) / (V * V * f.rho_red)
@[inherit_doc dS_dT_V] noncomputable def dS_dP_T : ℝ := f.dS_dV_T T V / f.dP_dV T V
@[inherit_doc dS_dT_V] noncomputable def dS_dT_P : ℝ :=
  f.dS_dT_V T V - f.dS_dV_T T V * f.dP_dT T V / f.dP_dV T V
@[inherit_doc dS_dT_V] noncomputable def dS_dP_V : ℝ := f.dS_dT_V T V / f.dP_dT T V

/-- `dH_dT_V` (357-359), `dH_dV_T` (382), `dH_dP_V` (386), `dH_dP_T` (390). -/
noncomputable def dH_dT_V : ℝ :=
  let T_inv := 1 / T
  f.R * T * (-f.T_red * f.dA_dtau T V * T_inv * T_inv
      - T_inv * T_inv * f.T_red * f.d2A_ddeltadtau T V / (V * f.rho_red)
      - f.T_red * f.T_red * T_inv * T_inv * T_inv * f.d2A_dtau2 T V)
    + f.R * (f.dA_ddelta T V / (V * f.rho_red) + f.T_red * f.dA_dtau T V / T)
@[inherit_doc dH_dT_V] noncomputable def dH_dV_T : ℝ :=
  f.R * T * (-f.dA_ddelta T V / (V * V * f.rho_red) - f.d2A_ddelta2 T V / (V * V * V * f.rho_red * f.rho_red)
    - f.T_red * f.d2A_ddeltadtau T V / (T * V * V * f.rho_red))
@[inherit_doc dH_dT_V] noncomputable def dH_dP_V : ℝ := f.dH_dT_V T V / f.dP_dT T V
@[inherit_doc dH_dT_V] noncomputable def dH_dP_T : ℝ := f.dH_dV_T T V / f.dP_dV T V

/-- `Cv` (408), `Cp` (434-436). -/
noncomputable def Cv : ℝ := -f.tau T * f.tau T * f.d2A_dtau2 T V * f.R
@[inherit_doc Cv] noncomputable def Cp : ℝ :=
  let x0 := f.delta V * f.dA_ddelta T V - f.delta V * f.tau T * f.d2A_ddeltadtau T V
  let den := f.delta V * (f.dA_ddelta T V + f.dA_ddelta T V + f.delta V * f.d2A_ddelta2 T V)
  (-f.tau T * f.tau T * f.d2A_dtau2 T V + x0 * x0 / den) * f.R

/-- `dH_dV_P` (394), with `dV_dT_P` of the base class (`phase.py` 2743). -/
noncomputable def dH_dV_P : ℝ := f.Cp T V / (-f.dP_dT T V / f.dP_dV T V)

/-- What the class supplies to its base class. It has no second derivatives of the enthalpy nor of the pressure along
other directions; these entries are not used. -/
noncomputable def phase : Methods where
  R := f.R
  P := f.P
  H := f.H
  S := f.S
  Cp := f.Cp
  dP_dT := f.dP_dT
  dP_dV := f.dP_dV
  d2P_dT2 := f.d2P_dT2
  d2P_dTdV := f.d2P_dTdV
  d2P_dV2 := f.d2P_dV2
  dH_dT := f.Cp
  dH_dP := f.dH_dP_T
  dH_dT_V := f.dH_dT_V
  dH_dP_V := f.dH_dP_V
  dH_dV_T := f.dH_dV_T
  dH_dV_P := f.dH_dV_P
  dS_dT := f.dS_dT_P
  dS_dP := f.dS_dP_T
  dS_dT_V := f.dS_dT_V
  dS_dP_V := f.dS_dP_V
  d2H_dT2 := 0
  d2H_dTdP := 0
  d2P_dTdP := 0
  d2P_dVdP := 0
  d2P_dVdT_TP := 0
  d2P_dT2_PV := 0

/-- `lnphis` (152-153). -/
noncomputable def lnphi : ℝ :=
  let x0 := f.delta V * (f.dA_ddelta T V - 1 / f.delta V)
  f.A T V - f.A0_at T V + x0 - Real.log (x0 + 1)

/-- `dlnphis_dV_T` (166-175). -/
noncomputable def dlnphi_dV_T : ℝ :=
  let rho := 1 / V
  let x0 := f.rho_red_inv
  let rho_inv := 1 / rho
  let x1 := -f.rho_red * rho_inv
  let x2 := rho * (f.d2A_ddelta2 T V * x0 + f.rho_red * rho_inv * rho_inv)
  let x3 := f.dA_ddelta T V + x1
  x0 * (2 * f.dA_ddelta T V + x1 + x2 - (x2 + x3) / (rho * x0 * x3 + 1) - 1 / f.delta V) * (-1 / (V * V))

/-- `dlnphis_dT_V` (197-206). -/
noncomputable def dlnphi_dT_V : ℝ :=
  let rho := 1 / V
  f.T_red / (T * T) * (f.rho_red_inv * rho * f.d2A_ddeltadtau T V
      * (-1 + 1 / (rho * (f.dA_ddelta T V - f.rho_red / rho) * f.rho_red_inv + 1))
    - f.dA_dtau T V + f.dA0_dtau (f.tau T))

/-- `dlnphis_dT_P` (215), `dlnphis_dP_V` (220), `dlnphis_dV_P` (223), `dlnphis_dP_T` (226). -/
noncomputable def dlnphi_dT_P : ℝ := f.dlnphi_dT_V T V - f.dlnphi_dV_T T V * f.dP_dT T V / f.dP_dV T V
@[inherit_doc dlnphi_dT_P] noncomputable def dlnphi_dP_V : ℝ := f.dlnphi_dT_V T V / f.dP_dT T V
@[inherit_doc dlnphi_dT_P] noncomputable def dlnphi_dV_P : ℝ := f.dlnphi_dT_P T V / f.phase.dV_dT T V
@[inherit_doc dlnphi_dT_P] noncomputable def dlnphi_dP_T : ℝ :=
  f.dlnphi_dP_V T V - f.dlnphi_dV_P T V * f.phase.dT_dP T V / f.phase.dT_dV T V

/-- `S_dep` (247-248), `H_dep` (325-330). -/
noncomputable def S_dep : ℝ :=
  let S_ideal := (f.tau T * f.dA0_dtau (f.tau T) - f.A0_at T V) * f.R
  f.S T V - S_ideal
@[inherit_doc S_dep] noncomputable def H_dep : ℝ :=
  let H_ideal := (f.tau T * f.dA0_dtau (f.tau T) + 1 / f.delta V * f.delta V) * T * f.R
  f.H T V - H_ideal

/-- `G_dep` of the base class (`phase.py` 1926). -/
noncomputable def G_dep : ℝ := f.H_dep T V - T * f.S_dep T V

/-- `B_virial` (554-557), `dB_virial_dT` (568), `d2B_virial_dT2` (587), `d3B_virial_dT3` (616). -/
noncomputable def B_virial (T : ℝ) : ℝ := f.dAr_ddelta (f.tau T) 0 / f.rho_red
@[inherit_doc B_virial] noncomputable def dB_virial_dT (T : ℝ) : ℝ :=
  -f.tau T * f.tau T * f.d2Ar_ddeltadtau (f.tau T) 0 / (f.rho_red * f.T_red)
@[inherit_doc B_virial] noncomputable def d2B_virial_dT2 (T : ℝ) : ℝ :=
  f.T_red * (2 * f.d2Ar_ddeltadtau (f.tau T) 0 + f.tau T * f.d3Ar_ddeltadtau2 (f.tau T) 0) / (T * T * T * f.rho_red)
@[inherit_doc B_virial] noncomputable def d3B_virial_dT3 (T : ℝ) : ℝ :=
  -f.T_red * (6 * f.d2Ar_ddeltadtau (f.tau T) 0 + 6 * f.tau T * f.d3Ar_ddeltadtau2 (f.tau T) 0
    + f.tau T * f.tau T * f.d4Ar_ddeltadtau3 (f.tau T) 0) / (T * T * T * T * f.rho_red)

/-- `C_virial` (626), `dC_virial_dT` (637), `d2C_virial_dT2` (656). -/
noncomputable def C_virial (T : ℝ) : ℝ := f.d2Ar_ddelta2 (f.tau T) 0 / (f.rho_red * f.rho_red)
@[inherit_doc C_virial] noncomputable def dC_virial_dT (T : ℝ) : ℝ :=
  -f.tau T * f.tau T * f.d3Ar_ddelta2dtau (f.tau T) 0 / (f.rho_red * f.rho_red * f.T_red)
@[inherit_doc C_virial] noncomputable def d2C_virial_dT2 (T : ℝ) : ℝ :=
  f.T_red * (2 * f.d3Ar_ddelta2dtau (f.tau T) 0 + f.tau T * f.d4Ar_ddelta2dtau2 (f.tau T) 0)
    / (T * T * T * f.rho_red * f.rho_red)

end Fluid

/-! ## Hypotheses -/

/-- The supplied functions are derivatives of one another at the state, which is a state of positive temperature and
volume. -/
structure Smooth (f : Fluid) (T V : ℝ) : Prop where
  posR : 0 < f.R
  posTr : 0 < f.T_red
  posrr : 0 < f.rho_red
  posT : 0 < T
  posV : 0 < V
  h0 : HasDerivAt f.A0 (f.dA0_dtau (f.tau T)) (f.tau T)
  h0t : HasDerivAt f.dA0_dtau (f.d2A0_dtau2 (f.tau T)) (f.tau T)
  hr : Total f.Ar (f.dAr_dtau (f.tau T) (f.delta V)) (f.dAr_ddelta (f.tau T) (f.delta V)) (f.tau T) (f.delta V)
  ht : Total f.dAr_dtau (f.d2Ar_dtau2 (f.tau T) (f.delta V)) (f.d2Ar_ddeltadtau (f.tau T) (f.delta V))
    (f.tau T) (f.delta V)
  hd : Total f.dAr_ddelta (f.d2Ar_ddeltadtau (f.tau T) (f.delta V)) (f.d2Ar_ddelta2 (f.tau T) (f.delta V))
    (f.tau T) (f.delta V)
  hdd : Total f.d2Ar_ddelta2 (f.d3Ar_ddelta2dtau (f.tau T) (f.delta V)) (f.d3Ar_ddelta3 (f.tau T) (f.delta V))
    (f.tau T) (f.delta V)
  hdt : Total f.d2Ar_ddeltadtau (f.d3Ar_ddeltadtau2 (f.tau T) (f.delta V)) (f.d3Ar_ddelta2dtau (f.tau T) (f.delta V))
    (f.tau T) (f.delta V)

/-- In addition the state is off the spinodal and the pressure changes with temperature. -/
structure Ok (f : Fluid) (T V : ℝ) : Prop extends Smooth f T V where
  neT : f.dP_dT T V ≠ 0
  neV : f.dP_dV T V ≠ 0

section
variable {f : Fluid} {T V : ℝ}

/-- The chain rule for functions of the reduced variables. -/
theorem reduced {g : ℝ → ℝ → ℝ} {gt gd : ℝ} (h : Total g gt gd (f.tau T) (f.delta V)) (hT : T ≠ 0) (hV : V ≠ 0) :
    Total (fun T V => g (f.tau T) (f.delta V)) (-gt * f.T_red / T ^ 2) (-gd * f.rho_red_inv / V ^ 2) T V := by
  intro T' V' τ ν h1 h2 h3 h4
  have k1 := (Total.const f.T_red T V).div (Total.fst T V) hT T' V' τ ν h1 h2 h3 h4
  have k2 := ((Total.const 1 T V).div (Total.snd T V) hV).mul (Total.const f.rho_red_inv T V) T' V' τ ν h1 h2 h3 h4
  refine (h _ _ (fun t => f.tau (τ t)) (fun t => f.delta (ν t)) (by simp only [h1]) (by simp only [h2]) k1 k2).congr_deriv ?_
  ring

theorem Smooth.dpos (h : Smooth f T V) : 0 < f.delta V := by
  have := h.posV; have := h.posrr
  unfold Fluid.delta Fluid.rho_red_inv; positivity

theorem tot_tau (hT : T ≠ 0) (V : ℝ) : Total (fun T _ => f.tau T) (-f.T_red / T ^ 2) 0 T V :=
  ((Total.const f.T_red T V).div (Total.fst T V) hT).congr (by ring) (by ring)

theorem tot_delta (T : ℝ) (hV : V ≠ 0) : Total (fun _ V => f.delta V) 0 (-f.rho_red_inv / V ^ 2) T V :=
  (((Total.const 1 T V).div (Total.snd T V) hV).mul (Total.const f.rho_red_inv T V)).congr (by ring) (by ring)

theorem tot_A0 (h : Smooth f T V) : Total (fun T _ => f.A0 (f.tau T)) (-f.dA0_dtau (f.tau T) * f.T_red / T ^ 2) 0 T V := by
  have := reduced (f := f) (g := fun t _ => f.A0 t) (Total.of_T h.h0 (f.delta V)) h.posT.ne' h.posV.ne'
  exact this.congr (by ring) (by ring)

theorem tot_A0t (h : Smooth f T V) :
    Total (fun T _ => f.dA0_dtau (f.tau T)) (-f.d2A0_dtau2 (f.tau T) * f.T_red / T ^ 2) 0 T V := by
  have := reduced (f := f) (g := fun t _ => f.dA0_dtau t) (Total.of_T h.h0t (f.delta V)) h.posT.ne' h.posV.ne'
  exact this.congr (by ring) (by ring)

theorem tot_A0_at (h : Smooth f T V) : Total f.A0_at (-f.dA0_dtau (f.tau T) * f.T_red / T ^ 2) (-1 / V) T V := by
  refine (((tot_delta T h.posV.ne').log h.dpos.ne').add (tot_A0 h)).congr (by ring) ?_
  have := h.posV; have := h.posrr
  simp only [Fluid.delta, Fluid.rho_red_inv]
  field_simp
  ring

theorem tot_A (h : Smooth f T V) : Total f.A (-f.dA_dtau T V * f.T_red / T ^ 2) (-f.dA_ddelta T V * f.rho_red_inv / V ^ 2) T V := by
  refine ((tot_A0_at h).add (reduced h.hr h.posT.ne' h.posV.ne')).congr ?_ ?_
  · simp only [Fluid.dA_dtau]; ring
  · have := h.posV; have := h.posrr
    simp only [Fluid.dA_ddelta]
    generalize f.dAr_ddelta (f.tau T) (f.delta V) = q
    simp only [Fluid.delta, Fluid.rho_red_inv]
    field_simp
    ring

theorem tot_dA_dtau (h : Smooth f T V) :
    Total f.dA_dtau (-f.d2A_dtau2 T V * f.T_red / T ^ 2) (-f.d2A_ddeltadtau T V * f.rho_red_inv / V ^ 2) T V := by
  refine ((reduced h.ht h.posT.ne' h.posV.ne').add (tot_A0t h)).congr ?_ ?_
  · simp only [Fluid.d2A_dtau2]; ring
  · simp only [Fluid.d2A_ddeltadtau]; ring

theorem tot_dA_ddelta (h : Smooth f T V) :
    Total f.dA_ddelta (-f.d2A_ddeltadtau T V * f.T_red / T ^ 2) (-f.d2A_ddelta2 T V * f.rho_red_inv / V ^ 2) T V := by
  refine ((reduced h.hd h.posT.ne' h.posV.ne').add ((Total.const 1 T V).div (tot_delta T h.posV.ne') h.dpos.ne')).congr ?_ ?_
  · simp only [Fluid.d2A_ddeltadtau]; ring
  · have := h.dpos.ne'
    simp only [Fluid.d2A_ddelta2]; field_simp; ring

theorem tot_d2A_ddelta2 (h : Smooth f T V) :
    Total f.d2A_ddelta2 (-f.d3A_ddelta2dtau T V * f.T_red / T ^ 2) (-f.d3A_ddelta3 T V * f.rho_red_inv / V ^ 2) T V := by
  have n := h.dpos.ne'
  have k := tot_delta (f := f) T h.posV.ne'
  refine ((reduced h.hdd h.posT.ne' h.posV.ne').sub ((Total.const 1 T V).div (k.mul k) (mul_ne_zero n n))).congr ?_ ?_
  · simp only [Fluid.d3A_ddelta2dtau]; ring
  · simp only [Fluid.d3A_ddelta3]; field_simp; ring

theorem tot_d2A_ddeltadtau (h : Smooth f T V) :
    Total f.d2A_ddeltadtau (-f.d3A_ddeltadtau2 T V * f.T_red / T ^ 2) (-f.d3A_ddelta2dtau T V * f.rho_red_inv / V ^ 2) T V :=
  reduced h.hdt h.posT.ne' h.posV.ne'

/-- The pressure in terms of the whole reduced energy. -/
theorem P_eq (h : 0 < f.delta V) : f.P T V = 1 / V * f.R * T * (f.delta V * f.dA_ddelta T V) := by
  simp only [Fluid.P, Fluid.dA_ddelta]; field_simp; ring

theorem tot_P (h : Smooth f T V) : Total f.P (f.dP_dT T V) (f.dP_dV T V) T V := by
  have hV := h.posV.ne'; have hT := h.posT.ne'; have hr := h.posrr.ne'; have n := h.dpos.ne'
  have k1 := ((((Total.const 1 T V).div (Total.snd T V) hV).mul (Total.const f.R T V)).mul (Total.fst T V)).mul
    ((Total.const 1 T V).add ((tot_delta (f := f) T hV).mul (reduced h.hd hT hV)))
  refine k1.congr ?_ ?_
  · simp only [Fluid.dP_dT, Fluid.dA_ddelta, Fluid.d2A_ddeltadtau]
    generalize f.dAr_ddelta (f.tau T) (f.delta V) = q
    generalize f.d2Ar_ddeltadtau (f.tau T) (f.delta V) = r
    simp only [Fluid.delta, Fluid.rho_red_inv, Fluid.tau]
    field_simp
    ring
  · simp only [Fluid.dP_dV, Fluid.dA_ddelta, Fluid.d2A_ddelta2, rho]
    generalize f.dAr_ddelta (f.tau T) (f.delta V) = q
    generalize f.d2Ar_ddelta2 (f.tau T) (f.delta V) = r
    simp only [Fluid.delta, Fluid.rho_red_inv]
    field_simp
    ring

theorem tot_dP_dT (h : Smooth f T V) : Total f.dP_dT (f.d2P_dT2 T V) (f.d2P_dTdV T V) T V := by
  have hV := h.posV.ne'; have hT := h.posT.ne'; have hr := h.posrr.ne'
  have k := (((Total.const f.R T V).div (Total.snd T V) hV).mul (tot_delta (f := f) T hV)).mul
    ((tot_dA_ddelta h).sub ((tot_tau (f := f) hT V).mul (tot_d2A_ddeltadtau h)))
  refine k.congr ?_ ?_
  all_goals
    simp only [Fluid.d2P_dT2, Fluid.d2P_dTdV]
    generalize f.dA_ddelta T V = a
    generalize f.d2A_ddeltadtau T V = b
    generalize f.d2A_ddelta2 T V = c
    generalize f.d3A_ddelta2dtau T V = d
    generalize f.d3A_ddeltadtau2 T V = e
    simp only [Fluid.delta, Fluid.rho_red_inv, Fluid.tau]
    field_simp
    ring

theorem tot_dP_dV (h : Smooth f T V) : Total f.dP_dV (f.d2P_dTdV T V) (f.d2P_dV2 T V) T V := by
  have hV := h.posV.ne'; have hT := h.posT.ne'; have hr := h.posrr.ne'
  have kr := tot_rho T hV
  have k := (((((Total.const (-f.R) T V).mul kr).mul kr).mul (Total.fst T V)).mul (tot_delta (f := f) T hV)).mul
    (((Total.const 2 T V).mul (tot_dA_ddelta h)).add ((tot_delta (f := f) T hV).mul (tot_d2A_ddelta2 h)))
  refine k.congr ?_ ?_
  all_goals
    simp only [Fluid.d2P_dV2, Fluid.d2P_dTdV]
    generalize f.dA_ddelta T V = a
    generalize f.d2A_ddeltadtau T V = b
    generalize f.d2A_ddelta2 T V = c
    generalize f.d3A_ddelta2dtau T V = d
    generalize f.d3A_ddelta3 T V = e
    simp only [Fluid.delta, Fluid.rho_red_inv, rho]
    field_simp
    ring

theorem tot_S (h : Smooth f T V) : Total f.S (f.dS_dT_V T V) (f.dS_dV_T T V) T V := by
  have hV := h.posV.ne'; have hT := h.posT.ne'; have hr := h.posrr.ne'
  have k := (((tot_tau (f := f) hT V).mul (tot_dA_dtau h)).sub (tot_A h)).mul (Total.const f.R T V)
  refine k.congr ?_ ?_
  all_goals
    simp only [Fluid.dS_dT_V, Fluid.dS_dV_T, Fluid.rho_red_inv, Fluid.tau]
    field_simp
    ring

theorem tot_H (h : Smooth f T V) : Total f.H (f.dH_dT_V T V) (f.dH_dV_T T V) T V := by
  have hV := h.posV.ne'; have hT := h.posT.ne'; have hr := h.posrr.ne'
  have k := ((((tot_tau (f := f) hT V).mul (tot_dA_dtau h)).add ((tot_dA_ddelta h).mul (tot_delta (f := f) T hV))).mul
    (Total.fst T V)).mul (Total.const f.R T V)
  refine k.congr ?_ ?_
  all_goals
    simp only [Fluid.dH_dT_V, Fluid.dH_dV_T, Fluid.rho_red_inv, Fluid.tau, Fluid.delta]
    field_simp
    ring

/-- The enthalpy derivatives by the thermodynamic relations. -/
theorem rel (h : Ok f T V) :
    f.dS_dV_T T V = f.dP_dT T V ∧ f.dH_dT_V T V = T * f.dS_dT_V T V + V * f.dP_dT T V ∧
      f.dH_dV_T T V = T * f.dP_dT T V + V * f.dP_dV T V ∧ f.Cv T V = T * f.dS_dT_V T V ∧
      f.Cp T V = T * f.dS_dT_V T V - T * f.dP_dT T V ^ 2 / f.dP_dV T V := by
  have hV := h.posV.ne'; have hT := h.posT.ne'; have hr := h.posrr.ne'; have hR := h.posR.ne'
  have e1 : f.dS_dV_T T V = f.dP_dT T V := by
    simp only [Fluid.dP_dT, Fluid.dS_dV_T, Fluid.rho_red_inv, Fluid.tau, Fluid.delta]; field_simp
  have e2 : f.Cv T V = T * f.dS_dT_V T V := by
    simp only [Fluid.Cv, Fluid.dS_dT_V, Fluid.tau]; field_simp
  refine ⟨e1, ?_, ?_, e2, ?_⟩
  · simp only [Fluid.dH_dT_V, Fluid.dS_dT_V, Fluid.dP_dT, Fluid.rho_red_inv, Fluid.tau, Fluid.delta]
    field_simp; ring
  · simp only [Fluid.dH_dV_T, Fluid.dP_dT, Fluid.dP_dV, Fluid.rho_red_inv, Fluid.tau, Fluid.delta, rho]
    field_simp; ring
  · have n := h.neV
    rw [← e2]
    simp only [Fluid.dP_dV] at n
    have n1 : 2 * f.dA_ddelta T V + f.delta V * f.d2A_ddelta2 T V ≠ 0 := right_ne_zero_of_mul n
    have n2 := h.dpos.ne'
    simp only [Fluid.Cp, Fluid.Cv, Fluid.dP_dT, Fluid.dP_dV, rho]
    rw [show f.dA_ddelta T V + f.dA_ddelta T V = 2 * f.dA_ddelta T V by ring]
    generalize 2 * f.dA_ddelta T V + f.delta V * f.d2A_ddelta2 T V = Q at *
    field_simp
    ring

theorem mech (h : Ok f T V) : Mech f.phase T V :=
  ⟨h.posR, h.posT, h.posV, tot_P h.toSmooth, tot_dP_dT h.toSmooth, tot_dP_dV h.toSmooth, h.neT, h.neV⟩

theorem caloric (h : Ok f T V) : Caloric f.phase T V := by
  obtain ⟨e1, e2, e3, -, e4⟩ := rel h
  have kH : Total f.phase.H _ _ T V := tot_H h.toSmooth
  have kS : Total f.phase.S _ _ T V := tot_S h.toSmooth
  have kT := tot_T T V; have kV := tot_V T V
  have m := mech h
  have kP := m.hP
  have n1 : f.dP_dT T V ≠ 0 := h.neT
  have n2 : f.dP_dV T V ≠ 0 := h.neV
  have o := m.neT
  have hT := h.posT.ne'
  refine ⟨⟨_, _, kH⟩, ⟨_, _, kS⟩, (part_iff kH kT kP (.inl o)).2 ?_, (part_iff kH kP kT (.inl one_ne_zero)).2 ?_,
    (part_iff kH kT kV (.inr one_ne_zero)).2 ?_, (part_iff kH kP kV (.inr one_ne_zero)).2 ?_,
    (part_iff kH kV kT (.inl one_ne_zero)).2 ?_, (part_iff kH kV kP (.inl o)).2 ?_,
    (part_iff kS kT kP (.inl o)).2 ?_, (part_iff kS kP kT (.inl one_ne_zero)).2 ?_,
    (part_iff kS kT kV (.inr one_ne_zero)).2 ?_, (part_iff kS kP kV (.inr one_ne_zero)).2 ?_⟩
  all_goals simp only [Fluid.phase, Fluid.dH_dP_T, Fluid.dH_dP_V, Fluid.dH_dV_P, Fluid.dS_dT_P, Fluid.dS_dP_T,
    Fluid.dS_dP_V, e1, e2, e3, e4]
  all_goals (field_simp; try ring)

theorem consistent (h : Ok f T V) : Consistent f.phase T V := by
  obtain ⟨e1, e2, e3, -, e4⟩ := rel h
  have n1 : f.dP_dT T V ≠ 0 := h.neT
  have n2 : f.dP_dV T V ≠ 0 := h.neV
  have hT := h.posT.ne'
  refine ⟨rfl, ?_, ?_, ?_⟩
  all_goals simp only [Fluid.phase, Methods.dV_dT, Fluid.dH_dP_T, Fluid.dS_dT_P, Fluid.dS_dP_T, e1, e3, e4]
  all_goals (field_simp; try ring)

end

/-- A fluid for the examples. -/
noncomputable def demo : Fluid where
  R := 2
  T_red := 1
  rho_red := 1
  A0 t := -t ^ 2
  dA0_dtau t := -2 * t
  d2A0_dtau2 _ := -2
  Ar t d := -(t * d) + d * d
  dAr_ddelta t d := -t + 2 * d
  d2Ar_ddelta2 _ _ := 2
  d3Ar_ddelta3 _ _ := 0
  dAr_dtau _ d := -d
  d2Ar_dtau2 _ _ := 0
  d2Ar_ddeltadtau _ _ := -1
  d3Ar_ddelta2dtau _ _ := 0
  d3Ar_ddeltadtau2 _ _ := 0
  d4Ar_ddeltadtau3 _ _ := 0
  d4Ar_ddelta2dtau2 _ _ := 0

theorem demo_smooth {T V : ℝ} (hT : 0 < T) (hV : 0 < V) : Smooth demo T V where
  posR := by norm_num [demo]
  posTr := by norm_num [demo]
  posrr := by norm_num [demo]
  posT := hT
  posV := hV
  h0 := by
    have := ((hasDerivAt_id (demo.tau T)).mul (hasDerivAt_id (demo.tau T))).neg
    refine (this.congr_deriv ?_).congr_of_eventuallyEq (.of_forall fun t => ?_)
    · simp only [demo, id_eq]; ring
    · simp only [demo, Pi.neg_apply, Pi.mul_apply, id_eq]; ring
  h0t := by
    have := (hasDerivAt_id (demo.tau T)).const_mul (-2 : ℝ)
    exact this.congr_deriv (by simp only [demo]; ring)
  hr := by
    have k1 := Total.fst (demo.tau T) (demo.delta V)
    have k2 := Total.snd (demo.tau T) (demo.delta V)
    refine ((((Total.const 0 _ _).sub (k1.mul k2)).add (k2.mul k2)).congr_fun fun t d => ?_).congr ?_ ?_
    all_goals simp only [demo]; ring
  ht := by
    have k2 := Total.snd (demo.tau T) (demo.delta V)
    refine (((Total.const 0 _ _).sub k2).congr_fun fun t d => ?_).congr ?_ ?_
    all_goals simp only [demo]; ring
  hd := by
    have k1 := Total.fst (demo.tau T) (demo.delta V)
    have k2 := Total.snd (demo.tau T) (demo.delta V)
    refine ((((Total.const 0 _ _).sub k1).add ((Total.const 2 _ _).mul k2)).congr_fun fun t d => ?_).congr ?_ ?_
    all_goals simp only [demo]; ring
  hdd := Total.const 2 _ _
  hdt := Total.const (-1) _ _

theorem demo_ok : Ok demo 1 1 := by
  refine ⟨demo_smooth one_pos one_pos, ?_, ?_⟩
  all_goals
    norm_num [demo, Fluid.dP_dT, Fluid.dP_dV, Fluid.dA_ddelta, Fluid.d2A_ddeltadtau, Fluid.d2A_ddelta2, Fluid.tau,
      Fluid.delta, Fluid.rho_red_inv, rho]

section
variable {f : Fluid} {T V : ℝ}

/-! ## C76 -/

/-- **C76.** One function determines the state: the Helmholtz energy `RTA`. The entropy and the pressure of the phase
are minus its derivatives by temperature and by volume, and the enthalpy of the phase is this energy plus `TS + PV`. -/
theorem C76_potential (h : Smooth f T V) :
    Total (fun T V => f.R * T * f.A T V) (-f.S T V) (-f.P T V) T V ∧
      f.H T V = f.R * T * f.A T V + T * f.S T V + f.P T V * V := by
  have hV := h.posV.ne'; have hT := h.posT.ne'; have hr := h.posrr.ne'
  constructor
  · refine (((Total.const f.R T V).mul (Total.fst T V)).mul (tot_A h)).congr ?_ ?_
    · simp only [Fluid.S, Fluid.tau]; field_simp; ring
    · rw [P_eq h.dpos]; simp only [Fluid.delta]; field_simp; ring
  · rw [P_eq h.dpos]; simp only [Fluid.H, Fluid.S]; field_simp; ring

/-- **C76.** Off the spinodal all derivatives the class supplies are the partial derivatives they are named after, of
one pressure, one enthalpy and one entropy that satisfy the thermodynamic relations. With C61 and C62, so are all
derivatives the base class computes from them. -/
theorem C76_promises (h : Ok f T V) : Mech f.phase T V ∧ Caloric f.phase T V ∧ Consistent f.phase T V :=
  ⟨mech h, caloric h, consistent h⟩

/-- **C76.** The methods that replace one of the base class agree with it: the heat capacity at constant volume and
the derivative of entropy by volume. The former is the derivative of the internal energy. -/
theorem C76_overrides (h : Ok f T V) :
    f.Cv T V = f.phase.Cv T V ∧ f.dS_dV_T T V = f.phase.dS_dV_T T V ∧ Part f.phase.U temp vol (f.Cv T V) T V := by
  obtain ⟨e1, e2, e3, e5, e4⟩ := rel h
  have n1 : f.dP_dT T V ≠ 0 := h.neT
  have n2 : f.dP_dV T V ≠ 0 := h.neV
  refine ⟨?_, ?_, ?_⟩
  · rw [e5]; simp only [Methods.Cv, Fluid.phase, e4]; ring
  · simp only [Methods.dS_dV_T, Fluid.phase, Fluid.dS_dP_T]; field_simp
  · have k := (C61_energy (mech h) (caloric h)).2.1.2.1
    have : f.phase.dU_dT_V T V = f.Cv T V := by
      rw [e5]; simp only [Methods.dU_dT_V, Fluid.phase, e2]; ring
    rwa [this] at k

example : Smooth demo 1 1 ∧ Ok demo 1 1 := ⟨demo_ok.toSmooth, demo_ok⟩

/-! ## C77 -/

/-- Molar Gibbs energy and entropy of the ideal gas with the same `A0` at a temperature and pressure: the density is
`P / RT` there. -/
noncomputable def idealG (f : Fluid) (T P : ℝ) : ℝ :=
  f.R * T * (f.A0 (f.tau T) + Real.log (P / (f.R * T) / f.rho_red) + 1)
@[inherit_doc idealG] noncomputable def idealS (f : Fluid) (T P : ℝ) : ℝ :=
  f.R * (f.tau T * f.dA0_dtau (f.tau T) - f.A0 (f.tau T) - Real.log (P / (f.R * T) / f.rho_red))

/-- Enthalpy of the ideal gas with the same `A0`. -/
noncomputable def idealH (f : Fluid) (T : ℝ) : ℝ := f.R * T * (f.tau T * f.dA0_dtau (f.tau T) + 1)

theorem x0_eq (h : Smooth f T V) : f.delta V * (f.dA_ddelta T V - 1 / f.delta V) + 1 = f.phase.Z T V := by
  have hV := h.posV.ne'; have hT := h.posT.ne'; have hR := h.posR.ne'; have n := h.dpos.ne'
  simp only [Methods.Z, Fluid.phase]
  rw [P_eq h.dpos]
  field_simp
  ring

theorem Z_pos (h : Smooth f T V) (hP : 0 < f.P T V) : 0 < f.phase.Z T V := by
  have := h.posV; have := h.posT; have := h.posR
  have e : f.phase.Z T V = f.P T V * V / (f.R * T) := rfl
  rw [e]; positivity

theorem log_ideal (h : Smooth f T V) (hP : 0 < f.P T V) :
    Real.log (f.P T V / (f.R * T) / f.rho_red) = Real.log (f.delta V) + Real.log (f.phase.Z T V) := by
  have hV := h.posV.ne'; have hT := h.posT.ne'; have hR := h.posR.ne'; have hr := h.posrr.ne'
  rw [← Real.log_mul h.dpos.ne' (Z_pos h hP).ne']
  congr 1
  simp only [Methods.Z, Fluid.phase, Fluid.delta, Fluid.rho_red_inv]
  field_simp

/-- **C77.** The logarithm of the fugacity coefficient is the Gibbs energy of the phase above that of the ideal gas at
the same temperature and pressure, in units of `RT`. -/
theorem C77_lnphi (h : Smooth f T V) (hP : 0 < f.P T V) :
    f.lnphi T V = (f.phase.G T V - idealG f T (f.P T V)) / (f.R * T) := by
  have hV := h.posV.ne'; have hT := h.posT.ne'; have hR := h.posR.ne'; have hr := h.posrr.ne'; have n := h.dpos.ne'
  simp only [Fluid.lnphi]
  rw [x0_eq h, eq_div_iff (mul_ne_zero hR hT), idealG, log_ideal h hP]
  simp only [Methods.G, Fluid.phase, Fluid.H, Fluid.S, Fluid.A, Fluid.A0_at]
  field_simp
  ring

theorem tot_lnphi (h : Smooth f T V) (hP : 0 < f.P T V) :
    Total f.lnphi (f.dlnphi_dT_V T V) (f.dlnphi_dV_T T V) T V := by
  have hV := h.posV.ne'; have hT := h.posT.ne'; have hR := h.posR.ne'; have hr := h.posrr.ne'; have n := h.dpos.ne'
  have kd := tot_delta (f := f) T hV
  have k0 := kd.mul ((tot_dA_ddelta h).sub ((Total.const 1 T V).div kd n))
  have nz : f.delta V * (f.dA_ddelta T V - 1 / f.delta V) + 1 ≠ 0 := by rw [x0_eq h]; exact (Z_pos h hP).ne'
  have k := (((tot_A h).sub (tot_A0_at h)).add k0).sub ((k0.add (Total.const 1 T V)).log nz)
  refine k.congr ?_ ?_
  · have e : 1 / V * (f.dA_ddelta T V - f.rho_red / (1 / V)) * f.rho_red_inv + 1
        = f.delta V * (f.dA_ddelta T V - 1 / f.delta V) + 1 := by
      simp only [Fluid.delta, Fluid.rho_red_inv]; field_simp
    simp only [Fluid.dlnphi_dT_V, e]
    generalize f.delta V * (f.dA_ddelta T V - 1 / f.delta V) + 1 = Q at *
    simp only [Fluid.delta, Fluid.rho_red_inv]
    field_simp
    ring
  · have e : 1 / V * f.rho_red_inv * (f.dA_ddelta T V + -f.rho_red * (1 / (1 / V))) + 1
        = f.delta V * (f.dA_ddelta T V - 1 / f.delta V) + 1 := by
      simp only [Fluid.delta, Fluid.rho_red_inv]; field_simp; ring
    simp only [Fluid.dlnphi_dV_T, e]
    generalize f.delta V * (f.dA_ddelta T V - 1 / f.delta V) + 1 = Q at *
    simp only [Fluid.delta, Fluid.rho_red_inv]
    field_simp
    ring

/-- **C77.** The derivatives of the logarithm of the fugacity coefficient are the ones they are named after. -/
theorem C77_lnphi_derivatives (h : Ok f T V) (hP : 0 < f.P T V) :
    Part f.lnphi temp vol (f.dlnphi_dT_V T V) T V ∧ Part f.lnphi vol temp (f.dlnphi_dV_T T V) T V ∧
      Part f.lnphi temp f.P (f.dlnphi_dT_P T V) T V ∧ Part f.lnphi f.P temp (f.dlnphi_dP_T T V) T V ∧
      Part f.lnphi f.P vol (f.dlnphi_dP_V T V) T V ∧ Part f.lnphi vol f.P (f.dlnphi_dV_P T V) T V := by
  have k := tot_lnphi h.toSmooth hP
  have kP := tot_P h.toSmooth
  have kT := tot_T T V; have kV := tot_V T V
  have n1 := h.neT; have n2 := h.neV
  refine ⟨(part_iff k kT kV (.inr one_ne_zero)).2 ?_, (part_iff k kV kT (.inl one_ne_zero)).2 ?_,
    (part_iff k kT kP (.inl n1)).2 ?_, (part_iff k kP kT (.inl one_ne_zero)).2 ?_,
    (part_iff k kP kV (.inr one_ne_zero)).2 ?_, (part_iff k kV kP (.inl n1)).2 ?_⟩
  all_goals try simp only [Fluid.dlnphi_dT_P, Fluid.dlnphi_dP_T, Fluid.dlnphi_dP_V, Fluid.dlnphi_dV_P, Fluid.phase,
    Methods.dV_dT, Methods.dT_dP, Methods.dT_dV]
  all_goals (field_simp; try ring)

/-- **C77.** The enthalpy departure is the enthalpy above that of the ideal gas at the same temperature. With it and
the volume, the derivatives of the logarithm of the fugacity coefficient satisfy the exact relations
`∂lnφ/∂T|P = -H_dep / RT²` and `∂lnφ/∂P|T = V/RT - 1/P`. -/
theorem C77_gibbs_helmholtz (h : Ok f T V) (hP : 0 < f.P T V) :
    f.H_dep T V = f.H T V - idealH f T ∧ f.dlnphi_dT_P T V = -f.H_dep T V / (f.R * T ^ 2) ∧
      f.dlnphi_dP_T T V = V / (f.R * T) - 1 / f.P T V := by
  have hs := h.toSmooth
  have hV := h.posV.ne'; have hT := h.posT.ne'; have hR := h.posR.ne'; have hr := h.posrr.ne'; have n := hs.dpos.ne'
  have n1 : f.dP_dT T V ≠ 0 := h.neT
  have n2 : f.dP_dV T V ≠ 0 := h.neV
  have nP := hP.ne'
  have e0 : f.H_dep T V = f.H T V - idealH f T := by
    simp only [Fluid.H_dep, idealH]; field_simp
  have nZ : f.delta V * f.dA_ddelta T V ≠ 0 := by
    have := Z_pos hs hP
    rw [← x0_eq hs] at this
    have e : f.delta V * (f.dA_ddelta T V - 1 / f.delta V) + 1 = f.delta V * f.dA_ddelta T V := by field_simp; ring
    rw [e] at this; exact this.ne'
  have ePT : f.dP_dT T V = f.R / V * (f.delta V * f.dA_ddelta T V - f.tau T * (f.delta V * f.d2A_ddeltadtau T V)) := by
    simp only [Fluid.dP_dT]; ring
  have ePV : f.dP_dV T V = -(f.R * T / V ^ 2) * (2 * (f.delta V * f.dA_ddelta T V) + f.delta V ^ 2 * f.d2A_ddelta2 T V) := by
    simp only [Fluid.dP_dV, rho]; ring
  have eT : f.dlnphi_dT_V T V = -(1 / T) * ((1 - 1 / (f.delta V * f.dA_ddelta T V))
      * (f.tau T * (f.delta V * f.d2A_ddeltadtau T V)) + f.tau T * (f.dA_dtau T V - f.dA0_dtau (f.tau T))) := by
    have e : 1 / V * (f.dA_ddelta T V - f.rho_red / (1 / V)) * f.rho_red_inv + 1 = f.delta V * f.dA_ddelta T V := by
      simp only [Fluid.delta, Fluid.rho_red_inv]; field_simp; ring
    simp only [Fluid.dlnphi_dT_V, e]
    generalize f.delta V * f.dA_ddelta T V = Q at *
    generalize f.dA0_dtau (f.tau T) = a
    simp only [Fluid.delta, Fluid.rho_red_inv, Fluid.tau]
    field_simp
    ring
  have eV : f.dlnphi_dV_T T V = -(1 / V) * ((f.delta V * f.dA_ddelta T V - 1)
      + (f.delta V * f.dA_ddelta T V + f.delta V ^ 2 * f.d2A_ddelta2 T V) * (1 - 1 / (f.delta V * f.dA_ddelta T V))) := by
    have e : 1 / V * f.rho_red_inv * (f.dA_ddelta T V + -f.rho_red * (1 / (1 / V))) + 1 = f.delta V * f.dA_ddelta T V := by
      simp only [Fluid.delta, Fluid.rho_red_inv]; field_simp; ring
    obtain ⟨Q, hQ⟩ : ∃ Q, Q = f.delta V * f.dA_ddelta T V := ⟨_, rfl⟩
    have e' : f.dA_ddelta T V = Q * (V * f.rho_red) := by
      rw [hQ]; simp only [Fluid.delta, Fluid.rho_red_inv]; field_simp
    simp only [Fluid.dlnphi_dV_T, e]
    rw [← hQ] at nZ ⊢
    rw [e']
    simp only [Fluid.delta, Fluid.rho_red_inv]
    field_simp
    ring
  have eP := P_eq (T := T) hs.dpos
  have eH : f.H_dep T V = f.R * T * (f.tau T * (f.dA_dtau T V - f.dA0_dtau (f.tau T)) + f.delta V * f.dA_ddelta T V - 1) := by
    rw [e0]; simp only [Fluid.H, idealH]; ring
  simp only [Fluid.dlnphi_dT_P, Fluid.dlnphi_dP_T, Fluid.dlnphi_dP_V, Fluid.dlnphi_dV_P, Fluid.phase,
    Methods.dV_dT, Methods.dT_dP, Methods.dT_dV, eH]
  rw [ePV] at n2 ⊢
  rw [ePT] at n1 ⊢
  rw [eT, eV, eP]
  have n3 := right_ne_zero_of_mul n1
  have n4 := right_ne_zero_of_mul n2
  generalize f.delta V * f.dA_ddelta T V = Q at *
  generalize f.delta V ^ 2 * f.d2A_ddelta2 T V = y at *
  generalize f.tau T * (f.delta V * f.d2A_ddeltadtau T V) = w at *
  generalize f.tau T * (f.dA_dtau T V - f.dA0_dtau (f.tau T)) = u at *
  obtain ⟨N, hN⟩ : ∃ N, N = 2 * Q + y := ⟨_, rfl⟩
  obtain ⟨M, hM⟩ : ∃ M, M = Q - w := ⟨_, rfl⟩
  have hy : y = N - 2 * Q := by rw [hN]; ring
  have hw : w = Q - M := by rw [hM]; ring
  rw [← hN] at n4 ⊢
  rw [← hM] at n3 ⊢
  rw [hy, hw]
  refine ⟨by rw [← eH, e0], ?_, ?_⟩
  · field_simp
    ring
  · field_simp
    ring

example : Ok demo 1 1 ∧ 0 < demo.P 1 1 :=
  ⟨demo_ok, by norm_num [demo, Fluid.P, Fluid.tau, Fluid.delta, Fluid.rho_red_inv]⟩

/-- **C77, refuted.** `A()` does not return the molar Helmholtz energy `U - TS` that the base class documents: it
returns the energy divided by `RT`. -/
theorem C77_A_fails :
    (∀ (f : Fluid) (T V : ℝ), Smooth f T V → f.phase.A T V = f.R * T * f.A T V) ∧
      ∃ (f : Fluid) (T V : ℝ), Ok f T V ∧ f.A T V ≠ f.phase.A T V := by
  have key : ∀ (f : Fluid) (T V : ℝ), Smooth f T V → f.phase.A T V = f.R * T * f.A T V := fun f T V h => by
    have e := (C76_potential h).2
    simp only [Methods.A, Methods.U, Fluid.phase]
    rw [e]; ring
  refine ⟨key, demo, 1, 1, demo_ok, ?_⟩
  rw [key _ _ _ demo_ok.toSmooth]
  norm_num [demo, Fluid.A, Fluid.A0_at, Fluid.tau, Fluid.delta, Fluid.rho_red_inv]

/-- **C77, partial.** `S_dep` is the entropy above that of the ideal gas at the same temperature and *density*. A
departure is meant at the same pressure: missing is `R ln Z`, and `G_dep` exceeds `RT ln φ` by `RT ln Z`. -/
theorem C77_S_dep_partial (h : Smooth f T V) (hP : 0 < f.P T V) :
    f.S_dep T V = f.S T V - idealS f T (f.P T V) - f.R * Real.log (f.phase.Z T V) ∧
      f.S_dep T V = f.S T V - idealS f T (f.R * T / V) ∧
      f.G_dep T V = f.R * T * (f.lnphi T V + Real.log (f.phase.Z T V)) := by
  have hV := h.posV.ne'; have hT := h.posT.ne'; have hR := h.posR.ne'; have hr := h.posrr.ne'; have n := h.dpos.ne'
  have e1 : f.S_dep T V = f.S T V - idealS f T (f.P T V) - f.R * Real.log (f.phase.Z T V) := by
    simp only [Fluid.S_dep, idealS, log_ideal h hP, Fluid.A0_at]; ring
  refine ⟨e1, ?_, ?_⟩
  · have : f.R * T / V / (f.R * T) / f.rho_red = f.delta V := by
      simp only [Fluid.delta, Fluid.rho_red_inv]; field_simp
    simp only [Fluid.S_dep, idealS, this, Fluid.A0_at]; ring
  · rw [C77_lnphi h hP]
    simp only [Fluid.G_dep, Fluid.H_dep, e1, idealG, idealS, Methods.G, Fluid.phase]
    field_simp
    ring

/-- **C77, refuted.** So `S_dep` is not the departure entropy, and the departure Gibbs energy of the phase contradicts
its own fugacity coefficient. -/
theorem C77_S_dep_fails : ∃ (f : Fluid) (T V : ℝ), Ok f T V ∧ 0 < f.P T V ∧
    f.S_dep T V ≠ f.S T V - idealS f T (f.P T V) ∧ f.G_dep T V ≠ f.R * T * f.lnphi T V := by
  have hP : 0 < demo.P 1 1 := by norm_num [demo, Fluid.P, Fluid.tau, Fluid.delta, Fluid.rho_red_inv]
  obtain ⟨e1, -, e2⟩ := C77_S_dep_partial demo_ok.toSmooth hP
  have hZ : demo.phase.Z 1 1 = 2 := by
    norm_num [demo, Methods.Z, Fluid.phase, Fluid.P, Fluid.tau, Fluid.delta, Fluid.rho_red_inv]
  have hR : demo.R = 2 := rfl
  have hl : 0 < Real.log 2 := Real.log_pos (by norm_num)
  refine ⟨demo, 1, 1, demo_ok, hP, ?_, ?_⟩
  · rw [e1, hZ, hR]; intro e; linarith
  · rw [e2, hZ, hR]; intro e; linarith

/-! ### Virial coefficients -/

/-- Compressibility factor of the fluid as a function of the molar density. -/
noncomputable def Zrho (f : Fluid) (T r : ℝ) : ℝ := 1 + r / f.rho_red * f.dAr_ddelta (f.tau T) (r / f.rho_red)

theorem Zrho_eq (h : Smooth f T V) : f.phase.Z T V = Zrho f T (1 / V) := by
  have hV := h.posV.ne'; have hT := h.posT.ne'; have hR := h.posR.ne'; have hr := h.posrr.ne'
  have e : f.delta V = 1 / V / f.rho_red := by simp only [Fluid.delta, Fluid.rho_red_inv]; field_simp
  simp only [Methods.Z, Fluid.phase, Fluid.P, Zrho, e]
  field_simp

/-- **C77.** The virial coefficients are those of the expansion of the compressibility factor in the density:
`Z = 1 + ρB + ρ²C + o(ρ²)`. -/
theorem C77_virial (hr : f.rho_red ≠ 0)
    (h0 : HasDerivAt (f.dAr_ddelta (f.tau T)) (f.d2Ar_ddelta2 (f.tau T) 0) 0) :
    HasDerivAt (Zrho f T) (f.B_virial T) 0 ∧
      Filter.Tendsto (fun r => (Zrho f T r - 1 - r * f.B_virial T) / r ^ 2) (nhdsWithin 0 {0}ᶜ) (nhds (f.C_virial T)) := by
  have hs : HasDerivAt (fun r : ℝ => r / f.rho_red) (1 / f.rho_red) 0 := (hasDerivAt_id (0 : ℝ)).div_const _
  have hc : HasDerivAt (fun r => f.dAr_ddelta (f.tau T) (r / f.rho_red)) (f.d2Ar_ddelta2 (f.tau T) 0 * (1 / f.rho_red)) 0 := by
    have e : (0 : ℝ) = (fun r : ℝ => r / f.rho_red) 0 := by simp
    have h0' : HasDerivAt (f.dAr_ddelta (f.tau T)) (f.d2Ar_ddelta2 (f.tau T) 0) ((fun r : ℝ => r / f.rho_red) 0) := e ▸ h0
    exact h0'.comp 0 hs
  constructor
  · refine ((hs.fun_mul hc).const_add 1).congr_deriv ?_
    simp only [Fluid.B_virial, zero_div]; ring
  · have k := (hasDerivAt_iff_tendsto_slope.1 hc).div_const f.rho_red
    have e : f.d2Ar_ddelta2 (f.tau T) 0 * (1 / f.rho_red) / f.rho_red = f.C_virial T := by
      simp only [Fluid.C_virial]; field_simp
    rw [e] at k
    refine k.congr' ?_
    filter_upwards [self_mem_nhdsWithin] with r hr0
    have hr0 : r ≠ 0 := hr0
    simp only [slope, vsub_eq_sub, sub_zero, smul_eq_mul, zero_div, Zrho, Fluid.B_virial]
    field_simp
    ring

/-- The chain rule in the inverse reduced temperature. -/
theorem of_tau {g : ℝ → ℝ} {d : ℝ} (h : HasDerivAt g d (f.tau T)) (hT : T ≠ 0) :
    HasDerivAt (fun T => g (f.tau T)) (-d * f.T_red / T ^ 2) T := by
  have k : HasDerivAt (fun T => f.tau T) (-f.T_red / T ^ 2) T := by
    have := (hasDerivAt_const T f.T_red).fun_div (hasDerivAt_id T) hT
    exact this.congr_deriv (by simp only [id_eq]; ring)
  exact (h.comp T k).congr_deriv (by ring)

/-- **C77.** The temperature derivatives of the virial coefficients are exact. -/
theorem C77_virial_derivatives (hT : 0 < T) (hTr : 0 < f.T_red) (hr : 0 < f.rho_red)
    (h1 : HasDerivAt (fun t => f.dAr_ddelta t 0) (f.d2Ar_ddeltadtau (f.tau T) 0) (f.tau T))
    (h2 : HasDerivAt (fun t => f.d2Ar_ddeltadtau t 0) (f.d3Ar_ddeltadtau2 (f.tau T) 0) (f.tau T))
    (h3 : HasDerivAt (fun t => f.d3Ar_ddeltadtau2 t 0) (f.d4Ar_ddeltadtau3 (f.tau T) 0) (f.tau T))
    (h4 : HasDerivAt (fun t => f.d2Ar_ddelta2 t 0) (f.d3Ar_ddelta2dtau (f.tau T) 0) (f.tau T))
    (h5 : HasDerivAt (fun t => f.d3Ar_ddelta2dtau t 0) (f.d4Ar_ddelta2dtau2 (f.tau T) 0) (f.tau T)) :
    (HasDerivAt f.B_virial (f.dB_virial_dT T) T ∧ HasDerivAt f.dB_virial_dT (f.d2B_virial_dT2 T) T ∧
      HasDerivAt f.d2B_virial_dT2 (f.d3B_virial_dT3 T) T) ∧
    HasDerivAt f.C_virial (f.dC_virial_dT T) T ∧ HasDerivAt f.dC_virial_dT (f.d2C_virial_dT2 T) T := by
  have hT' := hT.ne'; have hTr' := hTr.ne'; have hr' := hr.ne'
  have kt : HasDerivAt (fun T => f.tau T) (-f.T_red / T ^ 2) T :=
    (of_tau (f := f) (g := fun t => t) (hasDerivAt_id _) hT').congr_deriv (by ring)
  have kT := hasDerivAt_id T
  have k1 := of_tau h1 hT'; have k2 := of_tau h2 hT'; have k3 := of_tau h3 hT'
  have k4 := of_tau h4 hT'; have k5 := of_tau h5 hT'
  refine ⟨⟨?_, ?_, ?_⟩, ?_, ?_⟩
  · refine (k1.div_const f.rho_red).congr_deriv ?_
    simp only [Fluid.dB_virial_dT, Fluid.tau]; field_simp
  · refine (((kt.fun_neg.fun_mul kt).fun_mul k2).div_const (f.rho_red * f.T_red)).congr_deriv ?_
    simp only [Fluid.d2B_virial_dT2]
    generalize f.d2Ar_ddeltadtau (f.tau T) 0 = a
    generalize f.d3Ar_ddeltadtau2 (f.tau T) 0 = b
    simp only [Fluid.tau]; field_simp; ring
  · refine ((((k2.const_mul 2).fun_add (kt.fun_mul k3)).const_mul f.T_red).fun_div
      (((kT.fun_mul kT).fun_mul kT).mul_const f.rho_red) (by simp [hT', hr'])).congr_deriv ?_
    simp only [Fluid.d3B_virial_dT3, id_eq]
    generalize f.d2Ar_ddeltadtau (f.tau T) 0 = a
    generalize f.d3Ar_ddeltadtau2 (f.tau T) 0 = b
    generalize f.d4Ar_ddeltadtau3 (f.tau T) 0 = c
    simp only [Fluid.tau]; field_simp; ring
  · refine (k4.div_const (f.rho_red * f.rho_red)).congr_deriv ?_
    simp only [Fluid.dC_virial_dT, Fluid.tau]; field_simp
  · refine (((kt.fun_neg.fun_mul kt).fun_mul k5).div_const (f.rho_red * f.rho_red * f.T_red)).congr_deriv ?_
    simp only [Fluid.d2C_virial_dT2]
    generalize f.d3Ar_ddelta2dtau (f.tau T) 0 = a
    generalize f.d4Ar_ddelta2dtau2 (f.tau T) 0 = b
    simp only [Fluid.tau]; field_simp; ring

example : HasDerivAt (fun t => demo.dAr_ddelta t 0) (demo.d2Ar_ddeltadtau (demo.tau 1) 0) (demo.tau 1) ∧
    HasDerivAt (demo.dAr_ddelta (demo.tau 1)) (demo.d2Ar_ddelta2 (demo.tau 1) 0) 0 ∧ demo.dB_virial_dT 1 ≠ 0 := by
  refine ⟨?_, ?_, ?_⟩
  · exact ((hasDerivAt_id (demo.tau 1)).neg.add_const (2 * 0)).congr_deriv (by simp [demo])
  · exact (((hasDerivAt_id (0 : ℝ)).const_mul 2).const_add (-demo.tau 1)).congr_deriv (by simp [demo])
  · norm_num [demo, Fluid.dB_virial_dT, Fluid.tau]

/-- Subclasses of `HelmholtzEOS`. -/
inductive Sub | iapws95 | dryAir
  deriving DecidableEq

/-- Whether the class body defines `_d4Ar_ddeltadtau3_func` (`iapws_phase.py` 76-85, `air_phase.py` 55-73). -/
def Sub.has_d4Ar_ddeltadtau3 : Sub → Bool
  | .iapws95 => false
  | .dryAir => true

/-- The call `d3B_virial_dT3()` (609-616): the lookup of the function fails inside the `try` at 611, and again at 615
outside of it. -/
noncomputable def d3B_call (s : Sub) (f : Fluid) (T : ℝ) : Except String ℝ :=
  if s.has_d4Ar_ddeltadtau3 then .ok (f.d3B_virial_dT3 T) else .error "AttributeError"

/-- **C77, refuted.** The third derivative of the second virial coefficient is not available for every class that
inherits the method: for water the call always raises. -/
theorem C77_d3B_fails : (∀ f T, d3B_call .iapws95 f T = .error "AttributeError") ∧
    ∀ f T, d3B_call .dryAir f T = .ok (f.d3B_virial_dT3 T) :=
  ⟨fun _ _ => rfl, fun _ _ => rfl⟩

end

end Verif.Helmholtz
