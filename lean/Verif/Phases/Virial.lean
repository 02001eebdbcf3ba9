import Verif.Phases.Fugacity

/-!
# The virial gas (`thermo/phases/virial_phase.py`, class `VirialGas`)

* C67: volume explicit derivatives, departure functions and fugacity coefficients of the virial equation; the heat
  capacity it reports is the derivative of the enthalpy at constant volume instead of constant pressure.

The virial coefficients `B(T)`, `C(T)` of the mixture and their temperature derivatives are arbitrary functions (the
correlations are in the package `chemicals`); the mixing of second coefficients in `VirialGas` is modelled. Methods
the class does not have (`d2H_dT2`, `d2H_dTdP`, `d2P_dTdP`, `d2P_dVdP`, `d2P_dVdT_TP`, `d2P_dT2_PV`: each is an
`AttributeError`) are filled with zero in `phase` and nothing is claimed about them. Caches are not modelled.
-/

namespace Verif.Phase

open Verif.Departure (Along Total)
open Verif.GibbsExcess (dxsToDns extensive)
open Finset Filter Topology

variable {N : ℕ}

/-! ## Model -/

/-- A virial gas of fixed composition: ideal gas functions, virial coefficients and their derivatives. -/
structure Virial (N : ℕ) where
  /-- ideal gas part -/
  r : Ref N
  (B dB_dT d2B_dT2 C dC_dT d2C_dT2 : ℝ → ℝ)

namespace Virial
variable (g : Virial N) (T V : ℝ)

/-- Pressure of `to` from temperature and volume (1892). -/
noncomputable def P : ℝ := g.r.R * T * (V * V + V * g.B T + g.C T) / (V * V * V)

/-- `dP_dT` (1267), `dP_dV` (1290). -/
noncomputable def dP_dT : ℝ :=
  g.r.R * (T * (V * g.dB_dT T + g.dC_dT T) + V * (V + g.B T) + g.C T) / (V * V * V)
@[inherit_doc dP_dT] noncomputable def dP_dV : ℝ :=
  -g.r.R * T * (V * V + 2 * V * g.B T + 3 * g.C T) / (V * V * V * V)

/-- `d2P_dTdV` (1313-1316), `d2P_dV2` (1339-1341), `d2P_dT2` (1364-1367). -/
noncomputable def d2P_dTdV : ℝ :=
  let V2 := V * V
  (-g.r.R) * (2 * T * V * g.dB_dT T + 3 * T * g.dC_dT T + V2 + 2 * V * g.B T + 3 * g.C T) / (V2 * V2)
@[inherit_doc d2P_dTdV] noncomputable def d2P_dV2 : ℝ :=
  let V2 := V * V
  2 * g.r.R * T * (V2 + 3 * V * g.B T + 6 * g.C T) / (V2 * V2 * V)
@[inherit_doc d2P_dTdV] noncomputable def d2P_dT2 : ℝ :=
  g.r.R * (T * (V * g.d2B_dT2 T + g.d2C_dT2 T) + 2 * V * g.dB_dT T + 2 * g.dC_dT T) / (V * V * V)

/-- `H_dep` (1405-1409). -/
noncomputable def H_dep : ℝ :=
  let V2 := V * V
  let RT := g.r.R * T
  (-RT) * (T * (2 * V * g.dB_dT T + g.dC_dT T) / (2 * V2) - (-1 + (V2 + V * g.B T + g.C T) / V2))

/-- `dH_dep_dT` (1432-1439), also `Cp_dep` (1442). -/
noncomputable def dH_dep_dT : ℝ :=
  -(g.r.R * (2 * T * T * V * g.d2B_dT2 T + T * T * g.d2C_dT2 T + 2 * T * V * g.dB_dT T - 2 * V * g.B T - 2 * g.C T)
    / (2 * V * V))

/-- `S_dep` (1807-1810). -/
noncomputable def S_dep : ℝ :=
  let V2 := V * V
  g.r.R * (-T * g.dC_dT T + 2 * V2 * Real.log ((V2 + V * g.B T + g.C T) / V ^ 2) - 2 * V * (T * g.dB_dT T + g.B T)
    - g.C T) / (2 * V2)

/-- `dS_dep_dT` (1837-1841), also `dS_dep_dT_P` (1844) and `dS_dep_dT_V` (1845). -/
noncomputable def dS_dep_dT : ℝ :=
  let V2 := V * V
  g.r.R * (2 * V2 * (V * g.dB_dT T + g.dC_dT T) - (V2 + V * g.B T + g.C T) * (T * g.d2C_dT2 T
    + 2 * V * (T * g.d2B_dT2 T + 2 * g.dB_dT T) + 2 * g.dC_dT T)) / (2 * V2 * (V2 + V * g.B T + g.C T))

/-- `dT_dP` (`phase.py` 2720), `dV_dT` (2743), `dV_dP` (2763), `dT_dV` (2782). -/
noncomputable def dT_dP : ℝ := 1 / g.dP_dT T V
@[inherit_doc dT_dP] noncomputable def dV_dT : ℝ := -g.dP_dT T V / g.dP_dV T V
@[inherit_doc dT_dP] noncomputable def dV_dP : ℝ := -g.dV_dT T V * g.dT_dP T V
@[inherit_doc dT_dP] noncomputable def dT_dV : ℝ := 1 / g.dV_dT T V

/-- `dB_dP_V` (2680), `dC_dP_V` (2683), `d2B_dTdP_V` (2686), `d2C_dTdP_V` (2689). -/
noncomputable def dB_dP_V : ℝ := g.dB_dT T / g.dP_dT T V
@[inherit_doc dB_dP_V] noncomputable def dC_dP_V : ℝ := g.dC_dT T / g.dP_dT T V
@[inherit_doc dB_dP_V] noncomputable def d2B_dTdP_V : ℝ := g.d2B_dT2 T / g.dP_dT T V
@[inherit_doc dB_dP_V] noncomputable def d2C_dTdP_V : ℝ := g.d2C_dT2 T / g.dP_dT T V

/-- `dB_dV_P` (2698), `dC_dV_P` (2701), `d2B_dTdV_P` (2704), `d2C_dTdV_P` (2707). -/
noncomputable def dB_dV_P : ℝ := g.dB_dT T * g.dT_dV T V
@[inherit_doc dB_dV_P] noncomputable def dC_dV_P : ℝ := g.dC_dT T * g.dT_dV T V
@[inherit_doc dB_dV_P] noncomputable def d2B_dTdV_P : ℝ := g.d2B_dT2 T * g.dT_dV T V
@[inherit_doc dB_dV_P] noncomputable def d2C_dTdV_P : ℝ := g.d2C_dT2 T * g.dT_dV T V

/-- `dH_dep_dP_V` (1474-1490). -/
noncomputable def dH_dep_dP_V : ℝ :=
  let V2 := V * V
  (-1 : ℝ) * ((-g.r.R) * (-1 + (V2 + V * g.B T + g.C T) / V2) * g.dT_dP T V
    - g.r.R * (-2 * V * g.dB_dT T - g.dC_dT T) * T * g.dT_dP T V / V2
    - g.r.R * (V * g.dB_dP_V T V + g.dC_dP_V T V) * T / V2
    - g.r.R * (-2 * V * g.d2B_dTdP_V T V - g.d2C_dTdP_V T V) * T * T / (2 * V2))

/-- `dS_dep_dP_V` (1516-1531). -/
noncomputable def dS_dep_dP_V : ℝ :=
  g.r.R * (V * g.dB_dP_V T V + g.dC_dP_V T V) / (V ^ 2 + V * g.B T + g.C T)
    + (-g.r.R * T * g.d2C_dTdP_V T V - g.r.R * g.dC_dT T * g.dT_dP T V - g.r.R * g.dC_dP_V T V
      + V * (-2 * g.r.R * T * g.d2B_dTdP_V T V - 2 * g.r.R * g.dB_dT T * g.dT_dP T V - 2 * g.r.R * g.dB_dP_V T V))
      / (2 * V ^ 2)

/-- `dH_dep_dP_T` (1563-1570). -/
noncomputable def dH_dep_dP_T : ℝ :=
  -(g.r.R * T ^ 2 * g.dB_dT T * g.dV_dP T V / V ^ 2
    + g.r.R * T ^ 2 * (-2 * g.dB_dT T * V - g.dC_dT T) * g.dV_dP T V / V ^ 3
    - g.r.R * T * ((g.B T * g.dV_dP T V + 2 * V * g.dV_dP T V) / V ^ 2
      - 2 * (g.B T * V + g.C T + V ^ 2) * g.dV_dP T V / V ^ 3))

/-- `dS_dep_dP_T` (1604-1612). -/
noncomputable def dS_dep_dP_T : ℝ :=
  g.r.R * ((g.B T * g.dV_dP T V + 2 * V * g.dV_dP T V) / V ^ 2
      - 2 * (g.B T * V + g.C T + V ^ 2) * g.dV_dP T V / V ^ 3) * V ^ 2 / (g.B T * V + g.C T + V ^ 2)
    + (-2 * g.B T * g.r.R - 2 * g.r.R * T * g.dB_dT T) * g.dV_dP T V / (2 * V ^ 2)
    - (-g.C T * g.r.R - g.r.R * T * g.dC_dT T + (-2 * g.B T * g.r.R - 2 * g.r.R * T * g.dB_dT T) * V) * g.dV_dP T V
      / V ^ 3

/-- `dH_dep_dV_T` (1639-1644). -/
noncomputable def dH_dep_dV_T : ℝ :=
  -(g.r.R * T ^ 2 * g.dB_dT T / V ^ 2 + g.r.R * T ^ 2 * (-2 * V * g.dB_dT T - g.dC_dT T) / V ^ 3
    - g.r.R * T * ((g.B T + 2 * V) / V ^ 2 - 2 * (g.B T * V + g.C T + V ^ 2) / V ^ 3))

/-- `dS_dep_dV_T` (1672-1678). -/
noncomputable def dS_dep_dV_T : ℝ :=
  g.r.R * V ^ 2 * ((g.B T + 2 * V) / V ^ 2 - 2 * (g.B T * V + g.C T + V ^ 2) / V ^ 3) / (g.B T * V + g.C T + V ^ 2)
    + (-2 * g.B T * g.r.R - 2 * g.r.R * T * g.dB_dT T) / (2 * V ^ 2)
    - (-g.C T * g.r.R - g.r.R * T * g.dC_dT T + V * (-2 * g.B T * g.r.R - 2 * g.r.R * T * g.dB_dT T)) / V ^ 3

/-- `dH_dep_dV_P` (1715-1727). -/
noncomputable def dH_dep_dV_P : ℝ :=
  -(-g.r.R * (-1 + (V ^ 2 + V * g.B T + g.C T) / V ^ 2) * g.dT_dV T V
    - g.r.R * ((V * g.dB_dV_P T V + 2 * V + g.B T + g.dC_dV_P T V) / V ^ 2
      - 2 * (V ^ 2 + V * g.B T + g.C T) / V ^ 3) * T
    - g.r.R * (-2 * V * g.dB_dT T - g.dC_dT T) * T * g.dT_dV T V / V ^ 2
    - g.r.R * (-2 * V * g.d2B_dTdV_P T V - 2 * g.dB_dT T - g.d2C_dTdV_P T V) * T ^ 2 / (2 * V ^ 2)
    + g.r.R * (-2 * V * g.dB_dT T - g.dC_dT T) * T ^ 2 / V ^ 3)

/-- `dS_dep_dV_P` (1766-1776). -/
noncomputable def dS_dep_dV_P : ℝ :=
  g.r.R * V ^ 2 * ((V * g.dB_dV_P T V + 2 * V + g.B T + g.dC_dV_P T V) / V ^ 2
      - 2 * (V ^ 2 + V * g.B T + g.C T) / V ^ 3) / (V ^ 2 + V * g.B T + g.C T)
    + (-2 * g.r.R * g.B T - 2 * g.r.R * T * g.dB_dT T - g.r.R * T * g.d2C_dTdV_P T V
      - g.r.R * g.dC_dT T * g.dT_dV T V - g.r.R * g.dC_dV_P T V
      + V * (-2 * g.r.R * T * g.d2B_dTdV_P T V - 2 * g.r.R * g.dB_dT T * g.dT_dV T V - 2 * g.r.R * g.dB_dV_P T V))
      / (2 * V ^ 2)
    - (-g.r.R * g.C T - g.r.R * T * g.dC_dT T + V * (-2 * g.r.R * g.B T - 2 * g.r.R * T * g.dB_dT T)) / V ^ 3

/-- The methods of the phase. `H`, `S`, `Cp` and the derivatives are those of `IdealGasDeparturePhase` (`phase.py`
5924-6095); `dH_dT_V` is replaced by `Cp` (2740). -/
noncomputable def phase : Methods where
  R := g.r.R
  P := g.P
  H T V := g.H_dep T V + g.r.H T
  S T V := 0 - g.r.R * (∑ i, g.r.zs i * Real.log (g.r.zs i)) + (∑ i, g.r.zs i * g.r.SI i T)
    - g.r.R * Real.log (g.P T V * (1 / g.r.Pref)) + g.S_dep T V
  Cp T V := g.r.Cp T + g.dH_dep_dT T V
  dP_dT := g.dP_dT
  dP_dV := g.dP_dV
  d2P_dT2 := g.d2P_dT2
  d2P_dTdV := g.d2P_dTdV
  d2P_dV2 := g.d2P_dV2
  dH_dT T V := g.r.Cp T + g.dH_dep_dT T V
  dH_dP := g.dH_dep_dP_T
  dH_dT_V T V := g.r.Cp T + g.dH_dep_dT T V
  dH_dP_V T V := g.r.Cp T * g.dT_dP T V + g.dH_dep_dP_V T V
  dH_dV_T := g.dH_dep_dV_T
  dH_dV_P T V := g.dT_dV T V * g.r.Cp T + g.dH_dep_dV_P T V
  dS_dT T V := g.r.Cp T / T + g.dS_dep_dT T V
  dS_dP T V := 0 - g.r.R / g.P T V + g.dS_dep_dP_T T V
  dS_dT_V T V := g.r.Cp T / T - g.r.R / g.P T V * g.dP_dT T V + g.dS_dep_dT T V
  dS_dP_V T V := -g.r.R / g.P T V + g.r.Cp T / T * g.dT_dP T V + g.dS_dep_dP_V T V
  d2H_dT2 _ _ := 0
  d2H_dTdP _ _ := 0
  d2P_dTdP _ _ := 0
  d2P_dVdP _ _ := 0
  d2P_dVdT_TP _ _ := 0
  d2P_dT2_PV _ _ := 0

/-- The phase with the three isobaric temperature derivatives computed from the other methods. -/
noncomputable def corrected : Methods :=
  { g.phase with
    Cp := fun T V => g.phase.dH_dT_V T V + g.phase.dH_dV_T T V * g.dV_dT T V
    dH_dT := fun T V => g.phase.dH_dT_V T V + g.phase.dH_dV_T T V * g.dV_dT T V
    dS_dT := fun T V => g.phase.dS_dT_V T V + g.dP_dT T V * g.dV_dT T V }

/-- `err` of `to` from pressure and volume (1900-1913): the residual and the derivative given to `newton`. -/
noncomputable def err (P T : ℝ) : ℝ × ℝ :=
  let x2 := V * V + V * g.B T + g.C T
  let x3 := g.r.R / (V * V * V)
  (T * x2 * x3 - P, x3 * (T * (V * g.dB_dT T + g.dC_dT T) + x2))

end Virial

/-- `dV_dzs_virial` of `chemicals` (1082): derivative of the volume at constant temperature and pressure. -/
noncomputable def dV_dzs (B C V : ℝ) (dB_dzs dC_dzs : Fin N → ℝ) (i : Fin N) : ℝ :=
  V * (V * dB_dzs i + dC_dzs i) / (2 * V * B + 3 * C + V * V)

/-- `dG_dep_dzs` (1159-1186). -/
noncomputable def dG_dep_dzs (R T B C V : ℝ) (dB_dzs dC_dzs : Fin N → ℝ) (i : Fin N) : ℝ :=
  let x0 := V
  let x1 := x0 * x0
  let x2 := 1 / x1
  let x3 := C
  let x4 := dC_dzs i
  let x5 := B
  let x6 := dV_dzs B C V dB_dzs dC_dzs i
  let x7 := x5 * x6
  let x8 := x0 * dB_dzs i
  let x9 := x0 * x5
  let x10 := x1 + x3 + x9
  let x11 := Real.log (x10 * x2)
  let x12 := 2 * x0 * x6
  let x13 := 1 / x0
  R * T * x2 * (x1 * (2 * x10 * x13 * x6 - x12 - x4 - x7 - x8) / x10 - x11 * x12
    - x13 * x6 * (-2 * x1 * x11 + 3 * x3 + 4 * x9) + 3 * x4 / 2 + 2 * x7 + 2 * x8)

/-- `lnphis` (1231-1242). -/
noncomputable def lnphisVirial (R T G_dep : ℝ) (zs dG : Fin N → ℝ) (i : Fin N) : ℝ :=
  let RT_inv := 1 / (R * T)
  dxsToDns dG zs i * RT_inv + G_dep * RT_inv

/-- `B_at` (1924-1940), `dB_dT_at` (1956-1972) and so on for the higher derivatives, by the coefficients of the pure
components and of the pairs; `cross` is `has_cross_B_coefficients`. -/
def B_mix (cross : Bool) (Bs : Fin N → ℝ) (Bij : Fin N → Fin N → ℝ) (zs : Fin N → ℝ) : ℝ :=
  if h : N = 1 then Bs ⟨0, by omega⟩
  else if cross then ∑ i, ∑ j, zs i * zs j * Bij i j
  else ∑ i, zs i * Bs i

/-- `dB_dzs` (2221-2234). -/
def dB_dzs (cross : Bool) (Bs : Fin N → ℝ) (Bij : Fin N → Fin N → ℝ) (zs : Fin N → ℝ) (i : Fin N) : ℝ :=
  if cross then ∑ j, zs j * (Bij i j + Bij j i) else Bs i

/-! ## States -/

/-- A state of the gas: positive temperature, volume and compressibility factor, differentiable coefficients. -/
structure Virial.Ok (g : Virial N) (T V : ℝ) : Prop where
  ref : g.r.Ok T
  posV : 0 < V
  posZ : 0 < V * V + V * g.B T + g.C T
  B1 : HasDerivAt g.B (g.dB_dT T) T
  B2 : HasDerivAt g.dB_dT (g.d2B_dT2 T) T
  C1 : HasDerivAt g.C (g.dC_dT T) T
  C2 : HasDerivAt g.dC_dT (g.d2C_dT2 T) T
  neT : g.dP_dT T V ≠ 0
  neV : g.dP_dV T V ≠ 0

section
variable {g : Virial N} {T V : ℝ}

theorem Virial.Ok.posP (h : g.Ok T V) : 0 < g.P T V := by
  have := h.ref.posR; have := h.ref.posT; have := h.posV; have := h.posZ
  unfold Virial.P
  positivity

theorem tot_x (h : g.Ok T V) : Total (fun T V => V * V + V * g.B T + g.C T) (V * g.dB_dT T + g.dC_dT T) (2 * V + g.B T) T V :=
  ((((Total.snd T V).mul (Total.snd T V)).add ((Total.snd T V).mul (Total.of_T h.B1 V))).add
    (Total.of_T h.C1 V)).congr (by ring) (by ring)

theorem tot_V3 (T V : ℝ) : Total (fun _ V => V * V * V) 0 (3 * V ^ 2) T V :=
  (((Total.snd T V).mul (Total.snd T V)).mul (Total.snd T V)).congr (by ring) (by ring)

theorem tot_virP (h : g.Ok T V) : Total g.P (g.dP_dT T V) (g.dP_dV T V) T V := by
  have hV := h.posV
  refine (((((Total.const g.r.R T V).mul (Total.fst T V)).mul (tot_x h)).div (tot_V3 T V) (by positivity)).congr_fun
    fun T V => rfl).congr ?_ ?_
  · simp only [Virial.dP_dT]; field_simp; ring
  · simp only [Virial.dP_dV]; field_simp; ring

theorem virial_mech (h : g.Ok T V) : Mech g.phase T V := by
  have hV := h.posV
  have kT := Total.fst T V; have kV := Total.snd T V
  have kB := Total.of_T h.B1 V; have kC := Total.of_T h.C1 V
  have kB1 := Total.of_T h.B2 V; have kC1 := Total.of_T h.C2 V
  have c := fun x => Total.const x T V
  refine ⟨h.ref.posR, h.ref.posT, hV, tot_virP h, ?_, ?_, h.neT, h.neV⟩
  · refine ((((c g.r.R).mul (((kT.mul ((kV.mul kB1).add kC1)).add (kV.mul (kV.add kB))).add kC)).div (tot_V3 T V)
      (by positivity)).congr_fun fun T V => rfl).congr ?_ ?_
    · simp only [Virial.phase, Virial.d2P_dT2]; field_simp; ring
    · simp only [Virial.phase, Virial.d2P_dTdV]; field_simp; ring
  · refine (((((c (-g.r.R)).mul kT).mul (((kV.mul kV).add (((c 2).mul kV).mul kB)).add ((c 3).mul kC))).div
      ((tot_V3 T V).mul kV) (by positivity)).congr_fun fun T V => rfl).congr ?_ ?_
    · simp only [Virial.phase, Virial.d2P_dTdV]; field_simp; ring
    · simp only [Virial.phase, Virial.d2P_dV2]; field_simp; ring

theorem tot_virH (h : g.Ok T V) : Total g.H_dep (g.dH_dep_dT T V) (V * g.dP_dV T V + T * g.dP_dT T V) T V := by
  have hV := h.posV
  have kT := Total.fst T V; have kV := Total.snd T V
  have kB := Total.of_T h.B1 V; have kC := Total.of_T h.C1 V
  have kB1 := Total.of_T h.B2 V; have kC1 := Total.of_T h.C2 V
  have c := fun x => Total.const x T V
  have k := ((((c (-1)).mul ((c g.r.R).mul kT))).mul (((kT.mul ((((c 2).mul kV).mul kB1).add kC1)).div ((c 2).mul (kV.mul kV))
    (by positivity)).sub ((c (-1)).add ((tot_x h).div (kV.mul kV) (by positivity)))))
  refine (k.congr_fun fun T V => ?_).congr ?_ ?_
  · simp only [Virial.H_dep, neg_mul, one_mul]
  · simp only [Virial.dH_dep_dT]; field_simp; ring
  · simp only [Virial.dP_dT, Virial.dP_dV]; field_simp; ring

theorem tot_virS (h : g.Ok T V) : Total g.S_dep (g.dS_dep_dT T V) (g.dP_dT T V + g.r.R / g.P T V * g.dP_dV T V) T V := by
  have hV := h.posV; have hZ := h.posZ; have hR := h.ref.posR; have hT := h.ref.posT
  have kT := Total.fst T V; have kV := Total.snd T V
  have kB := Total.of_T h.B1 V; have kC := Total.of_T h.C1 V
  have kB1 := Total.of_T h.B2 V; have kC1 := Total.of_T h.C2 V
  have c := fun x => Total.const x T V
  have kl := ((tot_x h).div (kV.mul kV) (by positivity)).log (by positivity)
  have k := ((c g.r.R).mul (((((((c (-1)).mul kT).mul kC1).add (((c 2).mul (kV.mul kV)).mul kl)).sub
    (((c 2).mul kV).mul ((kT.mul kB1).add kB))).sub kC))).div ((c 2).mul (kV.mul kV)) (by positivity)
  refine (k.congr_fun fun T V => ?_).congr ?_ ?_
  · simp only [Virial.S_dep, pow_two]; ring
  · simp only [Virial.dS_dep_dT]
    generalize Real.log _ = L
    generalize hx : V * V + V * g.B T + g.C T = x at *
    field_simp
    rw [← hx]; ring
  · simp only [Virial.dP_dT, Virial.dP_dV, Virial.P]
    generalize Real.log _ = L
    have e : g.C T = (V * V + V * g.B T + g.C T) - V * V - V * g.B T := by ring
    generalize V * V + V * g.B T + g.C T = x at *
    rw [e]
    field_simp
    ring

theorem virial_totals (h : g.Ok T V) :
    Total g.phase.H (g.r.Cp T + g.dH_dep_dT T V) (V * g.dP_dV T V + T * g.dP_dT T V) T V ∧
    Total g.phase.S (g.r.Cp T / T - g.r.R / g.P T V * g.dP_dT T V + g.dS_dep_dT T V) (g.dP_dT T V) T V := by
  constructor
  · exact ((tot_virH h).add (tot_HI h.ref V)).congr (by ring) (by ring)
  · refine (((tot_S h.ref (tot_virP h) h.posP).add (tot_virS h)).congr_fun fun T V => ?_).congr ?_ ?_
    · simp only [Virial.phase, Ref.S]; ring
    · ring
    · ring

/-- Inverse derivatives. -/
theorem vir_inv (h : g.Ok T V) : g.dP_dT T V * g.dT_dP T V = 1 ∧ g.dP_dV T V * g.dV_dP T V = 1 ∧
    g.dP_dT T V + g.dP_dV T V * g.dV_dT T V = 0 ∧ g.dP_dT T V * g.dT_dV T V + g.dP_dV T V = 0 := by
  have h1 := h.neT; have h2 := h.neV
  simp only [Virial.dV_dP, Virial.dT_dV, Virial.dV_dT, Virial.dT_dP]
  refine ⟨?_, ?_, ?_, ?_⟩ <;> field_simp <;> ring

/-! ## C67 -/

/-- **C67.** The pressure derivatives supplied by the virial gas are the derivatives of its pressure. -/
theorem C67_mechanical (h : g.Ok T V) : Mech g.phase T V := virial_mech h

/-- **C67.** The derivatives of the departure enthalpy and entropy are the partial derivatives they are named after,
`dH_dep_dT` and `dS_dep_dT` at constant volume. -/
theorem C67_departures (h : g.Ok T V) :
    Part g.H_dep temp vol (g.dH_dep_dT T V) T V ∧
    Part g.H_dep g.P vol (g.dH_dep_dP_V T V) T V ∧
    Part g.H_dep g.P temp (g.dH_dep_dP_T T V) T V ∧
    Part g.H_dep vol temp (g.dH_dep_dV_T T V) T V ∧
    Part g.H_dep vol g.P (g.dH_dep_dV_P T V) T V ∧
    Part g.S_dep temp vol (g.dS_dep_dT T V) T V ∧
    Part g.S_dep g.P vol (g.dS_dep_dP_V T V) T V ∧
    Part g.S_dep g.P temp (g.dS_dep_dP_T T V) T V ∧
    Part g.S_dep vol temp (g.dS_dep_dV_T T V) T V ∧
    Part g.S_dep vol g.P (g.dS_dep_dV_P T V) T V := by
  have hV := h.posV; have hZ := h.posZ; have hR := h.ref.posR; have hT := h.ref.posT
  have kH := tot_virH h; have kS := tot_virS h; have kP := tot_virP h
  have kT := tot_T T V; have kV := tot_V T V
  have n1 := h.neT; have n2 := h.neV
  obtain ⟨i1, i2, i3, i4⟩ := vir_inv h
  have eHV : V * g.dP_dV T V + T * g.dP_dT T V = g.dH_dep_dV_T T V := by
    simp only [Virial.dP_dT, Virial.dP_dV, Virial.dH_dep_dV_T]; field_simp; ring
  have eSV : g.dP_dT T V + g.r.R / g.P T V * g.dP_dV T V = g.dS_dep_dV_T T V := by
    have e0 : g.B T * V + g.C T + V ^ 2 = V * V + V * g.B T + g.C T := by ring
    have e : g.C T = (V * V + V * g.B T + g.C T) - V * V - V * g.B T := by ring
    simp only [Virial.dP_dT, Virial.dP_dV, Virial.P, Virial.dS_dep_dV_T, e0]
    generalize V * V + V * g.B T + g.C T = x at *
    rw [e]
    field_simp
    ring
  have eHP : g.dH_dep_dP_T T V = g.dH_dep_dV_T T V * g.dV_dP T V := by
    simp only [Virial.dH_dep_dP_T, Virial.dH_dep_dV_T]; ring
  have eSP : g.dS_dep_dP_T T V = g.dS_dep_dV_T T V * g.dV_dP T V := by
    simp only [Virial.dS_dep_dP_T, Virial.dS_dep_dV_T]; ring
  have eHPV : g.dH_dep_dP_V T V = g.dH_dep_dT T V * g.dT_dP T V := by
    simp only [Virial.dH_dep_dP_V, Virial.dH_dep_dT, Virial.dT_dP, Virial.dB_dP_V, Virial.dC_dP_V, Virial.d2B_dTdP_V,
      Virial.d2C_dTdP_V]
    field_simp; ring
  have eSPV : g.dS_dep_dP_V T V = g.dS_dep_dT T V * g.dT_dP T V := by
    have e0 : V ^ 2 + V * g.B T + g.C T = V * V + V * g.B T + g.C T := by ring
    simp only [Virial.dS_dep_dP_V, Virial.dS_dep_dT, Virial.dT_dP, Virial.dB_dP_V, Virial.dC_dP_V, Virial.d2B_dTdP_V,
      Virial.d2C_dTdP_V, e0]
    generalize V * V + V * g.B T + g.C T = x at *
    field_simp; ring
  have eHVP : g.dH_dep_dV_P T V = g.dH_dep_dT T V * g.dT_dV T V + g.dH_dep_dV_T T V := by
    simp only [Virial.dH_dep_dV_P, Virial.dH_dep_dT, Virial.dH_dep_dV_T, Virial.dB_dV_P, Virial.dC_dV_P,
      Virial.d2B_dTdV_P, Virial.d2C_dTdV_P]
    field_simp; ring
  have eSVP : g.dS_dep_dV_P T V = g.dS_dep_dT T V * g.dT_dV T V + g.dS_dep_dV_T T V := by
    have e0 : V ^ 2 + V * g.B T + g.C T = V * V + V * g.B T + g.C T := by ring
    have e1 : g.B T * V + g.C T + V ^ 2 = V * V + V * g.B T + g.C T := by ring
    simp only [Virial.dS_dep_dV_P, Virial.dS_dep_dT, Virial.dS_dep_dV_T, Virial.dB_dV_P, Virial.dC_dV_P,
      Virial.d2B_dTdV_P, Virial.d2C_dTdV_P, e0, e1]
    generalize V * V + V * g.B T + g.C T = x at *
    field_simp; ring
  rw [eHV] at kH
  rw [eSV] at kS
  refine ⟨(part_iff kH kT kV (.inr one_ne_zero)).2 (by ring), (part_iff kH kP kV (.inr one_ne_zero)).2 ?_,
    (part_iff kH kP kT (.inl one_ne_zero)).2 ?_, (part_iff kH kV kT (.inl one_ne_zero)).2 (by ring),
    (part_iff kH kV kP (.inl n1)).2 ?_,
    (part_iff kS kT kV (.inr one_ne_zero)).2 (by ring), (part_iff kS kP kV (.inr one_ne_zero)).2 ?_,
    (part_iff kS kP kT (.inl one_ne_zero)).2 ?_, (part_iff kS kV kT (.inl one_ne_zero)).2 (by ring),
    (part_iff kS kV kP (.inl n1)).2 ?_⟩
  · rw [eHPV]; linear_combination g.dH_dep_dT T V * i1
  · rw [eHP]; linear_combination (-g.dH_dep_dV_T T V) * i2
  · rw [eHVP]; linear_combination (-g.dH_dep_dT T V) * i4
  · rw [eSPV]; linear_combination g.dS_dep_dT T V * i1
  · rw [eSP]; linear_combination (-g.dS_dep_dV_T T V) * i2
  · rw [eSVP]; linear_combination (-g.dS_dep_dT T V) * i4

/-- **C67.** The departures vanish in the limit of infinite volume at constant temperature. -/
theorem C67_ideal_limit (g : Virial N) (T : ℝ) :
    Tendsto (g.H_dep T) atTop (𝓝 0) ∧ Tendsto (g.S_dep T) atTop (𝓝 0) ∧
    Tendsto (fun V => g.P T V * V) atTop (𝓝 (g.r.R * T)) := by
  have i : Tendsto (fun V : ℝ => V⁻¹) atTop (𝓝 0) := tendsto_inv_atTop_zero
  have z : Tendsto (fun V : ℝ => 1 + V⁻¹ * g.B T + V⁻¹ * V⁻¹ * g.C T) atTop (𝓝 1) := by
    have := ((tendsto_const_nhds (x := (1 : ℝ))).add (i.mul_const (g.B T))).add ((i.mul i).mul_const (g.C T))
    simpa using this
  have l : Tendsto (fun V : ℝ => Real.log (1 + V⁻¹ * g.B T + V⁻¹ * V⁻¹ * g.C T)) atTop (𝓝 0) := by
    have := (Real.continuousAt_log one_ne_zero).tendsto.comp z
    rw [Real.log_one] at this
    exact this
  refine ⟨?_, ?_, ?_⟩
  · have k := ((((i.mul_const (g.dB_dT T)).add ((i.mul i).mul_const (g.dC_dT T / 2))).const_mul T).sub
      (z.const_add (-1))).const_mul (-(g.r.R * T))
    refine (k.congr' ?_).trans (by simp)
    filter_upwards [eventually_gt_atTop 0] with V hV
    simp only [Virial.H_dep]
    field_simp
  · have k := (((l.sub (i.mul_const (T * g.dB_dT T + g.B T))).sub
      ((i.mul i).mul_const ((T * g.dC_dT T + g.C T) / 2)))).const_mul g.r.R
    refine (k.congr' ?_).trans (by simp)
    filter_upwards [eventually_gt_atTop 0] with V hV
    have e : (V * V + V * g.B T + g.C T) / V ^ 2 = 1 + V⁻¹ * g.B T + V⁻¹ * V⁻¹ * g.C T := by field_simp
    simp only [Virial.S_dep, e]
    generalize Real.log _ = L
    field_simp
    ring
  · have k := z.const_mul (g.r.R * T)
    refine (k.congr' ?_).trans (by simp)
    filter_upwards [eventually_gt_atTop 0] with V hV
    simp only [Virial.P]
    field_simp

/-- **C67.** Enthalpy and entropy of the gas obey `dH = T dS + V dP`; all supplied derivatives except the isobaric
temperature derivatives are the partial derivatives they are named after. -/
theorem C67_caloric_partial (h : g.Ok T V) :
    (∃ hT hV sT sV, Total g.phase.H hT hV T V ∧ Total g.phase.S sT sV T V ∧
      hT = T * sT + V * g.dP_dT T V ∧ hV = T * sV + V * g.dP_dV T V) ∧
    Part g.phase.H temp vol (g.phase.dH_dT_V T V) T V ∧
    Part g.phase.H g.P vol (g.phase.dH_dP_V T V) T V ∧
    Part g.phase.H g.P temp (g.phase.dH_dP T V) T V ∧
    Part g.phase.H vol temp (g.phase.dH_dV_T T V) T V ∧
    Part g.phase.H vol g.P (g.phase.dH_dV_P T V) T V ∧
    Part g.phase.S temp vol (g.phase.dS_dT_V T V) T V ∧
    Part g.phase.S g.P vol (g.phase.dS_dP_V T V) T V ∧
    Part g.phase.S g.P temp (g.phase.dS_dP T V) T V := by
  have hV := h.posV; have hZ := h.posZ; have hR := h.ref.posR; have hT := h.ref.posT
  have n1 := h.neT; have n2 := h.neV
  have kP := tot_virP h
  have kT := tot_T T V; have kV := tot_V T V
  obtain ⟨i1, i2, i3, i4⟩ := vir_inv h
  obtain ⟨kH, kS⟩ := virial_totals h
  obtain ⟨-, d2, d3, d4, d5, -, e2, e3, -, -⟩ := C67_departures h
  have dH := tot_virH h; have dS := tot_virS h
  have q2 := (part_iff dH kP kV (.inr one_ne_zero)).1 d2
  have q3 := (part_iff dH kP kT (.inl one_ne_zero)).1 d3
  have q4 := (part_iff dH kV kT (.inl one_ne_zero)).1 d4
  have q5 := (part_iff dH kV kP (.inl n1)).1 d5
  have r2 := (part_iff dS kP kV (.inr one_ne_zero)).1 e2
  have r3 := (part_iff dS kP kT (.inl one_ne_zero)).1 e3
  refine ⟨⟨_, _, _, _, kH, kS, ?_, by ring⟩, (part_iff kH kT kV (.inr one_ne_zero)).2 ?_,
    (part_iff kH kP kV (.inr one_ne_zero)).2 ?_,
    (part_iff kH kP kT (.inl one_ne_zero)).2 ?_, (part_iff kH kV kT (.inl one_ne_zero)).2 ?_,
    (part_iff kH kV kP (.inl n1)).2 ?_,
    (part_iff kS kT kV (.inr one_ne_zero)).2 ?_, (part_iff kS kP kV (.inr one_ne_zero)).2 ?_,
    (part_iff kS kP kT (.inl one_ne_zero)).2 ?_⟩
  · simp only [Virial.dP_dT, Virial.dH_dep_dT, Virial.P, Virial.dS_dep_dT]
    have e : g.C T = (V * V + V * g.B T + g.C T) - V * V - V * g.B T := by ring
    generalize V * V + V * g.B T + g.C T = x at *
    rw [e]
    field_simp
    ring
  · simp only [Virial.phase]; ring
  · simp only [Virial.phase]; linear_combination q2 + g.r.Cp T * i1
  · simp only [Virial.phase]; linear_combination q3
  · simp only [Virial.phase]; linear_combination q4
  · simp only [Virial.phase]; linear_combination q5 - g.r.Cp T * i4
  · simp only [Virial.phase]; ring
  · simp only [Virial.phase]; linear_combination r2 + g.r.Cp T / T * i1
  · simp only [Virial.phase]; linear_combination r3

/-- **C67.** The reported heat capacity `Cp` is the derivative of the enthalpy at constant volume, whatever the
coefficients; it is the derivative at constant pressure exactly where the enthalpy does not change with the volume at
constant temperature. `dS_dT` is the derivative at constant pressure exactly where the gas expands like an ideal gas.
`Cv` of the base class, computed from `Cp`, is wrong wherever `Cp` is. -/
theorem C67_Cp_fails (h : g.Ok T V) :
    Part g.phase.H temp vol (g.phase.Cp T V) T V ∧
    (Part g.phase.H temp g.P (g.phase.Cp T V) T V ↔ g.dH_dep_dV_T T V = 0) ∧
    (Part g.phase.S temp g.P (g.phase.dS_dT T V) T V ↔ g.dV_dT T V = g.r.R / g.P T V) ∧
    (Part g.phase.U temp vol (g.phase.Cv T V) T V ↔ g.dH_dep_dV_T T V = 0) := by
  have hV := h.posV; have hR := h.ref.posR; have hT := h.ref.posT; have hP := h.posP
  have n1 := h.neT; have n2 := h.neV
  have kP := tot_virP h
  have kT := tot_T T V; have kV := tot_V T V
  obtain ⟨i1, i2, i3, i4⟩ := vir_inv h
  obtain ⟨kH, kS⟩ := virial_totals h
  have kU : Total g.phase.U _ _ T V := kH.sub (kP.mul kV)
  have q4 := (part_iff (tot_virH h) kV kT (.inl one_ne_zero)).1 (C67_departures h).2.2.2.1
  have e : V * g.dP_dV T V + T * g.dP_dT T V = g.dH_dep_dV_T T V := by linear_combination q4
  refine ⟨(part_iff kH kT kV (.inr one_ne_zero)).2 (by simp only [Virial.phase]; ring), ?_, ?_, ?_⟩
  · rw [part_iff kH kT kP (.inl n1), e]
    simp only [Virial.phase]
    constructor
    · intro k
      have : g.dH_dep_dV_T T V * g.dP_dT T V = 0 := by linear_combination k
      exact (mul_eq_zero.1 this).resolve_right n1
    · intro k; rw [k]; ring
  · rw [part_iff kS kT kP (.inl n1)]
    simp only [Virial.phase]
    have w : g.dV_dT T V * g.dP_dV T V = -g.dP_dT T V := by linear_combination i3
    constructor
    · intro k
      have : g.dP_dT T V * g.dP_dV T V * (g.dV_dT T V - g.r.R / g.P T V) = 0 := by
        linear_combination -k + g.dP_dT T V * w
      have := (mul_eq_zero.1 this).resolve_left (mul_ne_zero n1 n2)
      linear_combination this
    · intro k
      linear_combination g.dP_dT T V * g.dP_dV T V * (-k) + g.dP_dT T V * w
  · rw [part_iff kU kT kV (.inr one_ne_zero), ← e]
    simp only [Methods.Cv, Virial.phase, vol]
    constructor
    · intro k
      field_simp at k
      have : g.dP_dT T V * (V * g.dP_dV T V + T * g.dP_dT T V) = 0 := by
        linear_combination k
      exact (mul_eq_zero.1 this).resolve_left n1
    · intro k
      field_simp
      linear_combination g.dP_dT T V * k

/-- **C67.** With the three isobaric temperature derivatives replaced, all derivatives of the gas are consistent, so
that C61 and C62 apply. -/
theorem C67_corrected (h : g.Ok T V) :
    Mech g.corrected T V ∧ Caloric g.corrected T V ∧ Consistent g.corrected T V := by
  have m := virial_mech h
  have hV := h.posV; have hR := h.ref.posR; have hT := h.ref.posT; have hP := h.posP
  have n1 := h.neT; have n2 := h.neV
  have kP := tot_virP h
  have kT := tot_T T V; have kV := tot_V T V
  obtain ⟨i1, i2, i3, i4⟩ := vir_inv h
  obtain ⟨kH, kS⟩ := virial_totals h
  obtain ⟨⟨hT', hV', sT', sV', kH', kS', f1, f2⟩, c1, c2, c3, c4, c5, c6, c7, c8⟩ := C67_caloric_partial h
  have q4 := (part_iff kH' kV kT (.inl one_ne_zero)).1 c4
  have q1 := (part_iff kH' kT kV (.inr one_ne_zero)).1 c1
  have q6 := (part_iff kS' kT kV (.inr one_ne_zero)).1 c6
  have q8 := (part_iff kS' kP kT (.inl one_ne_zero)).1 c8
  have q3 := (part_iff kH' kP kT (.inl one_ne_zero)).1 c3
  have sV : sV' = g.dP_dT T V := by
    have := Along.unique (kS' 0 1) (kS 0 1)
    linear_combination this
  refine ⟨⟨m.posR, m.posT, m.posV, m.hP, m.hPT, m.hPV, m.neT, m.neV⟩,
    ⟨⟨_, _, kH'⟩, ⟨_, _, kS'⟩, (part_iff kH' kT kP (.inl n1)).2 ?_, c3, c1, c2, c4, c5,
      (part_iff kS' kT kP (.inl n1)).2 ?_, c8, c6, c7⟩, ⟨rfl, ?_, ?_, ?_⟩⟩
  · simp only [Virial.corrected]
    linear_combination g.dP_dV T V * q1 + g.dP_dT T V * q4 + g.phase.dH_dV_T T V * i3
  · simp only [Virial.corrected]
    rw [sV]
    linear_combination g.dP_dV T V * q6 + g.dP_dT T V * i3
  · have e : g.corrected.dV_dT T V = g.dV_dT T V := rfl
    rw [e]
    refine mul_right_cancel₀ n2 ?_
    change g.phase.dH_dP T V * g.dP_dV T V = _
    linear_combination T * i3 - q3 + f2 + T * sV
  · refine mul_left_cancel₀ hT.ne' ?_
    rw [mul_div_cancel₀ _ hT.ne']
    simp only [Virial.corrected]
    linear_combination T * q6 - q1 - f1 + g.dV_dT T V * q4 - g.dV_dT T V * f2 - T * g.dV_dT T V * sV - V * i3
  · have e : g.corrected.dV_dT T V = g.dV_dT T V := rfl
    rw [e]
    refine mul_right_cancel₀ n2 ?_
    change g.phase.dS_dP T V * g.dP_dV T V = _
    linear_combination i3 - q8 + sV

/-- **C67.** Where `to` is given pressure and volume, the derivative passed to the solver is the derivative of the
residual, and the residual is zero exactly at the temperatures at which the equation of state gives the pressure. -/
theorem C67_to (h : g.Ok T V) (P : ℝ) :
    HasDerivAt (fun T => (g.err V P T).1) (g.err V P T).2 T ∧ ((g.err V P T).1 = 0 ↔ g.P T V = P) := by
  have hV := h.posV
  constructor
  · have k := (((hasDerivAt_id T).fun_mul (((h.B1.const_mul V).const_add (V * V)).add h.C1)).mul_const
      (g.r.R / (V * V * V))).sub_const P
    refine k.congr_deriv ?_
    simp only [Virial.err, id, Pi.add_apply]
    ring
  · have e : (g.err V P T).1 = g.P T V - P := by
      simp only [Virial.err, Virial.P]; field_simp
    rw [e, sub_eq_zero]

end

/-! ### Composition -/

/-- A partial derivative depends on the values near the point only. -/
theorem PD.congr_near {F G : (Fin N → ℝ) → ℝ} {i : Fin N} {n : Fin N → ℝ} {d : ℝ} (h : PD F i n d)
    (e : ∀ᶠ z in 𝓝 n, G z = F z) : PD G i n d := by
  unfold PD at *
  have hc : Tendsto (fun t => Function.update n i t) (𝓝 (n i)) (𝓝 n) := by
    have := (continuous_const (y := n)).update i (continuous_id (X := ℝ)) |>.tendsto (n i)
    simpa using this
  exact h.congr_of_eventuallyEq (hc.eventually e)

/-- **C67.** Along changes of the composition at constant temperature and pressure, `dV_dzs` is the derivative of the
volume and `dG_dep_dzs` the derivative of `H_dep - T S_dep`. -/
theorem C67_composition (g : (Fin N → ℝ) → Virial N) {R T P : ℝ} (hR : ∀ z, (g z).r.R = R) (hR0 : R ≠ 0) (hT : T ≠ 0)
    {n : Fin N → ℝ} (V : (Fin N → ℝ) → ℝ) (hP : ∀ᶠ z in 𝓝 n, (g z).P T (V z) = P) (hV : 0 < V n)
    (hZ : 0 < V n * V n + V n * (g n).B T + (g n).C T) (hd : (g n).dP_dV T (V n) ≠ 0)
    {dB dC : Fin N → ℝ} (pB : ∀ i, PD (fun z => (g z).B T) i n (dB i))
    (pC : ∀ i, PD (fun z => (g z).C T) i n (dC i)) (dV : DifferentiableAt ℝ V n) (i : Fin N) :
    PD V i n (dV_dzs ((g n).B T) ((g n).C T) (V n) dB dC i) ∧
    PD (fun z => (g z).H_dep T (V z) - T * (g z).S_dep T (V z)) i n
      (dG_dep_dzs R T ((g n).B T) ((g n).C T) (V n) dB dC i) := by
  obtain ⟨v, pV⟩ : ∃ v, PD V i n v := ⟨_, pd_of_differentiable dV i⟩
  have kx := ((pV.mul pV).add (pV.mul (pB i))).add (pC i)
  have hden : 2 * V n * (g n).B T + 3 * (g n).C T + V n * V n ≠ 0 := by
    intro e
    apply hd
    have : V n * V n + 2 * V n * (g n).B T + 3 * (g n).C T = 0 := by linear_combination e
    simp only [Virial.dP_dV, this]; simp
  have hv : v = dV_dzs ((g n).B T) ((g n).C T) (V n) dB dC i := by
    have k := ((kx.const_mul (R * T)).div ((pV.mul pV).mul pV) (by positivity))
    have k' : PD (fun _ => P) i n _ := PD.congr_near k (by
      filter_upwards [hP] with z hz
      rw [← hz, ← hR z]; rfl)
    have u := k'.unique (PD.const P)
    rw [div_eq_zero_iff] at u
    have u := u.resolve_right (by positivity)
    have : (R * T) * V n ^ 2 * (v * (2 * V n * (g n).B T + 3 * (g n).C T + V n * V n)
        - V n * (V n * dB i + dC i)) = 0 := by linear_combination -u
    have := (mul_eq_zero.1 this).resolve_left (mul_ne_zero (mul_ne_zero hR0 hT) (by positivity))
    simp only [dV_dzs]
    rw [eq_div_iff hden]
    linear_combination this
  refine ⟨hv ▸ pV, ?_⟩
  have kl := PD.comp (Real.hasDerivAt_log (by positivity)) (kx.div (pV.mul pV) (by positivity))
  have k := (((((pB i).const_mul 2).div pV hV.ne').add (((pC i).const_mul 3).div ((pV.mul pV).const_mul 2)
    (by positivity))).sub kl).const_mul (R * T)
  have e : ∀ᶠ z in 𝓝 n, (g z).H_dep T (V z) - T * (g z).S_dep T (V z) = R * T * (2 * (g z).B T / V z
      + 3 * (g z).C T / (2 * (V z * V z)) - Real.log ((V z * V z + V z * (g z).B T + (g z).C T) / (V z * V z))) := by
    filter_upwards [dV.continuousAt.eventually_ne hV.ne'] with z hz
    simp only [Virial.H_dep, Virial.S_dep, hR z, pow_two]
    generalize Real.log _ = L
    field_simp
    ring
  refine (PD.congr_near k e).congr_d ?_
  simp only [dG_dep_dzs]
  rw [← hv]
  generalize hx : V n * V n + V n * (g n).B T + (g n).C T = x at *
  have e2 : V n * V n + (g n).C T + V n * (g n).B T = x := by rw [← hx]; ring
  rw [e2]
  generalize Real.log _ = L
  field_simp
  ring

/-- **C67.** The logarithms of the fugacity coefficients are the derivatives of the extensive reduced Gibbs departure
energy by the amounts, and add up, weighted with the mole fractions, to the reduced departure of the mixture. -/
theorem C67_lnphis {R T : ℝ} {n : Fin N → ℝ} (hn : ∑ i, n i = 1) (G : (Fin N → ℝ) → ℝ) (dG : DifferentiableAt ℝ G n)
    {d : Fin N → ℝ} (pG : ∀ i, PD G i n (d i)) :
    (∀ i, PD (extensive fun z => G z / (R * T)) i n (lnphisVirial R T (G n) n d i)) ∧
    ∑ i, n i * lnphisVirial R T (G n) n d i = G n / (R * T) := by
  have e : (fun i => n i / ∑ i, n i) = n := by funext i; rw [hn, div_one]
  constructor
  · intro i
    obtain ⟨x, hx, e2, -⟩ := GibbsExcess.C23_gammas (GE := fun z => G z / (R * T)) (R := 1) (T := T) (n := n)
      (g := fun i => d i * (1 / (R * T))) (by rw [hn]; norm_num) (by rw [e]; simpa only [div_eq_mul_inv] using dG.mul_const (R * T)⁻¹)
      (by rw [e]; intro j; simpa only [div_eq_mul_one_div (G _)] using (pG j).mul_const (1 / (R * T))) i
    rw [e] at e2
    refine hx.congr_d ?_
    rw [e2]
    simp only [lnphisVirial, dxsToDns, GibbsExcess.dxsToDnPartials, ← mul_assoc, ← sum_mul]
    ring
  · simp only [lnphisVirial, dxsToDns]
    have e3 : ∀ i, n i * ((d i - ∑ j, n j * d j) * (1 / (R * T)) + G n * (1 / (R * T)))
        = (n i * d i - n i * ∑ j, n j * d j) * (1 / (R * T)) + n i * (G n * (1 / (R * T))) := fun i => by ring
    rw [sum_congr rfl fun i _ => e3 i, sum_add_distrib, ← sum_mul, ← sum_mul, sum_sub_distrib, ← sum_mul, hn]
    ring

/-- **C67.** The mixture coefficient has the reported temperature derivative, and for at least two components the
reported composition derivative. -/
theorem C67_mixing (cross : Bool) (Bs dBs : ℝ → Fin N → ℝ) (Bij dBij : ℝ → Fin N → Fin N → ℝ) (zs : Fin N → ℝ) {T : ℝ}
    (h1 : ∀ i, HasDerivAt (fun T => Bs T i) (dBs T i) T)
    (h2 : ∀ i j, HasDerivAt (fun T => Bij T i j) (dBij T i j) T) :
    HasDerivAt (fun T => B_mix cross (Bs T) (Bij T) zs) (B_mix cross (dBs T) (dBij T) zs) T ∧
    (N ≠ 1 → ∀ i, PD (fun z => B_mix cross (Bs T) (Bij T) z) i zs (dB_dzs cross (Bs T) (Bij T) zs i)) := by
  constructor
  · unfold B_mix
    by_cases hN : N = 1
    · simp only [dif_pos hN]; exact h1 _
    · simp only [dif_neg hN]
      cases cross with
      | true =>
        simp only [if_true]
        exact HasDerivAt.fun_sum fun i _ => HasDerivAt.fun_sum fun j _ => (h2 i j).const_mul _
      | false =>
        simp only [Bool.false_eq_true, if_false]
        exact HasDerivAt.fun_sum fun i _ => (h1 i).const_mul _
  · intro hN i
    unfold B_mix dB_dzs
    simp only [dif_neg hN]
    cases cross with
    | true =>
      simp only [if_true]
      have k := PD.sum (s := univ) fun a _ => PD.sum (s := univ) fun b _ =>
        ((PD.coord a i zs).mul (PD.coord b i zs)).mul_const (Bij T a b)
      refine k.congr_d ?_
      simp only [add_mul, sum_add_distrib, ite_mul, mul_ite, one_mul, mul_one, zero_mul, mul_zero, sum_ite_eq',
        sum_ite_eq, mem_univ, if_true, mul_add]
      congr 1
      rw [sum_eq_single i]
      · simp
      · intro b _ hb; simp [hb]
      · simp
    | false =>
      simp only [Bool.false_eq_true, if_false]
      exact PD.linear _ _ _

/-! ## Examples -/

/-- A second coefficient falling with the temperature and a constant third one. -/
noncomputable def demoVirial : Virial 2 where
  r := demoRef
  B T := -1 / T
  dB_dT T := 1 / T ^ 2
  d2B_dT2 T := -2 / T ^ 3
  C _ := 1
  dC_dT _ := 0
  d2C_dT2 _ := 0

theorem demoVirial_ok : demoVirial.Ok 1 3 where
  ref := demoRef_ok (by norm_num)
  posV := by norm_num
  posZ := by norm_num [demoVirial]
  B1 := by
    have := (hasDerivAt_inv (one_ne_zero (α := ℝ))).const_mul (-1)
    simp only [demoVirial, div_eq_mul_inv]
    exact this.congr_deriv (by norm_num)
  B2 := by
    have := (((hasDerivAt_id (1 : ℝ)).pow 2).inv (by norm_num))
    simp only [demoVirial, one_div]
    exact this.congr_deriv (by norm_num)
  C1 := hasDerivAt_const _ _
  C2 := hasDerivAt_const _ _
  neT := by norm_num [Virial.dP_dT, demoVirial, demoRef]
  neV := by norm_num [Virial.dP_dV, demoVirial, demoRef]

example := C67_mechanical demoVirial_ok
example := C67_departures demoVirial_ok
example := C67_caloric_partial demoVirial_ok
example := C67_corrected demoVirial_ok
example := C67_to demoVirial_ok 7

/-- The reported heat capacity of a gas is wrong. -/
example : ¬ Part demoVirial.phase.H temp demoVirial.P (demoVirial.phase.Cp 1 3) 1 3 := by
  rw [(C67_Cp_fails demoVirial_ok).2.1]
  norm_num [Virial.dH_dep_dV_T, demoVirial, demoRef]

/-- A mixture whose second coefficient depends on the composition, at the pressure at which its volume is the first
mole fraction plus one. -/
example (i : Fin 2) : ∃ d, PD (fun z : Fin 2 → ℝ => z 0 + 1) i ![1 / 2, 1 / 2] d := by
  let g : (Fin 2 → ℝ) → Virial 2 := fun z => { demoVirial with
    B := fun _ => 4 * (z 0 + 1) ^ 2 - (z 0 + 1)
    C := fun _ => 0 }
  have hB : ∀ i : Fin 2, ∃ d, PD (fun z => (g z).B 1) i ![1 / 2, 1 / 2] d := fun i => by
    exact ⟨_, pd_of_differentiable (F := fun z : Fin 2 → ℝ => 4 * (z 0 + 1) ^ 2 - (z 0 + 1)) (by fun_prop) i⟩
  refine ⟨_, (C67_composition g (R := demoRef.R) (T := 1) (P := demoRef.R * 4) (fun _ => rfl) (by norm_num [demoRef])
    one_ne_zero (fun z => z 0 + 1) ?_ (by norm_num) (by norm_num [g, demoVirial])
    (by norm_num [g, Virial.dP_dV, demoVirial, demoRef])
    (dB := fun i => (hB i).choose) (dC := fun _ => 0) (fun i => (hB i).choose_spec) (fun _ => PD.const 0)
    (by fun_prop) i).1⟩
  have hc : ContinuousAt (fun z : Fin 2 → ℝ => z 0 + 1) ![1 / 2, 1 / 2] :=
    ((continuous_apply 0).add continuous_const).continuousAt
  filter_upwards [hc.eventually_ne (show _ ≠ 0 by norm_num)] with z hz
  simp only [g, Virial.P, demoVirial]
  field_simp
  ring

example := C67_lnphis (R := 8) (T := 300) (n := ![1 / 4, 3 / 4]) (by simp [Fin.sum_univ_two]; norm_num)
  (fun x => x 0 * x 1) (GibbsExcess.demo_diff _) (GibbsExcess.demo_pd _)

example := (C67_mixing true (fun T _ => T) (fun _ _ => 1) (fun T i j => T * (i + j)) (fun _ i j => i + j)
  ![1 / 4, 3 / 4] (T := 300) (fun _ => hasDerivAt_id _) (fun i j => by
    simpa using (hasDerivAt_id (300 : ℝ)).mul_const ((i : ℝ) + j))).2 (by norm_num) 0

end Verif.Phase
