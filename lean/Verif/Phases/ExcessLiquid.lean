import Verif.Phases.IdealGas
import Verif.Activity.GibbsExcess

/-!
# Liquids with an excess Gibbs energy model (`thermo/phases/gibbs_excess.py`)

* C83: Poynting factors and fugacity coefficients and their derivatives.
* C84: enthalpy, entropy and heat capacity are those of the fugacity coefficients.

The pure component correlations (vapor pressures, liquid volumes, fugacity coefficients at saturation, enthalpies of
vaporization, 839-1472 and 1720-1834) are arbitrary functions of temperature together with what the code uses as their
derivatives; the theorems assume that these are derivatives. The composition is fixed, and so the excess Gibbs energy
model is a function of temperature with its first two derivatives (module `Activity/GibbsExcess`). `trunc_exp` is the
exponential function, and logarithms of mole fractions are not truncated. Caches are not modelled here (see module
`Phases/ExcessState`). The methods removed or replaced in the class (`H_old`, `S_old`, `Cp_old`, `dS_dT_old`) are left
out.
-/

namespace Verif.ExcessLiquid

open Finset Filter Topology
open Verif.Phase (Ref)
open Verif.GibbsExcess (HE SE dHE_dT dSE_dT)

/-! ## Model -/

/-- Functions of temperature of one component: `Psats`, `dPsats_dT`, `d2Psats_dT2`, `lnPsats`, `dPsats_dT_over_Psats`,
`d2Psats_dT2_over_Psats` (839-1233), `Vms_sat`, `dVms_sat_dT`, `d2Vms_sat_dT2` (1235-1358), `phis_sat`, `dphis_sat_dT`,
`d2phis_sat_dT2` (1720-1834), `Hvaps` (1405-1430). -/
structure Pure where
  (Ps dPs d2Ps lnPs rPs r2Ps V dV d2V phi dphi d2phi Hvap : ℝ → ℝ)

namespace Pure
variable (c : Pure) (use : Bool) (R T P : ℝ)

/-- `Poyntings` (1514-1529). -/
noncomputable def poy : ℝ :=
  if use then
    let RT_inv := 1 / (R * T)
    Real.exp (c.V T * (P - c.Ps T) * RT_inv)
  else 1

/-- `dPoyntings_dT` (1537-1561), also `dPoyntings_dT_at` (1564-1587). -/
noncomputable def dPoy_dT : ℝ :=
  if use then
    let x0 := 1 / R
    let x1 := 1 / T
    let RT_inv := x0 * x1
    let x2 := c.V T
    let x4 := P - c.Ps T
    let x5 := x1 * x2 * x4
    let v := -RT_inv * (x2 * c.dPs T - x4 * c.dV T + x5) * Real.exp (x0 * x5)
    v
  else 0

/-- `d2Poyntings_dT2` (1594-1637). -/
noncomputable def d2Poy_dT2 : ℝ :=
  if use then
    let x6 := 1 / T
    let x7 := x6 + x6
    let x11 := 1 / R
    let x12 := x11 * x6
    let c0 := 2 * x6 * x6
    let x0 := c.V T
    let x2 := P - c.Ps T
    let x3 := x0 * x2
    let x4 := c.dPs T
    let x5 := x0 * x4
    let x8 := c.dV T
    let x9 := x2 * x8
    let x10 := x3 * x6
    let x50 := x10 + x5 - x9
    x12 * (-x0 * c.d2Ps T + x12 * x50 * x50 + x2 * c.d2V T - 2 * x4 * x8 + x5 * x7 - x7 * x9 + x3 * c0) * Real.exp (x10 * x11)
  else 0

/-- `dPoyntings_dP` (1649-1661). -/
noncomputable def dPoy_dP : ℝ :=
  if use then
    let x0 := c.V T / (R * T)
    x0 * Real.exp (x0 * (P - c.Ps T))
  else 0

/-- `d2Poyntings_dPdT` (1677-1715). -/
noncomputable def d2Poy_dPdT : ℝ :=
  if use then
    let x0 := 1 / R
    let x1 := 1 / T
    let nRT_inv := -x0 * x1
    let x2 := c.V T
    let x3 := x1 * x2
    let x4 := c.dV T
    let x6 := P - c.Ps T
    c.poy use R T P * nRT_inv * (x0 * x3 * (x2 * c.dPs T + x3 * x6 - x4 * x6) + x3 - x4)
  else 0

/-- `phis_sat` (1759-1761), `dphis_sat_dT` (1798-1800), `d2phis_sat_dT2` (1820-1822): constants if not used. -/
def phiSat : ℝ := if use then c.phi T else 1
@[inherit_doc phiSat] def dphiSat : ℝ := if use then c.dphi T else 0
@[inherit_doc phiSat] def d2phiSat : ℝ := if use then c.d2phi T else 0

end Pure

/-- A `GibbsExcessLiquid` at fixed composition: ideal gas functions, components, activity coefficients and excess Gibbs
energy with their derivatives, and the flags `use_Poynting`, `use_phis_sat`, `use_Hvap_caloric`,
`composition_independent` (453-494, 552). -/
structure Liquid (N : ℕ) where
  /-- composition and ideal gas functions -/
  ref : Ref N
  /-- components -/
  comp : Fin N → Pure
  /-- activity coefficients -/
  gam : Fin N → ℝ → ℝ
  /-- their derivatives, `dgammas_dT` of the model -/
  dgam : Fin N → ℝ → ℝ
  /-- excess Gibbs energy and its derivatives -/
  (GE dGE d2GE : ℝ → ℝ)
  /-- flags -/
  (usePoy usePhi useHvap indep : Bool)

variable {N : ℕ}

namespace Liquid
variable (l : Liquid N) (i : Fin N) (T P : ℝ)

/-- Fractions, and short names for the quantities of component `i` with the flags of the phase. -/
def z : ℝ := l.ref.zs i
@[inherit_doc z] noncomputable def poy : ℝ := (l.comp i).poy l.usePoy l.ref.R T P
@[inherit_doc z] noncomputable def dPoy : ℝ := (l.comp i).dPoy_dT l.usePoy l.ref.R T P
@[inherit_doc z] noncomputable def d2Poy : ℝ := (l.comp i).d2Poy_dT2 l.usePoy l.ref.R T P
@[inherit_doc z] noncomputable def dPoyP : ℝ := (l.comp i).dPoy_dP l.usePoy l.ref.R T P
@[inherit_doc z] noncomputable def d2PoyPT : ℝ := (l.comp i).d2Poy_dPdT l.usePoy l.ref.R T P
@[inherit_doc z] def phs : ℝ := (l.comp i).phiSat l.usePhi T
@[inherit_doc z] def dphs : ℝ := (l.comp i).dphiSat l.usePhi T
@[inherit_doc z] def d2phs : ℝ := (l.comp i).d2phiSat l.usePhi T
@[inherit_doc z] def r : ℝ := (l.comp i).rPs T
@[inherit_doc z] def r2 : ℝ := (l.comp i).r2Ps T

/-- `phis` (1896-1899), also `phis_at` (1847-1848). -/
noncomputable def phis : ℝ := l.gam i T * (l.comp i).Ps T * l.poy i T P * l.phs i T * (1 / P)

/-- `lnphis` (1908); the branch for failing logarithms is `lnphis_fallback`. -/
noncomputable def lnphis : ℝ := Real.log (l.phis i T P)

/-- `lnphis` after an exception (1911-1930). -/
noncomputable def lnphis_fallback : ℝ :=
  Real.log (l.gam i T * l.poy i T P * l.phs i T * (1 / P)) + (l.comp i).lnPs T

/-- `dphis_dT` (1964-1994), also `dphis_dT_at` (1996-2034). -/
noncomputable def dphis_dT : ℝ :=
  let x0 := l.gam i T
  let x1 := l.phs i T
  let x2 := (l.comp i).Ps T
  let x3 := l.poy i T P
  let x4 := x2 * x3
  let x5 := x0 * x1
  (x0 * x4 * l.dphs i T + x1 * x4 * l.dgam i T + x2 * x5 * l.dPoy i T P + x3 * x5 * (l.comp i).dPs T) / P

/-- `dlnphis_dT` (2041-2044). -/
noncomputable def dlnphis_dT : ℝ := l.dphis_dT i T P / l.phis i T P

/-- `dlnphis_dP` (2083-2086). -/
noncomputable def dlnphis_dP : ℝ := l.dPoyP i T P / l.poy i T P - 1 / P

/-- `HE`, `SE`, `CpE`, `dSE_dT` of the model, added unless the model is an ideal solution (2364-2365, 2660-2661,
2850-2851, 3027-3028). -/
def exH : ℝ := if l.indep then 0 else HE T (l.GE T) (l.dGE T)
@[inherit_doc exH] noncomputable def exS : ℝ := if l.indep then 0 else SE T (HE T (l.GE T) (l.dGE T)) (l.GE T)
@[inherit_doc exH] def exCp : ℝ := if l.indep then 0 else dHE_dT T (l.d2GE T)
@[inherit_doc exH] noncomputable def exdS : ℝ :=
  if l.indep then 0 else dSE_dT T (l.dGE T) (dHE_dT T (l.d2GE T)) (HE T (l.GE T) (l.dGE T)) (l.GE T)

/-- `H` (2314-2367). -/
noncomputable def H : ℝ :=
  let nRT2 := -l.ref.R * T * T
  (if l.useHvap then ∑ i, l.z i * (l.ref.HI i T - (l.comp i).Hvap T)
   else if l.usePoy && l.usePhi then
     ∑ i, l.z i * (nRT2 * (l.dphs i T / l.phs i T + l.r i T + l.dPoy i T P / l.poy i T P) + l.ref.HI i T)
   else if l.usePoy then ∑ i, l.z i * (nRT2 * (l.r i T + l.dPoy i T P / l.poy i T P) + l.ref.HI i T)
   else if l.usePhi then ∑ i, l.z i * (nRT2 * (l.r i T + l.dphs i T / l.phs i T) + l.ref.HI i T)
   else ∑ i, l.z i * (nRT2 * l.r i T + l.ref.HI i T)) + l.exH T

/-- `S` (2591-2663). -/
noncomputable def S : ℝ :=
  let R := l.ref.R
  let S0 := ((0 - ∑ i, l.z i * Real.log (l.z i)) - Real.log (P * (1 / l.ref.Pref))) * R
  let P_inv := 1 / P
  (if l.useHvap then
     S0 - ∑ i, l.z i * (R * ((l.comp i).lnPs T + Real.log P_inv) - l.ref.SI i T + (l.comp i).Hvap T * (1 / T))
   else if l.usePoy && l.usePhi then
     S0 - ∑ i, l.z i * (R * (T * (l.dphs i T / l.phs i T + l.r i T + l.dPoy i T P / l.poy i T P)
       + (l.comp i).lnPs T + Real.log (l.poy i T P * l.phs i T * P_inv)) - l.ref.SI i T)
   else if l.usePoy then
     S0 - ∑ i, l.z i * (R * (T * (l.r i T + l.dPoy i T P / l.poy i T P)
       + (l.comp i).lnPs T + Real.log (l.poy i T P * P_inv)) - l.ref.SI i T)
   else if l.usePhi then
     S0 - ∑ i, l.z i * (R * (T * (l.dphs i T / l.phs i T + l.r i T)
       + (l.comp i).lnPs T + Real.log (l.phs i T * P_inv)) - l.ref.SI i T)
   else
     S0 - ∑ i, l.z i * (R * (T * l.r i T + (l.comp i).lnPs T + Real.log P_inv) - l.ref.SI i T)) + l.exS T

/-- The terms `a` and `b` of `Cp` and `dS_dT` in their four branches (2816-2849, 2992-3026). -/
noncomputable def ab : ℝ × ℝ :=
  let dPoy_ratio := l.dPoy i T P * (1 / l.poy i T P)
  let dphi_ratio := l.dphs i T * (1 / l.phs i T)
  if l.usePoy && l.usePhi then
    (l.d2phs i T * (1 / l.phs i T) - dphi_ratio * dphi_ratio + l.r2 i T - l.r i T * l.r i T
        + l.d2Poy i T P * (1 / l.poy i T P) - dPoy_ratio * dPoy_ratio,
      dphi_ratio + l.r i T + dPoy_ratio)
  else if l.usePoy then
    (l.r2 i T - l.r i T * l.r i T + l.d2Poy i T P * (1 / l.poy i T P) - dPoy_ratio * dPoy_ratio, l.r i T + dPoy_ratio)
  else if l.usePhi then
    (l.d2phs i T * (1 / l.phs i T) - dphi_ratio * dphi_ratio + l.r2 i T - l.r i T * l.r i T, dphi_ratio + l.r i T)
  else (l.r2 i T - l.r i T * l.r i T, l.r i T)

/-- `Cp` (2811-2853). -/
noncomputable def Cp : ℝ :=
  let RT := l.ref.R * T
  let RT2 := RT * T
  let RT2_2 := RT + RT
  (0 - ∑ i, l.z i * (RT2 * (l.ab i T P).1 + RT2_2 * (l.ab i T P).2 - l.ref.Cps i T)) + l.exCp T

/-- `dS_dT` (2987-3030). -/
noncomputable def dS_dT : ℝ :=
  let RT := l.ref.R * T
  let R_2 := l.ref.R + l.ref.R
  (0 - ∑ i, l.z i * ((RT * (l.ab i T P).1 + (l.ab i T P).2 * R_2) - l.ref.Cps i T * (1 / T))) + l.exdS T

/-- `dH_dP` (3037-3059). -/
noncomputable def dH_dP : ℝ :=
  let nRT2 := -l.ref.R * T * T
  if l.usePoy then
    ∑ i, nRT2 * l.z i * (1 / l.poy i T P)
      * (l.d2PoyPT i T P - l.dPoyP i T P * l.dPoy i T P * (1 / l.poy i T P))
  else 0

/-- `dS_dP` (3067-3091). -/
noncomputable def dS_dP : ℝ :=
  let R := l.ref.R
  let P_inv := 1 / P
  if l.usePoy then
    -R * P_inv - ∑ i, l.z i * R * (1 / l.poy i T P)
      * (l.dPoyP i T P - l.poy i T P * P_inv
        + T * (l.d2PoyPT i T P - l.dPoyP i T P * l.dPoy i T P * (1 / l.poy i T P)))
  else 0

/-- `V` (3108-3118), `dV_dT` (3125-3131). -/
def V : ℝ := ∑ i, l.z i * (l.comp i).V T
@[inherit_doc V] def dV_dT : ℝ := ∑ i, l.z i * (l.comp i).dV T

/-- `G` (`phase.py` 1450). -/
noncomputable def G : ℝ := l.H T P - T * l.S T P

/-- `H_dep`, `S_dep`, `Cp_dep` (3093-3100). -/
noncomputable def H_dep : ℝ := l.H T P - l.ref.H T
@[inherit_doc H_dep] noncomputable def S_dep : ℝ := l.S T P - l.ref.S T P
@[inherit_doc H_dep] noncomputable def Cp_dep : ℝ := l.Cp T P - l.ref.Cp T

end Liquid

/-! ## What the correlations are assumed to provide -/

/-- Values and first derivatives of the correlations of a component agree at a temperature. -/
structure Pure.At (c : Pure) (t : ℝ) : Prop where
  pos : 0 < c.Ps t
  ln : c.lnPs t = Real.log (c.Ps t)
  dPs : HasDerivAt c.Ps (c.dPs t) t
  r : c.rPs t = c.dPs t / c.Ps t
  dV : HasDerivAt c.V (c.dV t) t
  phi : 0 < c.phi t
  dphi : HasDerivAt c.phi (c.dphi t) t

/-- They agree near a temperature, and the second derivatives there too. -/
structure Pure.Ok (c : Pure) (T : ℝ) : Prop where
  near : ∀ᶠ t in 𝓝 T, c.At t
  d2Ps : HasDerivAt c.dPs (c.d2Ps T) T
  r2 : c.r2Ps T = c.d2Ps T / c.Ps T
  d2V : HasDerivAt c.dV (c.d2V T) T
  d2phi : HasDerivAt c.dphi (c.d2phi T) T

theorem Pure.Ok.at {c : Pure} {T : ℝ} (h : c.Ok T) : c.At T := h.near.self_of_nhds

/-! ## C83: Poynting factors -/

section poynting
variable {c : Pure} {use : Bool} {R T P : ℝ}

theorem poy_pos : 0 < c.poy use R T P := by
  unfold Pure.poy
  split
  · exact Real.exp_pos _
  · exact one_pos

/-- **C83.** The Poynting factor is the exponential of the integral of volume over `RT` from the vapor pressure. -/
theorem C83_poynting : Real.log (c.poy true R T P) = c.V T * (P - c.Ps T) / (R * T) := by
  unfold Pure.poy
  dsimp only
  rw [if_pos rfl, Real.log_exp, mul_one_div]

/-- **C83.** `dPoyntings_dT` is the temperature derivative of `Poyntings`. -/
theorem C83_dPoyntings_dT (hR : 0 < R) (hT : 0 < T) (h : c.At T) :
    HasDerivAt (fun t => c.poy use R t P) (c.dPoy_dT use R T P) T := by
  cases use with
  | false => simpa [Pure.poy, Pure.dPoy_dT] using hasDerivAt_const T (1 : ℝ)
  | true =>
    have hden := ((hasDerivAt_id' T).const_mul R).fun_inv (by positivity)
    have h1 := ((h.dV.fun_mul (h.dPs.const_sub P)).fun_mul hden).exp
    have e : (fun t => c.poy true R t P) = fun t => Real.exp (c.V t * (P - c.Ps t) * (R * t)⁻¹) := by
      funext t; simp [Pure.poy]
    rw [e]
    refine h1.congr_deriv ?_
    have e2 : c.V T * (P - c.Ps T) * (R * T)⁻¹ = 1 / R * (1 / T * c.V T * (P - c.Ps T)) := by field_simp
    unfold Pure.dPoy_dT
    dsimp only
    rw [if_pos rfl, e2]
    generalize Real.exp _ = E
    field_simp
    ring

/-- **C83.** `d2Poyntings_dT2` is the temperature derivative of `dPoyntings_dT`. -/
theorem C83_d2Poyntings_dT2 (hR : 0 < R) (hT : 0 < T) (h : c.Ok T) :
    HasDerivAt (fun t => c.dPoy_dT use R t P) (c.d2Poy_dT2 use R T P) T := by
  cases use with
  | false => simpa [Pure.dPoy_dT, Pure.d2Poy_dT2] using hasDerivAt_const T (0 : ℝ)
  | true =>
    have h0 := h.at
    have hinv := (hasDerivAt_id' T).fun_inv hT.ne'
    have hx5 := (hinv.fun_mul h0.dV).fun_mul (h0.dPs.const_sub P)
    have hA := ((h0.dV.fun_mul h.d2Ps).fun_sub ((h0.dPs.const_sub P).fun_mul h.d2V)).fun_add hx5
    have h1 := ((hinv.const_mul (-(1 / R))).fun_mul hA).fun_mul (hx5.const_mul (1 / R)).exp
    have e : (fun t => c.dPoy_dT true R t P) = fun t => (-(1 / R) * t⁻¹)
        * (c.V t * c.dPs t - (P - c.Ps t) * c.dV t + t⁻¹ * c.V t * (P - c.Ps t))
        * Real.exp (1 / R * (t⁻¹ * c.V t * (P - c.Ps t))) := by
      funext t; simp only [Pure.dPoy_dT, if_true, one_div]; ring
    rw [e]
    refine h1.congr_deriv ?_
    have e2 : c.V T * (P - c.Ps T) * (1 / T) * (1 / R) = 1 / R * (T⁻¹ * c.V T * (P - c.Ps T)) := by field_simp
    unfold Pure.d2Poy_dT2
    dsimp only
    rw [if_pos rfl, e2]
    generalize Real.exp _ = E
    field_simp
    ring

/-- **C83.** `dPoyntings_dP` is the pressure derivative of `Poyntings`. -/
theorem C83_dPoyntings_dP (hR : 0 < R) (hT : 0 < T) :
    HasDerivAt (fun p => c.poy use R T p) (c.dPoy_dP use R T P) P := by
  cases use with
  | false => simpa [Pure.poy, Pure.dPoy_dP] using hasDerivAt_const P (1 : ℝ)
  | true =>
    have h1 := ((((hasDerivAt_id' P).sub_const (c.Ps T)).const_mul (c.V T)).mul_const (1 / (R * T))).exp
    have e : (fun p => c.poy true R T p) = fun p => Real.exp (c.V T * (p - c.Ps T) * (1 / (R * T))) := by
      funext t; simp [Pure.poy]
    rw [e]
    refine h1.congr_deriv ?_
    have e2 : c.V T / (R * T) * (P - c.Ps T) = c.V T * (P - c.Ps T) * (1 / (R * T)) := by field_simp
    unfold Pure.dPoy_dP
    dsimp only
    rw [if_pos rfl, e2]
    field_simp

/-- **C83.** `d2Poyntings_dPdT` is both mixed derivatives. -/
theorem C83_d2Poyntings_dPdT (hR : 0 < R) (hT : 0 < T) (h : c.At T) :
    HasDerivAt (fun p => c.dPoy_dT use R T p) (c.d2Poy_dPdT use R T P) P
      ∧ HasDerivAt (fun t => c.dPoy_dP use R t P) (c.d2Poy_dPdT use R T P) T := by
  cases use with
  | false =>
    exact ⟨by simpa [Pure.dPoy_dT, Pure.d2Poy_dPdT] using hasDerivAt_const P (0 : ℝ),
      by simpa [Pure.dPoy_dP, Pure.d2Poy_dPdT] using hasDerivAt_const T (0 : ℝ)⟩
  | true =>
    have e0 : c.poy true R T P = Real.exp (1 / R * (T⁻¹ * c.V T * (P - c.Ps T))) := by
      simp only [Pure.poy, if_true]; congr 1; field_simp
    constructor
    · have hx4 := (hasDerivAt_id' P).sub_const (c.Ps T)
      have hx5 := hx4.const_mul (T⁻¹ * c.V T)
      have hA := ((hx4.mul_const (c.dV T)).const_sub (c.V T * c.dPs T)).fun_add hx5
      have h1 := (hA.const_mul (-(1 / R) * T⁻¹)).fun_mul (hx5.const_mul (1 / R)).exp
      have e : (fun p => c.dPoy_dT true R T p) = fun p => (-(1 / R) * T⁻¹)
          * (c.V T * c.dPs T - (p - c.Ps T) * c.dV T + T⁻¹ * c.V T * (p - c.Ps T))
          * Real.exp (1 / R * (T⁻¹ * c.V T * (p - c.Ps T))) := by
        funext t; simp only [Pure.dPoy_dT, if_true, one_div]; ring
      rw [e]
      refine h1.congr_deriv ?_
      unfold Pure.d2Poy_dPdT
      dsimp only
      rw [if_pos rfl, e0]
      generalize Real.exp _ = E
      field_simp
      ring
    · have hinv := (hasDerivAt_id' T).fun_inv hT.ne'
      have hx0 := (h.dV.fun_mul hinv).const_mul (1 / R)
      have hx5 := (hinv.fun_mul h.dV).fun_mul (h.dPs.const_sub P)
      have h1 := hx0.fun_mul (hx5.const_mul (1 / R)).exp
      have e : (fun t => c.dPoy_dP true R t P) = fun t => (1 / R * (c.V t * t⁻¹))
          * Real.exp (1 / R * (t⁻¹ * c.V t * (P - c.Ps t))) := by
        funext t
        simp only [Pure.dPoy_dP, if_true]
        have e1 : c.V t / (R * t) = 1 / R * (c.V t * t⁻¹) := by
          rw [div_eq_mul_inv, mul_inv]; ring
        rw [e1]
        congr 2
        ring
      rw [e]
      refine h1.congr_deriv ?_
      unfold Pure.d2Poy_dPdT
      dsimp only
      rw [if_pos rfl, e0]
      generalize Real.exp _ = E
      field_simp
      ring

end poynting

/-! ## Reduction of the branches -/

theorem phiSat_pos {c : Pure} {use : Bool} {t : ℝ} (h : c.At t) : 0 < c.phiSat use t := by
  unfold Pure.phiSat
  split
  · exact h.phi
  · exact one_pos

theorem dphiSat_spec {c : Pure} {use : Bool} {t : ℝ} (h : c.At t) :
    HasDerivAt (c.phiSat use) (c.dphiSat use t) t := by
  cases use with
  | false =>
    have e : c.phiSat false = fun _ => 1 := by funext t; simp [Pure.phiSat]
    rw [e]
    simpa [Pure.dphiSat] using hasDerivAt_const t (1 : ℝ)
  | true =>
    have e : c.phiSat true = c.phi := by funext t; simp [Pure.phiSat]
    rw [e]
    simpa [Pure.dphiSat] using h.dphi

theorem d2phiSat_spec {c : Pure} {use : Bool} {t : ℝ} (h : c.Ok t) :
    HasDerivAt (c.dphiSat use) (c.d2phiSat use t) t := by
  cases use with
  | false =>
    have e : c.dphiSat false = fun _ => 0 := by funext t; simp [Pure.dphiSat]
    rw [e]
    simpa [Pure.d2phiSat] using hasDerivAt_const t (0 : ℝ)
  | true =>
    have e : c.dphiSat true = c.dphi := by funext t; simp [Pure.dphiSat]
    rw [e]
    simpa [Pure.d2phiSat] using h.d2phi

/-- The phase is in order at a temperature: constants positive, correlations consistent near it, the activity
coefficients those of the excess Gibbs energy, and an ideal solution has none. -/
structure Liquid.Ok (l : Liquid N) (T : ℝ) : Prop where
  ref : l.ref.Ok T
  norm : ∑ i, l.ref.zs i = 1
  comp : ∀ i, (l.comp i).Ok T
  gam : ∀ᶠ t in 𝓝 T, ∀ i, 0 < l.gam i t ∧ HasDerivAt (l.gam i) (l.dgam i t) t
  GE : ∀ᶠ t in 𝓝 T, l.GE t = l.ref.R * t * ∑ i, l.ref.zs i * Real.log (l.gam i t)
  dGE : ∀ᶠ t in 𝓝 T, HasDerivAt l.GE (l.dGE t) t
  d2GE : HasDerivAt l.dGE (l.d2GE T) T
  indep : l.indep = true → ∀ᶠ t in 𝓝 T, l.GE t = 0 ∧ l.dGE t = 0

/-- Logarithm of the fugacity of the pure liquid over its vapor pressure dependence, and its derivatives. -/
noncomputable def Liquid.slope (l : Liquid N) (i : Fin N) (T P : ℝ) : ℝ :=
  l.r i T + l.dPoy i T P / l.poy i T P + l.dphs i T / l.phs i T

section branches
variable (l : Liquid N) (i : Fin N) (T P : ℝ)

theorem noPhi (h : l.usePhi = false) : l.phs i T = 1 ∧ l.dphs i T = 0 ∧ l.d2phs i T = 0 := by
  simp [Liquid.phs, Liquid.dphs, Liquid.d2phs, Pure.phiSat, Pure.dphiSat, Pure.d2phiSat, h]

theorem noPoy (h : l.usePoy = false) :
    l.poy i T P = 1 ∧ l.dPoy i T P = 0 ∧ l.d2Poy i T P = 0 ∧ l.dPoyP i T P = 0 ∧ l.d2PoyPT i T P = 0 := by
  simp [Liquid.poy, Liquid.dPoy, Liquid.d2Poy, Liquid.dPoyP, Liquid.d2PoyPT, Pure.poy, Pure.dPoy_dT, Pure.d2Poy_dT2,
    Pure.dPoy_dP, Pure.d2Poy_dPdT, h]

theorem H_eq (hv : l.useHvap = false) :
    l.H T P = ∑ i, l.z i * (-l.ref.R * T * T * l.slope i T P + l.ref.HI i T) + l.exH T := by
  unfold Liquid.H
  dsimp only
  rw [hv, if_neg (by simp)]
  congr 1
  cases hp : l.usePoy <;> cases hq : l.usePhi <;>
    simp only [Bool.and_true, Bool.and_false, if_true, if_false, Bool.false_eq_true] <;>
    refine Finset.sum_congr rfl fun i _ => ?_ <;> unfold Liquid.slope
  · obtain ⟨h1, h2, -⟩ := noPhi l i T hq
    obtain ⟨h3, h4, -⟩ := noPoy l i T P hp
    rw [h2, h4]; ring
  · obtain ⟨h3, h4, -⟩ := noPoy l i T P hp
    rw [h4]; ring
  · obtain ⟨h1, h2, -⟩ := noPhi l i T hq
    rw [h2]; ring
  · ring

theorem S_eq (hv : l.useHvap = false) :
    l.S T P = (0 - ∑ i, l.z i * Real.log (l.z i) - Real.log (P * (1 / l.ref.Pref))) * l.ref.R
      - ∑ i, l.z i * (l.ref.R * (T * l.slope i T P + (l.comp i).lnPs T
        + Real.log (l.poy i T P * l.phs i T * (1 / P))) - l.ref.SI i T) + l.exS T := by
  unfold Liquid.S
  dsimp only
  rw [hv, if_neg (by simp)]
  congr 1
  cases hp : l.usePoy <;> cases hq : l.usePhi <;>
    simp only [Bool.and_true, Bool.and_false, if_true, if_false, Bool.false_eq_true] <;> congr 1 <;>
    refine Finset.sum_congr rfl fun i _ => ?_ <;> unfold Liquid.slope
  · obtain ⟨h1, h2, -⟩ := noPhi l i T hq
    obtain ⟨h3, h4, -⟩ := noPoy l i T P hp
    rw [h1, h2, h3, h4]; norm_num
  · obtain ⟨h3, h4, -⟩ := noPoy l i T P hp
    rw [h3, h4, one_mul]; ring
  · obtain ⟨h1, h2, -⟩ := noPhi l i T hq
    rw [h1, h2, mul_one]; ring
  · ring

theorem ab_eq : l.ab i T P = (l.r2 i T - l.r i T ^ 2 + l.d2Poy i T P / l.poy i T P - (l.dPoy i T P / l.poy i T P) ^ 2
    + l.d2phs i T / l.phs i T - (l.dphs i T / l.phs i T) ^ 2, l.slope i T P) := by
  unfold Liquid.ab Liquid.slope
  dsimp only
  cases hp : l.usePoy <;> cases hq : l.usePhi <;>
    simp only [Bool.and_true, Bool.and_false, if_true, if_false, Bool.false_eq_true]
  · obtain ⟨h1, h2, h5⟩ := noPhi l i T hq
    obtain ⟨h3, h4, h6, -⟩ := noPoy l i T P hp
    rw [h1, h2, h3, h4, h5, h6]; ext <;> simp only [mul_one_div] <;> ring
  · obtain ⟨h3, h4, h6, -⟩ := noPoy l i T P hp
    rw [h3, h4, h6]; ext <;> simp only [mul_one_div] <;> ring
  · obtain ⟨h1, h2, h5⟩ := noPhi l i T hq
    rw [h1, h2, h5]; ext <;> simp only [mul_one_div] <;> ring
  · ext <;> simp only [mul_one_div] <;> ring

end branches

/-! ## Derivatives of the parts -/

section parts
variable {l : Liquid N} {i : Fin N} {T P : ℝ}

theorem l_poy_pos : 0 < l.poy i T P := poy_pos

/-- Derivative of the logarithm of the fugacity of the pure liquid. -/
theorem lnpure_deriv (hR : 0 < l.ref.R) (hT : 0 < T) (hP : 0 < P) (h : (l.comp i).Ok T) :
    HasDerivAt (fun t => (l.comp i).lnPs t + Real.log (l.poy i t P * l.phs i t * (1 / P))) (l.slope i T P) T := by
  have h0 := h.at
  have e : (fun t => (l.comp i).lnPs t + Real.log (l.poy i t P * l.phs i t * (1 / P)))
      =ᶠ[𝓝 T] fun t => Real.log ((l.comp i).Ps t) + Real.log (l.poy i t P * l.phs i t * (1 / P)) := by
    filter_upwards [h.near] with t ht
    rw [ht.ln]
  refine HasDerivAt.congr_of_eventuallyEq ?_ e
  have hp : HasDerivAt (fun t => l.poy i t P) (l.dPoy i T P) T := C83_dPoyntings_dT hR hT h0
  have hq : HasDerivAt (fun t => l.phs i t) (l.dphs i T) T := dphiSat_spec h0
  have p1 : 0 < l.poy i T P := l_poy_pos
  have p2 : 0 < l.phs i T := phiSat_pos h0
  refine ((h0.dPs.log h0.pos.ne').fun_add (((hp.fun_mul hq).mul_const (1 / P)).log (by positivity))).congr_deriv ?_
  unfold Liquid.slope Liquid.r
  rw [h0.r]
  have p3 := h0.pos
  field_simp
  ring

/-- Derivative of the slope. -/
theorem slope_deriv (hR : 0 < l.ref.R) (hT : 0 < T) (h : (l.comp i).Ok T) :
    HasDerivAt (fun t => l.slope i t P) (l.ab i T P).1 T := by
  have h0 := h.at
  have e : (fun t => l.slope i t P) =ᶠ[𝓝 T] fun t => (l.comp i).dPs t / (l.comp i).Ps t
      + l.dPoy i t P / l.poy i t P + l.dphs i t / l.phs i t := by
    filter_upwards [h.near] with t ht
    unfold Liquid.slope Liquid.r
    rw [ht.r]
  refine HasDerivAt.congr_of_eventuallyEq ?_ e
  have hp : HasDerivAt (fun t => l.poy i t P) (l.dPoy i T P) T := C83_dPoyntings_dT hR hT h0
  have hp2 : HasDerivAt (fun t => l.dPoy i t P) (l.d2Poy i T P) T := C83_d2Poyntings_dT2 hR hT h
  have hq : HasDerivAt (fun t => l.phs i t) (l.dphs i T) T := dphiSat_spec h0
  have hq2 : HasDerivAt (fun t => l.dphs i t) (l.d2phs i T) T := d2phiSat_spec h
  have p1 : 0 < l.poy i T P := l_poy_pos
  have p2 : 0 < l.phs i T := phiSat_pos h0
  have p3 := h0.pos
  refine (((h.d2Ps.fun_div h0.dPs p3.ne').fun_add (hp2.fun_div hp p1.ne')).fun_add
    (hq2.fun_div hq p2.ne')).congr_deriv ?_
  rw [ab_eq]
  unfold Liquid.r Liquid.r2
  rw [h.r2, h0.r]
  field_simp
  ring

/-- Derivatives with respect to pressure. -/
theorem lnpoy_dP (hR : 0 < l.ref.R) (hT : 0 < T) (hP : 0 < P) (h : (l.comp i).At T) :
    HasDerivAt (fun p => Real.log (l.poy i T p * l.phs i T * (1 / p))) (l.dlnphis_dP i T P) P := by
  have hp : HasDerivAt (fun p => l.poy i T p) (l.dPoyP i T P) P := C83_dPoyntings_dP hR hT
  have p1 : 0 < l.poy i T P := l_poy_pos
  have p2 : 0 < l.phs i T := phiSat_pos h
  have hi : HasDerivAt (fun p : ℝ => 1 / p) (-1 / P ^ 2) P := by
    simpa only [one_div] using (hasDerivAt_id' P).fun_inv hP.ne'
  refine (((hp.mul_const _).fun_mul hi).log (by positivity)).congr_deriv ?_
  unfold Liquid.dlnphis_dP
  field_simp
  ring

theorem slope_dP (hR : 0 < l.ref.R) (hT : 0 < T) (h : (l.comp i).At T) :
    HasDerivAt (fun p => l.slope i T p)
      (1 / l.poy i T P * (l.d2PoyPT i T P - l.dPoyP i T P * l.dPoy i T P * (1 / l.poy i T P))) P := by
  have hp : HasDerivAt (fun p => l.poy i T p) (l.dPoyP i T P) P := C83_dPoyntings_dP hR hT
  have hp2 : HasDerivAt (fun p => l.dPoy i T p) (l.d2PoyPT i T P) P := (C83_d2Poyntings_dPdT hR hT h).1
  have p1 : 0 < l.poy i T P := l_poy_pos
  refine (((hp2.fun_div hp p1.ne').const_add (l.r i T)).add_const (l.dphs i T / l.phs i T)).congr_deriv ?_
  field_simp

/-- The excess terms without the test for an ideal solution. -/
theorem ex_eq (h : l.Ok T) : l.exH T = -T * l.dGE T + l.GE T ∧ l.exS T = -l.dGE T ∧ l.exCp T = -T * l.d2GE T
    ∧ l.exdS T = -l.d2GE T := by
  have hT := h.ref.posT
  unfold Liquid.exH Liquid.exS Liquid.exCp Liquid.exdS SE dSE_dT HE dHE_dT
  dsimp only
  cases hi : l.indep with
  | false =>
    simp only [Bool.false_eq_true, if_false]
    refine ⟨trivial, ?_, trivial, ?_⟩ <;> field_simp <;> ring
  | true =>
    have h0 := h.indep hi
    have h1 := h0.self_of_nhds
    have h2 : l.d2GE T = 0 := by
      have e : l.dGE =ᶠ[𝓝 T] fun _ => 0 := by filter_upwards [h0] with t ht using ht.2
      exact h.d2GE.unique ((hasDerivAt_const T (0 : ℝ)).congr_of_eventuallyEq e)
    simp [h1.1, h1.2, h2]

/-- The derivative of the excess Gibbs energy from the activity coefficients. -/
theorem dGE_eq (h : l.Ok T) : l.dGE T = l.ref.R * (∑ i, l.z i * Real.log (l.gam i T))
    + l.ref.R * T * ∑ i, l.z i * (l.dgam i T / l.gam i T) := by
  have hg := h.gam.self_of_nhds
  have h1 : HasDerivAt (fun t => ∑ i, l.z i * Real.log (l.gam i t)) (∑ i, l.z i * (l.dgam i T / l.gam i T)) T :=
    HasDerivAt.fun_sum fun i _ => (((hg i).2.log (hg i).1.ne').const_mul _)
  have h2 := ((hasDerivAt_id' T).const_mul l.ref.R).fun_mul h1
  have e : l.GE =ᶠ[𝓝 T] fun t => l.ref.R * t * ∑ i, l.z i * Real.log (l.gam i t) := by
    filter_upwards [h.GE] with t ht using ht
  refine (h.dGE.self_of_nhds.unique (h2.congr_of_eventuallyEq e)).trans ?_
  ring

theorem Liquid.Ok.first (h : l.Ok T) : ∀ᶠ t in 𝓝 T, 0 < t := lt_mem_nhds h.ref.posT

end parts

/-! ## C83: fugacity coefficients -/

section fugacity
variable {l : Liquid N} {i : Fin N} {T P : ℝ}

/-- **C83.** The logarithms of the fugacity coefficients are sums of the logarithms of activity coefficient, vapor
pressure, Poynting factor and fugacity coefficient at saturation, less that of the pressure; the code used after an
exception gives the same numbers. -/
theorem C83_lnphis (h : l.Ok T) (hP : 0 < P) :
    l.lnphis i T P = Real.log (l.gam i T) + Real.log ((l.comp i).Ps T) + Real.log (l.poy i T P)
        + Real.log (l.phs i T) - Real.log P
      ∧ l.lnphis_fallback i T P = l.lnphis i T P := by
  have h0 := (h.comp i).at
  have p1 : 0 < l.poy i T P := l_poy_pos
  have p2 : 0 < l.phs i T := phiSat_pos h0
  have p3 := h0.pos
  have p4 := (h.gam.self_of_nhds i).1
  have e1 : l.lnphis i T P = Real.log (l.gam i T) + Real.log ((l.comp i).Ps T) + Real.log (l.poy i T P)
        + Real.log (l.phs i T) - Real.log P := by
    unfold Liquid.lnphis Liquid.phis
    rw [Real.log_mul (by positivity) (by positivity), Real.log_mul (by positivity) (by positivity),
      Real.log_mul (by positivity) (by positivity), Real.log_mul (by positivity) (by positivity), one_div, Real.log_inv]
    ring
  refine ⟨e1, ?_⟩
  rw [e1]
  unfold Liquid.lnphis_fallback
  rw [Real.log_mul (by positivity) (by positivity), Real.log_mul (by positivity) (by positivity),
      Real.log_mul (by positivity) (by positivity), one_div, Real.log_inv, h0.ln]
  ring

/-- **C83.** `dphis_dT` and `dlnphis_dT` are temperature derivatives of `phis` and `lnphis`. -/
theorem C83_dphis_dT (h : l.Ok T) (hP : 0 < P) :
    HasDerivAt (fun t => l.phis i t P) (l.dphis_dT i T P) T
      ∧ HasDerivAt (fun t => l.lnphis i t P) (l.dlnphis_dT i T P) T := by
  have h0 := (h.comp i).at
  have p1 : 0 < l.poy i T P := l_poy_pos
  have p2 : 0 < l.phs i T := phiSat_pos h0
  have p3 := h0.pos
  have hg := h.gam.self_of_nhds i
  have p4 := hg.1
  have hp : HasDerivAt (fun t => l.poy i t P) (l.dPoy i T P) T := C83_dPoyntings_dT h.ref.posR h.ref.posT h0
  have hq : HasDerivAt (fun t => l.phs i t) (l.dphs i T) T := dphiSat_spec h0
  have h1 : HasDerivAt (fun t => l.phis i t P) (l.dphis_dT i T P) T := by
    refine ((((hg.2.fun_mul h0.dPs).fun_mul hp).fun_mul hq).mul_const (1 / P)).congr_deriv ?_
    unfold Liquid.dphis_dT
    field_simp
    ring
  refine ⟨h1, h1.log ?_⟩
  unfold Liquid.phis
  positivity

/-- **C83.** `dlnphis_dP` is the pressure derivative of `lnphis`. -/
theorem C83_dlnphis_dP (h : l.Ok T) (hP : 0 < P) :
    HasDerivAt (fun p => l.lnphis i T p) (l.dlnphis_dP i T P) P := by
  have h0 := (h.comp i).at
  have p1 : ∀ p, 0 < l.poy i T p := fun p => l_poy_pos
  have p2 : 0 < l.phs i T := phiSat_pos h0
  have p3 := h0.pos
  have p4 := (h.gam.self_of_nhds i).1
  have e : (fun p => l.lnphis i T p) =ᶠ[𝓝 P] fun p => Real.log (l.poy i T p * l.phs i T * (1 / p))
      + Real.log (l.gam i T * (l.comp i).Ps T) := by
    filter_upwards [lt_mem_nhds hP] with p hp
    have := p1 p
    rw [← Real.log_mul (by positivity) (by positivity)]
    unfold Liquid.lnphis Liquid.phis
    congr 1
    ring
  exact ((lnpoy_dP h.ref.posR h.ref.posT hP h0).add_const _).congr_of_eventuallyEq e

/-- The logarithmic derivative is made of the logarithmic derivatives of the factors. -/
theorem dlnphis_eq (h : l.Ok T) (hP : 0 < P) :
    l.dlnphis_dT i T P = l.dgam i T / l.gam i T + l.slope i T P := by
  have h0 := (h.comp i).at
  have p1 : 0 < l.poy i T P := l_poy_pos
  have p2 : 0 < l.phs i T := phiSat_pos h0
  have p3 := h0.pos
  have p4 := (h.gam.self_of_nhds i).1
  unfold Liquid.dlnphis_dT Liquid.dphis_dT Liquid.phis Liquid.slope Liquid.r
  rw [h0.r]
  field_simp
  ring

end fugacity

/-! ## C84: caloric properties -/

section caloric
variable {l : Liquid N} {T P : ℝ}

/-- **C84.** Unless enthalpies of vaporization are used, the departure enthalpy is the one of the fugacity coefficients:
`-RT²` times the mole fraction average of their logarithmic temperature derivatives. -/
theorem C84_H_dep (h : l.Ok T) (hP : 0 < P) (hv : l.useHvap = false) :
    l.H_dep T P = -l.ref.R * T * T * ∑ i, l.ref.zs i * l.dlnphis_dT i T P := by
  have hT := h.ref.posT
  unfold Liquid.H_dep Verif.Phase.Ref.H
  rw [H_eq l T P hv, (ex_eq h).1, dGE_eq h, h.GE.self_of_nhds]
  simp only [dlnphis_eq h hP, mul_add, Finset.sum_add_distrib, Liquid.z]
  have e1 : ∑ x, l.ref.zs x * (-l.ref.R * T * T * l.slope x T P)
      = -l.ref.R * T * T * ∑ x, l.ref.zs x * l.slope x T P := by
    rw [Finset.mul_sum]; exact Finset.sum_congr rfl fun i _ => by ring
  rw [e1]
  ring

/-- **C84.** So is the departure entropy. -/
theorem C84_S_dep (h : l.Ok T) (hP : 0 < P) (hv : l.useHvap = false) :
    l.S_dep T P = -∑ i, l.ref.zs i * (l.ref.R * l.lnphis i T P + l.ref.R * T * l.dlnphis_dT i T P) := by
  have hT := h.ref.posT
  unfold Liquid.S_dep Verif.Phase.Ref.S
  rw [S_eq l T P hv, (ex_eq h).2.1, dGE_eq h]
  have e1 : ∑ i, l.ref.zs i * (l.ref.R * l.lnphis i T P + l.ref.R * T * l.dlnphis_dT i T P)
      = l.ref.R * (∑ i, l.ref.zs i * Real.log (l.gam i T))
        + l.ref.R * T * (∑ i, l.ref.zs i * (l.dgam i T / l.gam i T))
        + ∑ i, l.ref.zs i * (l.ref.R * (T * l.slope i T P + (l.comp i).lnPs T
        + Real.log (l.poy i T P * l.phs i T * (1 / P)))) := by
    rw [Finset.mul_sum, Finset.mul_sum, ← Finset.sum_add_distrib, ← Finset.sum_add_distrib]
    refine Finset.sum_congr rfl fun i _ => ?_
    have h0 := (h.comp i).at
    have p1 : 0 < l.poy i T P := l_poy_pos
    have p2 : 0 < l.phs i T := phiSat_pos h0
    rw [dlnphis_eq h hP, (C83_lnphis h hP).1, h0.ln, Real.log_mul (by positivity) (by positivity),
      Real.log_mul (by positivity) (by positivity), one_div, Real.log_inv]
    ring
  rw [e1]
  simp only [mul_sub, Finset.sum_sub_distrib, Liquid.z]
  ring

/-- **C84.** The departure Gibbs energy is `RT` times the mole fraction average of the logarithms of the fugacity
coefficients, for all four choices of `use_Poynting` and `use_phis_sat`. -/
theorem C84_G_dep (h : l.Ok T) (hP : 0 < P) (hv : l.useHvap = false) :
    l.G T P - (l.ref.H T - T * l.ref.S T P) = l.ref.R * T * ∑ i, l.ref.zs i * l.lnphis i T P := by
  have h1 := C84_H_dep h hP hv
  have h2 := C84_S_dep h hP hv
  unfold Liquid.H_dep at h1
  unfold Liquid.S_dep at h2
  have e1 : ∑ i, l.ref.zs i * (l.ref.R * l.lnphis i T P + l.ref.R * T * l.dlnphis_dT i T P)
      = l.ref.R * (∑ i, l.ref.zs i * l.lnphis i T P) + l.ref.R * T * ∑ i, l.ref.zs i * l.dlnphis_dT i T P := by
    rw [Finset.mul_sum, Finset.mul_sum, ← Finset.sum_add_distrib]
    exact Finset.sum_congr rfl fun i _ => by ring
  rw [e1] at h2
  unfold Liquid.G
  linear_combination h1 - T * h2

/-- **C84.** `Cp` is the temperature derivative of `H`. -/
theorem C84_Cp (h : l.Ok T) (hv : l.useHvap = false) :
    HasDerivAt (fun t => l.H t P) (l.Cp T P) T := by
  have hT := h.ref.posT
  have hR := h.ref.posR
  have hok : (fun t => l.exH t) =ᶠ[𝓝 T] fun t => -t * l.dGE t + l.GE t := by
    cases hi : l.indep with
    | false =>
      refine Eventually.of_forall fun t => ?_
      simp [Liquid.exH, hi, HE]
    | true =>
      filter_upwards [h.indep hi] with t ht
      simp [Liquid.exH, hi, ht.1, ht.2]
  have e : (fun t => l.H t P) = fun t => ∑ i, l.z i * (-l.ref.R * t * t * l.slope i t P + l.ref.HI i t) + l.exH t := by
    funext t; exact H_eq l t P hv
  rw [e]
  have hx : HasDerivAt (fun t => l.exH t) (l.exCp T) T := by
    rw [(ex_eq h).2.2.1]
    refine HasDerivAt.congr_of_eventuallyEq ?_ hok
    refine (((hasDerivAt_id' T).fun_neg.fun_mul h.d2GE).fun_add h.dGE.self_of_nhds).congr_deriv ?_
    ring
  have hs : HasDerivAt (fun t => ∑ i, l.z i * (-l.ref.R * t * t * l.slope i t P + l.ref.HI i t))
      (∑ i, l.z i * (((-l.ref.R * 1 * T + -l.ref.R * T * 1) * l.slope i T P
        + -l.ref.R * T * T * (l.ab i T P).1) + l.ref.Cps i T)) T :=
    HasDerivAt.fun_sum fun i _ => ((((((hasDerivAt_id' T).const_mul (-l.ref.R)).fun_mul (hasDerivAt_id' T)).fun_mul
      (slope_deriv hR hT (h.comp i))).fun_add (h.ref.H i)).const_mul _)
  refine (hs.fun_add hx).congr_deriv ?_
  unfold Liquid.Cp
  dsimp only
  congr 1
  rw [zero_sub, ← Finset.sum_neg_distrib]
  refine Finset.sum_congr rfl fun i _ => ?_
  rw [ab_eq]
  ring

/-- **C84.** `dS_dT` is `Cp / T`, and the temperature derivative of `S`. -/
theorem C84_dS_dT (h : l.Ok T) (hP : 0 < P) (hv : l.useHvap = false) :
    HasDerivAt (fun t => l.S t P) (l.dS_dT T P) T ∧ l.dS_dT T P = l.Cp T P / T := by
  have hT := h.ref.posT
  have hR := h.ref.posR
  have hok : (fun t => l.exS t) =ᶠ[𝓝 T] fun t => -l.dGE t := by
    cases hi : l.indep with
    | false =>
      filter_upwards [h.first] with t ht
      simp only [Liquid.exS, hi, SE, HE, Bool.false_eq_true, if_false]
      field_simp
      ring
    | true =>
      filter_upwards [h.indep hi] with t ht
      simp [Liquid.exS, hi, ht.2]
  constructor
  · have e : (fun t => l.S t P) = fun t => (0 - ∑ i, l.z i * Real.log (l.z i) - Real.log (P * (1 / l.ref.Pref))) * l.ref.R
        - ∑ i, l.z i * (l.ref.R * (t * l.slope i t P + ((l.comp i).lnPs t
          + Real.log (l.poy i t P * l.phs i t * (1 / P)))) - l.ref.SI i t) + l.exS t := by
      funext t; rw [S_eq l t P hv]; simp only [add_assoc]
    rw [e]
    have hx : HasDerivAt (fun t => l.exS t) (l.exdS T) T := by
      rw [(ex_eq h).2.2.2]
      exact h.d2GE.fun_neg.congr_of_eventuallyEq hok
    have hs : HasDerivAt (fun t => ∑ i, l.z i * (l.ref.R * (t * l.slope i t P + ((l.comp i).lnPs t
          + Real.log (l.poy i t P * l.phs i t * (1 / P)))) - l.ref.SI i t))
        (∑ i, l.z i * (l.ref.R * (1 * l.slope i T P + T * (l.ab i T P).1 + l.slope i T P) - l.ref.Cps i T / T)) T :=
      HasDerivAt.fun_sum fun i _ => ((((((hasDerivAt_id' T).fun_mul (slope_deriv hR hT (h.comp i))).fun_add
        (lnpure_deriv hR hT hP (h.comp i))).const_mul l.ref.R).fun_sub (h.ref.S i)).const_mul _)
    refine ((hs.const_sub _).fun_add hx).congr_deriv ?_
    unfold Liquid.dS_dT
    dsimp only
    congr 1
    rw [zero_sub]
    congr 1
    refine Finset.sum_congr rfl fun i _ => ?_
    rw [ab_eq]
    ring
  · unfold Liquid.dS_dT Liquid.Cp
    dsimp only
    rw [(ex_eq h).2.2.1, (ex_eq h).2.2.2, add_div, sub_div, Finset.sum_div]
    congr 1
    · congr 1
      · ring
      · refine Finset.sum_congr rfl fun i _ => ?_
        field_simp
    · field_simp

/-- **C84.** `dH_dP` is the pressure derivative of `H`. -/
theorem C84_dH_dP (h : l.Ok T) (hv : l.useHvap = false) : HasDerivAt (fun p => l.H T p) (l.dH_dP T P) P := by
  have hT := h.ref.posT
  have hR := h.ref.posR
  have e : (fun p => l.H T p) = fun p => ∑ i, l.z i * (-l.ref.R * T * T * l.slope i T p + l.ref.HI i T) + l.exH T := by
    funext p; exact H_eq l T p hv
  rw [e]
  have hs : HasDerivAt (fun p => ∑ i, l.z i * (-l.ref.R * T * T * l.slope i T p + l.ref.HI i T)) (l.dH_dP T P) P := by
    refine HasDerivAt.congr_deriv (HasDerivAt.fun_sum fun i _ =>
      (((slope_dP hR hT (h.comp i).at).const_mul (-l.ref.R * T * T)).add_const (l.ref.HI i T)).const_mul (l.z i)) ?_
    unfold Liquid.dH_dP
    dsimp only
    cases hp : l.usePoy with
    | true =>
      rw [if_pos rfl]
      exact Finset.sum_congr rfl fun i _ => by ring
    | false =>
      rw [if_neg (by simp)]
      refine Finset.sum_eq_zero fun i _ => ?_
      obtain ⟨-, -, -, h1, h2⟩ := noPoy l i T P hp
      rw [h1, h2]
      ring
  exact hs.add_const _

/-- **C84.** `dS_dP` is the pressure derivative of `S`. -/
theorem C84_dS_dP (h : l.Ok T) (hP : 0 < P) (hv : l.useHvap = false) :
    HasDerivAt (fun p => l.S T p) (l.dS_dP T P) P := by
  have hT := h.ref.posT
  have hR := h.ref.posR
  have hPr := h.ref.posPref
  have e : (fun p => l.S T p) = fun p => (0 - ∑ i, l.z i * Real.log (l.z i) - Real.log (p * (1 / l.ref.Pref))) * l.ref.R
      - ∑ i, l.z i * (l.ref.R * (T * l.slope i T p + (l.comp i).lnPs T
        + Real.log (l.poy i T p * l.phs i T * (1 / p))) - l.ref.SI i T) + l.exS T := by
    funext p; exact S_eq l T p hv
  rw [e]
  have hl : HasDerivAt (fun p => (0 - ∑ i, l.z i * Real.log (l.z i) - Real.log (p * (1 / l.ref.Pref))) * l.ref.R)
      (-(1 / P) * l.ref.R) P := by
    have h1 := (((hasDerivAt_id' P).mul_const (1 / l.ref.Pref)).log (by positivity)).const_sub
      (0 - ∑ i, l.z i * Real.log (l.z i))
    refine (h1.mul_const l.ref.R).congr_deriv ?_
    field_simp
  have hs : HasDerivAt (fun p => ∑ i, l.z i * (l.ref.R * (T * l.slope i T p + (l.comp i).lnPs T
        + Real.log (l.poy i T p * l.phs i T * (1 / p))) - l.ref.SI i T))
      (∑ i, l.z i * (l.ref.R * (T * (1 / l.poy i T P * (l.d2PoyPT i T P - l.dPoyP i T P * l.dPoy i T P * (1 / l.poy i T P)))
        + l.dlnphis_dP i T P))) P :=
    HasDerivAt.fun_sum fun i _ => ((((((slope_dP hR hT (h.comp i).at).const_mul T).add_const ((l.comp i).lnPs T)).fun_add
      (lnpoy_dP hR hT hP (h.comp i).at)).const_mul l.ref.R).sub_const (l.ref.SI i T)).const_mul (l.z i)
  refine ((hl.fun_sub hs).add_const _).congr_deriv ?_
  unfold Liquid.dS_dP
  dsimp only
  cases hp : l.usePoy with
  | true =>
    rw [if_pos rfl]
    congr 1
    · ring
    · refine Finset.sum_congr rfl fun i _ => ?_
      have p1 : 0 < l.poy i T P := l_poy_pos
      unfold Liquid.dlnphis_dP
      field_simp
      ring
  | false =>
    rw [if_neg (by simp)]
    have e2 : ∑ i, l.z i * (l.ref.R * (T * (1 / l.poy i T P
        * (l.d2PoyPT i T P - l.dPoyP i T P * l.dPoy i T P * (1 / l.poy i T P))) + l.dlnphis_dP i T P))
        = ∑ i, l.ref.zs i * (-(l.ref.R * (1 / P))) := by
      refine Finset.sum_congr rfl fun i _ => ?_
      obtain ⟨h3, -, -, h1, h2⟩ := noPoy l i T P hp
      unfold Liquid.dlnphis_dP Liquid.z
      rw [h1, h2]
      ring
    rw [e2, ← Finset.sum_mul, h.norm]
    ring

/-- **C84.** With Poynting factors, the Gibbs energy has the volume of the phase as pressure derivative, and minus the
entropy as temperature derivative. -/
theorem C84_dG (h : l.Ok T) (hP : 0 < P) (hv : l.useHvap = false) :
    HasDerivAt (fun t => l.G t P) (-l.S T P) T
      ∧ (l.usePoy = true → HasDerivAt (fun p => l.G T p) (l.V T) P) := by
  have hT := h.ref.posT
  have hR := h.ref.posR
  refine ⟨?_, fun hp => ?_⟩
  · obtain ⟨h1, h2⟩ := C84_dS_dT h hP hv
    refine ((C84_Cp (P := P) h hv).fun_sub ((hasDerivAt_id' T).fun_mul h1)).congr_deriv ?_
    rw [h2]
    field_simp
    ring
  · have e : (fun p => l.G T p) =ᶠ[𝓝 P] fun p => l.ref.H T - T * l.ref.S T p
        + l.ref.R * T * ∑ i, l.ref.zs i * l.lnphis i T p := by
      filter_upwards [lt_mem_nhds hP] with p hp'
      rw [← C84_G_dep h hp' hv]
      ring
    refine HasDerivAt.congr_of_eventuallyEq ?_ e
    have hPr := h.ref.posPref
    have h1 : HasDerivAt (fun p => l.ref.S T p) (-(l.ref.R / P)) P := by
      have h2 := ((((hasDerivAt_id' P).mul_const (1 / l.ref.Pref)).log (by positivity)).const_mul l.ref.R).const_sub
        (0 - l.ref.R * ∑ i, l.ref.zs i * Real.log (l.ref.zs i))
      refine (h2.add_const (∑ i, l.ref.zs i * l.ref.SI i T)).congr_deriv ?_
      field_simp
    have h3 : HasDerivAt (fun p => ∑ i, l.ref.zs i * l.lnphis i T p) (∑ i, l.ref.zs i * l.dlnphis_dP i T P) P :=
      HasDerivAt.fun_sum fun i _ => (C83_dlnphis_dP h hP).const_mul _
    refine (((h1.const_mul T).const_sub (l.ref.H T)).fun_add (h3.const_mul (l.ref.R * T))).congr_deriv ?_
    have e1 : ∑ i, l.ref.zs i * l.dlnphis_dP i T P = l.V T / (l.ref.R * T) - 1 / P := by
      unfold Liquid.V
      have e3 : 1 / P = ∑ i, l.ref.zs i * (1 / P) := by rw [← Finset.sum_mul, h.norm, one_mul]
      rw [Finset.sum_div, e3, ← Finset.sum_sub_distrib]
      refine Finset.sum_congr rfl fun i _ => ?_
      have p1 : 0 < l.poy i T P := l_poy_pos
      have e2 : l.dPoyP i T P = (l.comp i).V T / (l.ref.R * T) * l.poy i T P := by
        unfold Liquid.dPoyP Liquid.poy Pure.dPoy_dP Pure.poy
        dsimp only
        rw [hp, if_pos rfl, if_pos rfl]
        congr 2
        field_simp
      unfold Liquid.dlnphis_dP Liquid.z
      rw [e2]
      field_simp
    rw [e1]
    field_simp
    ring

/-- **C84.** With enthalpies of vaporization and neither Poynting factors nor fugacity coefficients at saturation, the
departure Gibbs energy is still the one of the fugacity coefficients. Partial: heat capacity and the other choices are
wrong, see below. -/
theorem C84_Hvap_G_partial (h : l.Ok T) (hP : 0 < P) (hv : l.useHvap = true) (hp : l.usePoy = false)
    (hq : l.usePhi = false) :
    l.G T P - (l.ref.H T - T * l.ref.S T P) = l.ref.R * T * ∑ i, l.ref.zs i * l.lnphis i T P := by
  have hT := h.ref.posT
  unfold Liquid.G Liquid.H Liquid.S Verif.Phase.Ref.S Verif.Phase.Ref.H
  dsimp only
  rw [hv, if_pos rfl, if_pos rfl, (ex_eq h).1, (ex_eq h).2.1, h.GE.self_of_nhds]
  have e1 : ∑ i, l.ref.zs i * l.lnphis i T P = ∑ i, l.ref.zs i * Real.log (l.gam i T)
      + ∑ i, l.ref.zs i * ((l.comp i).lnPs T + Real.log (1 / P)) := by
    rw [← Finset.sum_add_distrib]
    refine Finset.sum_congr rfl fun i _ => ?_
    rw [(C83_lnphis h hP).1, (noPoy l i T P hp).1, (noPhi l i T hq).1, ((h.comp i).at).ln, one_div, Real.log_inv,
      Real.log_one]
    ring
  have e2 : ∑ i, l.z i * (l.ref.R * ((l.comp i).lnPs T + Real.log (1 / P)) - l.ref.SI i T + (l.comp i).Hvap T * (1 / T))
      = l.ref.R * (∑ i, l.ref.zs i * ((l.comp i).lnPs T + Real.log (1 / P))) - ∑ i, l.ref.zs i * l.ref.SI i T
        + (∑ i, l.ref.zs i * (l.comp i).Hvap T) * (1 / T) := by
    rw [Finset.mul_sum, Finset.sum_mul, ← Finset.sum_sub_distrib, ← Finset.sum_add_distrib]
    exact Finset.sum_congr rfl fun i _ => by unfold Liquid.z; ring
  have e3 : ∑ i, l.z i * (l.ref.HI i T - (l.comp i).Hvap T)
      = ∑ i, l.ref.zs i * l.ref.HI i T - ∑ i, l.ref.zs i * (l.comp i).Hvap T := by
    rw [← Finset.sum_sub_distrib]
    exact Finset.sum_congr rfl fun i _ => by unfold Liquid.z; ring
  rw [e1, e2, e3]
  unfold Liquid.z
  field_simp
  ring

/-- **C84.** Without Poynting factors the Gibbs energy does not depend on pressure, whatever the volume. -/
theorem C84_dG_dP_noPoynting (h : l.Ok T) (hP : 0 < P) (hv : l.useHvap = false) (hp : l.usePoy = false) :
    HasDerivAt (fun p => l.G T p) 0 P := by
  refine ((C84_dH_dP (P := P) h hv).fun_sub ((C84_dS_dP h hP hv).const_mul T)).congr_deriv ?_
  unfold Liquid.dH_dP Liquid.dS_dP
  dsimp only
  rw [hp, if_neg (by simp), if_neg (by simp)]
  ring

/-- With enthalpies of vaporization the entropy does not depend on pressure. -/
theorem S_Hvap_const (h : l.Ok T) (hP : 0 < P) (hv : l.useHvap = true) : HasDerivAt (fun p => l.S T p) 0 P := by
  have hT := h.ref.posT
  have hPr := h.ref.posPref
  have e : (fun p => l.S T p) =ᶠ[𝓝 P] fun _ => l.S T 1 := by
    filter_upwards [lt_mem_nhds hP] with p hp
    unfold Liquid.S
    dsimp only
    rw [hv, if_pos rfl, if_pos rfl]
    have e1 : ∀ q : ℝ, ∑ i, l.z i * (l.ref.R * ((l.comp i).lnPs T + Real.log (1 / q)) - l.ref.SI i T
          + (l.comp i).Hvap T * (1 / T))
        = ∑ i, l.z i * (l.ref.R * (l.comp i).lnPs T - l.ref.SI i T + (l.comp i).Hvap T * (1 / T))
          - l.ref.R * Real.log q := by
      intro q
      have e3 : l.ref.R * Real.log q = ∑ i, l.ref.zs i * (l.ref.R * Real.log q) := by
        rw [← Finset.sum_mul, h.norm, one_mul]
      rw [e3, ← Finset.sum_sub_distrib]
      refine Finset.sum_congr rfl fun i _ => ?_
      unfold Liquid.z
      rw [one_div, Real.log_inv]
      ring
    rw [e1 p, e1 1, Real.log_mul hp.ne' (by positivity), Real.log_mul one_ne_zero (by positivity), Real.log_one]
    ring
  exact (hasDerivAt_const P _).congr_of_eventuallyEq e

end caloric

/-! ## Examples -/

/-- A component with vapor pressure `exp`, volume `t` and fugacity coefficient `t`. -/
noncomputable def demoPure : Pure where
  Ps := Real.exp
  dPs := Real.exp
  d2Ps := Real.exp
  lnPs := fun t => t
  rPs := fun _ => 1
  r2Ps := fun _ => 1
  V := fun t => t
  dV := fun _ => 1
  d2V := fun _ => 0
  phi := fun t => t
  dphi := fun _ => 1
  d2phi := fun _ => 0
  Hvap := fun t => t

/-- Activity coefficients `exp t`, so that the excess Gibbs energy is `R t²`. -/
noncomputable def demo (poy phi hvap : Bool) : Liquid 2 where
  ref := Verif.Phase.demoRef
  comp _ := demoPure
  gam _ := Real.exp
  dgam _ := Real.exp
  GE := fun t => 8 * t ^ 2
  dGE := fun t => 16 * t
  d2GE := fun _ => 16
  usePoy := poy
  usePhi := phi
  useHvap := hvap
  indep := false

theorem demoPure_ok {T : ℝ} (hT : 0 < T) : demoPure.Ok T where
  near := by
    filter_upwards [lt_mem_nhds hT] with t ht
    exact ⟨Real.exp_pos t, (Real.log_exp t).symm, Real.hasDerivAt_exp t, (div_self (Real.exp_pos t).ne').symm,
      hasDerivAt_id' t, ht, hasDerivAt_id' t⟩
  d2Ps := Real.hasDerivAt_exp T
  r2 := (div_self (Real.exp_pos T).ne').symm
  d2V := hasDerivAt_const T 1
  d2phi := hasDerivAt_const T 1

theorem demo_norm : ∑ i, Verif.Phase.demoRef.zs i = 1 := by
  rw [Fin.sum_univ_two]; norm_num [Verif.Phase.demoRef]

theorem demo_sum (x : ℝ) : ∑ i, Verif.Phase.demoRef.zs i * x = x := by
  rw [← Finset.sum_mul, demo_norm, one_mul]

theorem demo_ok (a b c : Bool) {T : ℝ} (hT : 0 < T) : (demo a b c).Ok T where
  ref := Verif.Phase.demoRef_ok hT
  norm := demo_norm
  comp _ := demoPure_ok hT
  gam := Eventually.of_forall fun t _ => ⟨Real.exp_pos t, Real.hasDerivAt_exp t⟩
  GE := Eventually.of_forall fun t => by
    show 8 * t ^ 2 = 8 * t * ∑ i, Verif.Phase.demoRef.zs i * Real.log (Real.exp t)
    rw [Real.log_exp, demo_sum]; ring
  dGE := Eventually.of_forall fun t => by
    refine ((hasDerivAt_pow 2 t).const_mul 8).congr_deriv ?_
    show 8 * (((2 : ℕ) : ℝ) * t ^ 1) = 16 * t
    push_cast; ring
  d2GE := ((hasDerivAt_id' T).const_mul (16 : ℝ)).congr_deriv (mul_one _)
  indep := fun h => by cases h

example : ∃ (l : Liquid 2) (T P : ℝ), l.Ok T ∧ 0 < P ∧ l.useHvap = false ∧ l.usePoy = true ∧ l.usePhi = true
    ∧ l.V T ≠ 0 :=
  ⟨demo true true false, 1, 1, demo_ok _ _ _ one_pos, one_pos, rfl, rfl, rfl, by
    show ∑ i, Verif.Phase.demoRef.zs i * (1 : ℝ) ≠ 0
    rw [demo_sum]; norm_num⟩

example : ∃ (l : Liquid 2) (T P : ℝ), l.Ok T ∧ 0 < P ∧ l.useHvap = true ∧ l.usePoy = false ∧ l.usePhi = false :=
  ⟨demo false false true, 1, 1, demo_ok _ _ _ one_pos, one_pos, rfl, rfl, rfl⟩

example : ∃ (l : Liquid 2) (T P : ℝ), l.Ok T ∧ 0 < P ∧ l.useHvap = false ∧ l.usePoy = false :=
  ⟨demo false true false, 1, 1, demo_ok _ _ _ one_pos, one_pos, rfl, rfl⟩

/-- **C84 fails.** `Cp` (2772-2853) never looks at `use_Hvap_caloric`: with enthalpies of vaporization it is not the
derivative of the enthalpy. -/
theorem C84_Hvap_Cp_fails : ∃ (l : Liquid 2) (T P : ℝ), l.Ok T ∧ 0 < P ∧ l.useHvap = true
    ∧ ¬ HasDerivAt (fun t => l.H t P) (l.Cp T P) T := by
  refine ⟨demo false false true, 1, 1, demo_ok _ _ _ one_pos, one_pos, rfl, fun h => ?_⟩
  have e : (fun t => (demo false false true).H t 1) = fun t => 28 * (t - 298) - t + (-t * (16 * t) + 8 * t ^ 2) := by
    funext t
    unfold Liquid.H
    dsimp only
    rw [if_pos (show (demo false false true).useHvap = true from rfl)]
    congr 1
    exact demo_sum (28 * (t - 298) - t)
  rw [e] at h
  have h2 : HasDerivAt (fun t : ℝ => 28 * (t - 298) - t + (-t * (16 * t) + 8 * t ^ 2)) 11 1 := by
    have i1 := hasDerivAt_id' (1 : ℝ)
    refine ((((i1.sub_const 298).const_mul 28).fun_sub i1).fun_add
      ((i1.fun_neg.fun_mul (i1.const_mul 16)).fun_add ((i1.fun_pow 2).const_mul 8))).congr_deriv ?_
    norm_num
  have h3 : (demo false false true).Cp 1 1 = -4 := by
    unfold Liquid.Cp
    dsimp only
    rw [(ex_eq (demo_ok false false true one_pos)).2.2.1]
    simp only [ab_eq, Liquid.slope, (noPoy (demo false false true) _ 1 1 rfl).1, (noPoy (demo false false true) _ 1 1 rfl).2.1,
      (noPoy (demo false false true) _ 1 1 rfl).2.2.1, (noPhi (demo false false true) _ 1 rfl).1,
      (noPhi (demo false false true) _ 1 rfl).2.1, (noPhi (demo false false true) _ 1 rfl).2.2]
    simp only [Liquid.z, Liquid.r, Liquid.r2, demo, demoPure, ← Finset.sum_mul]
    simp only [demo_norm, Verif.Phase.demoRef]
    norm_num
  have h4 := h.unique h2
  rw [h3] at h4
  norm_num at h4

/-- **C84 fails.** With enthalpies of vaporization and Poynting factors `dS_dP` is not the derivative of `S`, which does
not depend on pressure. -/
theorem C84_Hvap_dS_dP_fails : ∃ (l : Liquid 2) (T P : ℝ), l.Ok T ∧ 0 < P ∧ l.useHvap = true
    ∧ ¬ HasDerivAt (fun p => l.S T p) (l.dS_dP T P) P := by
  refine ⟨demo true false true, 1, 1, demo_ok _ _ _ one_pos, one_pos, rfl, fun h => ?_⟩
  have h1 := h.unique (S_Hvap_const (demo_ok _ _ _ one_pos) one_pos rfl)
  have e : (demo true false true).dS_dP 1 1 = -1 := by
    have e1 : ∀ i, (demo true false true).poy i 1 1 = Real.exp (1 * (1 - Real.exp 1) * (1 / (8 * 1))) := fun i => rfl
    have e2 : (8 : ℝ)⁻¹ * (1 - Real.exp 1) = 1 * (1 - Real.exp 1) * (1 / (8 * 1)) := by ring
    unfold Liquid.dS_dP
    dsimp only
    rw [if_pos (show (demo true false true).usePoy = true from rfl)]
    have key : ∀ i, (demo true false true).z i * (demo true false true).ref.R * (1 / (demo true false true).poy i 1 1)
      * ((demo true false true).dPoyP i 1 1 - (demo true false true).poy i 1 1 * (1 / 1)
        + 1 * ((demo true false true).d2PoyPT i 1 1 - (demo true false true).dPoyP i 1 1 * (demo true false true).dPoy i 1 1
          * (1 / (demo true false true).poy i 1 1))) = (demo true false true).z i * (-7) := by
      intro i
      have e3 : (demo true false true).dPoyP i 1 1 = 1 / 8 * (demo true false true).poy i 1 1 := by
        rw [e1]
        show 1 / (8 * 1) * Real.exp (1 / (8 * 1) * (1 - Real.exp 1)) = _
        congr 2 <;> ring
      have e4 : (demo true false true).dPoy i 1 1
          = -(1 / 8) * (Real.exp 1 - (1 - Real.exp 1) + (1 - Real.exp 1)) * (demo true false true).poy i 1 1 := by
        rw [e1]
        show -(1 / 8 * (1 / 1)) * (1 * Real.exp 1 - (1 - Real.exp 1) * 1 + 1 / 1 * 1 * (1 - Real.exp 1))
          * Real.exp (1 / 8 * (1 / 1 * 1 * (1 - Real.exp 1))) = _
        congr 1
        · ring
        · congr 1; ring
      have e5 : (demo true false true).d2PoyPT i 1 1 = -(demo true false true).poy i 1 1 * (1 / 8) * (1 / 8 * Real.exp 1) := by
        show (demo true false true).poy i 1 1 * (-(1 / 8) * (1 / 1)) * (1 / 8 * (1 / 1 * 1) * (1 * Real.exp 1
          + 1 / 1 * 1 * (1 - Real.exp 1) - 1 * (1 - Real.exp 1)) + 1 / 1 * 1 - 1) = _
        ring
      have p1 : 0 < (demo true false true).poy i 1 1 := l_poy_pos
      rw [e3, e4, e5]
      show (demo true false true).z i * 8 * _ * _ = _
      field_simp
      ring
    rw [Finset.sum_congr rfl fun i _ => key i]
    have e6 : ∑ i, (demo true false true).z i * (-7 : ℝ) = -7 := demo_sum (-7)
    rw [e6]
    show -(8 : ℝ) * (1 / 1) - -7 = -1
    norm_num
  rw [e] at h1
  norm_num at h1

/-- **C84 fails.** With enthalpies of vaporization and Poynting factors the Gibbs energy is not the one of the fugacity
coefficients. -/
theorem C84_Hvap_G_fails : ∃ (l : Liquid 2) (T P : ℝ), l.Ok T ∧ 0 < P ∧ l.useHvap = true
    ∧ l.G T P - (l.ref.H T - T * l.ref.S T P) ≠ l.ref.R * T * ∑ i, l.ref.zs i * l.lnphis i T P := by
  refine ⟨demo true false true, 1, 1, demo_ok _ _ _ one_pos, one_pos, rfl, fun h => ?_⟩
  have h0 := C84_Hvap_G_partial (P := 1) (demo_ok false false true one_pos) one_pos rfl rfl rfl
  have e1 : (demo true false true).G 1 1 = (demo false false true).G 1 1 := rfl
  rw [e1] at h
  have h1 := h.symm.trans h0
  have e2 : ∀ a, ∑ i, (demo a false true).ref.zs i * (demo a false true).lnphis i 1 1
      = ∑ i, Verif.Phase.demoRef.zs i * (2 + Real.log (demoPure.poy a 8 1 1)) := by
    intro a
    refine Finset.sum_congr rfl fun i _ => ?_
    rw [(C83_lnphis (demo_ok a false true one_pos) one_pos).1]
    show _ * (Real.log (Real.exp 1) + Real.log (Real.exp 1) + Real.log (demoPure.poy a 8 1 1) + Real.log 1 - Real.log 1) = _
    rw [Real.log_exp, Real.log_one]
    show Verif.Phase.demoRef.zs i * _ = _
    ring
  rw [e2, e2, demo_sum, demo_sum, C83_poynting] at h1
  have e3 : demoPure.poy false 8 1 1 = 1 := rfl
  rw [e3, Real.log_one] at h1
  have e4 : demoPure.V 1 * (1 - demoPure.Ps 1) / (8 * 1) = (1 - Real.exp 1) / 8 := by
    show 1 * (1 - Real.exp 1) / (8 * 1) = _
    ring
  rw [e4] at h1
  have h5 : (1 : ℝ) + 1 < Real.exp 1 := Real.add_one_lt_exp one_ne_zero
  have h6 : (demo true false true).ref.R = 8 := rfl
  have h7 : (demo false false true).ref.R = 8 := rfl
  rw [h6, h7] at h1
  linarith

/-- **C84 fails.** Without Poynting factors the volume is not the pressure derivative of the Gibbs energy. -/
theorem C84_V_fails : ∃ (l : Liquid 2) (T P : ℝ), l.Ok T ∧ 0 < P ∧ l.useHvap = false
    ∧ ¬ HasDerivAt (fun p => l.G T p) (l.V T) P := by
  refine ⟨demo false false false, 1, 1, demo_ok _ _ _ one_pos, one_pos, rfl, fun h => ?_⟩
  have h1 := h.unique (C84_dG_dP_noPoynting (demo_ok _ _ _ one_pos) one_pos rfl rfl)
  have h2 : (demo false false false).V 1 = 1 := demo_sum 1
  rw [h2] at h1
  norm_num at h1

end Verif.ExcessLiquid
