import Verif.Eos.DerivProps

/-!
# Derivatives of a phase (`thermo/phases/phase.py`, class `Phase`)

* C61: every derivative method of the base class is the partial derivative it is named after.

`Phase` is abstract: its subclasses supply the pressure derivatives, the enthalpy and entropy with their first
derivatives; the base class computes everything else from these. A phase of fixed composition is described by
its temperature and volume; all methods are functions of that pair. `Methods` lists what a subclass supplies.
Caches (`try: return self._X`) are not modelled. The helper formulas of the `chemicals` package
(`Cp_minus_Cv`, `Joule_Thomson`, `speed_of_sound`, `isentropic_exponent_*`) are taken from their documentation.
-/

namespace Verif.Phase

open Verif.Departure (Along Total)

/-! ## Specification -/

/-- `p` is the derivative of `a` by `b` at constant `c` at the state: along every differentiable curve of states
through `(T, V)` on which `c` is stationary, `a` changes `p` times as fast as `b`. -/
def Part (a b c : ℝ → ℝ → ℝ) (p T V : ℝ) : Prop :=
  ∀ (τ ν : ℝ → ℝ) (T' V' b' : ℝ), τ 0 = T → ν 0 = V → HasDerivAt τ T' 0 → HasDerivAt ν V' 0 →
    HasDerivAt (fun t => b (τ t) (ν t)) b' 0 → HasDerivAt (fun t => c (τ t) (ν t)) 0 0 →
    HasDerivAt (fun t => a (τ t) (ν t)) (p * b') 0

/-- Temperature as a function of the state. -/
def temp : ℝ → ℝ → ℝ := fun T _ => T
/-- Volume as a function of the state. -/
def vol : ℝ → ℝ → ℝ := fun _ V => V
/-- Molar density as a function of the state. -/
noncomputable def rho : ℝ → ℝ → ℝ := fun _ V => 1 / V

section
variable {a b c : ℝ → ℝ → ℝ} {aT aV bT bV cT cV p p' T V : ℝ}

theorem line (x x' : ℝ) : HasDerivAt (fun t : ℝ => x + x' * t) x' 0 := by
  simpa using ((hasDerivAt_id (0 : ℝ)).const_mul x').const_add x

/-- For differentiable functions a partial derivative is a quotient of Jacobian determinants. -/
theorem part_iff (ha : Total a aT aV T V) (hb : Total b bT bV T V) (hc : Total c cT cV T V) (h0 : cT ≠ 0 ∨ cV ≠ 0) :
    Part a b c p T V ↔ p * (bT * cV - bV * cT) = aT * cV - aV * cT := by
  constructor
  · intro h
    have h1 := h (fun t => T + cV * t) (fun t => V + -cT * t) cV (-cT) _ (by simp) (by simp) (line _ _) (line _ _)
      (hb cV (-cT) _ _ (by simp) (by simp) (line _ _) (line _ _))
      ((hc cV (-cT) _ _ (by simp) (by simp) (line _ _) (line _ _)).congr_deriv (by ring))
    have := h1.unique (ha cV (-cT) _ _ (by simp) (by simp) (line _ _) (line _ _))
    linear_combination this
  · intro h τ ν T' V' b' h1 h2 h3 h4 h5 h6
    refine (ha T' V' τ ν h1 h2 h3 h4).congr_deriv ?_
    have e1 := h5.unique (hb T' V' τ ν h1 h2 h3 h4)
    have e2 := h6.unique (hc T' V' τ ν h1 h2 h3 h4)
    rw [e1]
    rcases h0 with h0 | h0
    · refine mul_left_cancel₀ h0 ?_
      linear_combination V' * h + (p * bT - aT) * e2
    · refine mul_left_cancel₀ h0 ?_
      linear_combination (-T') * h + (p * bV - aV) * e2

/-- The derivative is unique where `b` changes on the curves of constant `c`: the specification determines it. -/
theorem Part.unique (hb : Total b bT bV T V) (hc : Total c cT cV T V) (h0 : bT * cV - bV * cT ≠ 0)
    (h : Part a b c p T V) (h' : Part a b c p' T V) : p = p' := by
  have l1 := hb cV (-cT) _ _ (by simp) (by simp) (line T cV) (line V (-cT))
  have l2 := (hc cV (-cT) _ _ (by simp) (by simp) (line T cV) (line V (-cT))).congr_deriv (show _ = (0 : ℝ) by ring)
  have k1 := h _ _ _ _ _ (by simp) (by simp) (line T cV) (line V (-cT)) l1 l2
  have k2 := h' _ _ _ _ _ (by simp) (by simp) (line T cV) (line V (-cT)) l1 l2
  refine mul_right_cancel₀ (b := bT * cV + bV * (-cT)) ?_ (k1.unique k2)
  rwa [mul_neg, ← sub_eq_add_neg]

end

/-! ## Model -/

/-- What a subclass of `Phase` supplies, as functions of the state. -/
structure Methods where
  /-- gas constant -/
  R : ℝ
  (P H S Cp dP_dT dP_dV d2P_dT2 d2P_dTdV d2P_dV2 dH_dT dH_dP dH_dT_V dH_dP_V dH_dV_T dH_dV_P
    dS_dT dS_dP dS_dT_V dS_dP_V d2H_dT2 d2H_dTdP d2P_dTdP d2P_dVdP d2P_dVdT_TP d2P_dT2_PV : ℝ → ℝ → ℝ)

namespace Methods

variable (m : Methods) (T V : ℝ)

/-- `dT_dP` (2720), `dV_dT` (2743), `dV_dP` (2763), `dT_dV` (2782). -/
noncomputable def dT_dP : ℝ := 1 / m.dP_dT T V
@[inherit_doc dT_dP] noncomputable def dV_dT : ℝ := -m.dP_dT T V / m.dP_dV T V
@[inherit_doc dT_dP] noncomputable def dV_dP : ℝ := -m.dV_dT T V * m.dT_dP T V
@[inherit_doc dT_dP] noncomputable def dT_dV : ℝ := 1 / m.dV_dT T V

/-- `d2V_dP2` (2801-2803). -/
noncomputable def d2V_dP2 : ℝ :=
  let inverse_dP_dV := 1 / m.dP_dV T V
  let inverse_dP_dV3 := inverse_dP_dV * inverse_dP_dV * inverse_dP_dV
  (-m.d2P_dV2 T V) * inverse_dP_dV3

/-- `d2T_dP2` (2822-2825). -/
noncomputable def d2T_dP2 : ℝ :=
  let inverse_dP_dT2 := m.dT_dP T V * m.dT_dP T V
  let inverse_dP_dT3 := inverse_dP_dT2 * m.dT_dP T V
  (-m.d2P_dT2 T V) * inverse_dP_dT3

/-- `d2T_dV2` (2854-2863). -/
noncomputable def d2T_dV2 : ℝ :=
  let inverse_dP_dT2 := m.dT_dP T V * m.dT_dP T V
  let inverse_dP_dT3 := inverse_dP_dT2 * m.dT_dP T V
  (-(m.d2P_dV2 T V * m.dP_dT T V - m.dP_dV T V * m.d2P_dTdV T V)) * inverse_dP_dT2
    + (m.d2P_dTdV T V * m.dP_dT T V - m.dP_dV T V * m.d2P_dT2 T V) * inverse_dP_dT3 * m.dP_dV T V

/-- `d2V_dT2` (2892-2903). -/
noncomputable def d2V_dT2 : ℝ :=
  let inverse_dP_dV := 1 / m.dP_dV T V
  let inverse_dP_dV2 := inverse_dP_dV * inverse_dP_dV
  let inverse_dP_dV3 := inverse_dP_dV * inverse_dP_dV2
  (-(m.d2P_dT2 T V * m.dP_dV T V - m.dP_dT T V * m.d2P_dTdV T V)) * inverse_dP_dV2
    + (m.d2P_dTdV T V * m.dP_dV T V - m.dP_dT T V * m.d2P_dV2 T V) * inverse_dP_dV3 * m.dP_dT T V

/-- `d2V_dPdT` (2926-2936). -/
noncomputable def d2V_dPdT : ℝ :=
  let inverse_dP_dV := 1 / m.dP_dV T V
  let inverse_dP_dV2 := inverse_dP_dV * inverse_dP_dV
  let inverse_dP_dV3 := inverse_dP_dV * inverse_dP_dV2
  (-(m.d2P_dTdV T V * m.dP_dV T V - m.dP_dT T V * m.d2P_dV2 T V)) * inverse_dP_dV3

/-- `d2T_dPdV` (2959-2967). -/
noncomputable def d2T_dPdV : ℝ :=
  let inverse_dP_dT2 := m.dT_dP T V * m.dT_dP T V
  let inverse_dP_dT3 := inverse_dP_dT2 * m.dT_dP T V
  (-(m.d2P_dTdV T V * m.dP_dT T V - m.dP_dV T V * m.d2P_dT2 T V)) * inverse_dP_dT3

/-- `Z` (2685), `dZ_dT` (3308-3309), `dZ_dP` (3324), `dP_drho` (3370-3371), `dZ_dV` (3339). -/
noncomputable def Z : ℝ := m.P T V * V / (m.R * T)
@[inherit_doc Z] noncomputable def dZ_dT : ℝ :=
  let T_inv := 1 / T
  m.P T V * (1 / m.R) * T_inv * (m.dV_dT T V - V * T_inv)
@[inherit_doc Z] noncomputable def dZ_dP : ℝ := 1 / (T * m.R) * (V + m.P T V * m.dV_dP T V)
@[inherit_doc Z] noncomputable def dP_drho : ℝ := -V * V * m.dP_dV T V
@[inherit_doc Z] noncomputable def dZ_dV : ℝ := (m.P T V - rho T V * m.dP_drho T V) / (m.R * T)

/-- `drho_dP` (3386-3387), `d2P_drho2` (3404-3405), `d2rho_dP2` (3421-3422). -/
noncomputable def drho_dP : ℝ := -m.dV_dP T V / (V * V)
@[inherit_doc drho_dP] noncomputable def d2P_drho2 : ℝ := V * V * V * (V * m.d2P_dV2 T V + 2 * m.dP_dV T V)
@[inherit_doc drho_dP] noncomputable def d2rho_dP2 : ℝ := -m.d2V_dP2 T V / V ^ 2 + 2 * m.dV_dP T V ^ 2 / V ^ 3

/-- `dT_drho` (3437-3438), `d2T_drho2` (3455-3456), `drho_dT` (3471-3472), `d2rho_dT2` (3488-3491). -/
noncomputable def dT_drho : ℝ := -V * V * m.dT_dV T V
@[inherit_doc dT_drho] noncomputable def d2T_drho2 : ℝ := V * V * V * (V * m.d2T_dV2 T V + 2 * m.dT_dV T V)
@[inherit_doc dT_drho] noncomputable def drho_dT : ℝ := -m.dV_dT T V / (V * V)
@[inherit_doc dT_drho] noncomputable def d2rho_dT2 : ℝ := -m.d2V_dT2 T V / V ^ 2 + 2 * m.dV_dT T V ^ 2 / V ^ 3

/-- `d2P_dTdrho` (3507-3509), `d2T_dPdrho` (3525-3527), `d2rho_dPdT` (3545-3549), `drho_dV_T` (3563-3564),
`drho_dT_V` (3579). -/
noncomputable def d2P_dTdrho : ℝ := -(V * V) * m.d2P_dTdV T V
@[inherit_doc d2P_dTdrho] noncomputable def d2T_dPdrho : ℝ := -(V * V) * m.d2T_dPdV T V
@[inherit_doc d2P_dTdrho] noncomputable def d2rho_dPdT : ℝ :=
  -m.d2V_dPdT T V / V ^ 2 + 2 * m.dV_dT T V * m.dV_dP T V / V ^ 3
@[inherit_doc d2P_dTdrho] noncomputable def drho_dV_T (_ V : ℝ) : ℝ := -1 / (V * V)
@[inherit_doc d2P_dTdrho] def drho_dT_V (_ _ : ℝ) : ℝ := 0

/-- `kappa` (3109), `dkappa_dT` (3126-3127), `isobaric_expansion` (3157), `disobaric_expansion_dT` (3184-3186),
`disobaric_expansion_dP` (3214-3217), `isothermal_bulk_modulus` (3143). -/
noncomputable def kappa : ℝ := -1 / V * m.dV_dP T V
@[inherit_doc kappa] noncomputable def dkappa_dT : ℝ :=
  -m.d2V_dPdT T V / V + m.dV_dP T V * m.dV_dT T V / (V * V)
@[inherit_doc kappa] noncomputable def isobaric_expansion : ℝ := m.dV_dT T V / V
@[inherit_doc kappa] noncomputable def disobaric_expansion_dT : ℝ :=
  let V_inv := 1 / V
  V_inv * (m.d2V_dT2 T V - m.dV_dT T V * m.dV_dT T V * V_inv)
@[inherit_doc kappa] noncomputable def disobaric_expansion_dP : ℝ :=
  let V_inv := 1 / V
  V_inv * (m.d2V_dPdT T V - m.dV_dT T V * m.dV_dP T V * V_inv)
@[inherit_doc kappa] noncomputable def isothermal_bulk_modulus : ℝ := 1 / m.kappa T V

/-- `G` (1450), `U` (1470), `A` (1487). -/
def G : ℝ := m.H T V - T * m.S T V
@[inherit_doc G] def U : ℝ := m.H T V - m.P T V * V
@[inherit_doc G] def A : ℝ := m.U T V - T * m.S T V

/-- `dS_dV_T` (4277), `dS_dV_P` (4288). -/
def dS_dV_T : ℝ := m.dS_dP T V * m.dP_dV T V
@[inherit_doc dS_dV_T] noncomputable def dS_dV_P : ℝ := m.dS_dT T V * m.dT_dV T V

/-- `dG_dT` (1550), `dG_dT_V` (1572), `dG_dP` (1592), `dG_dP_V` (1615), `dG_dV_T` (1635), `dG_dV_P` (1655). -/
def dG_dT : ℝ := -T * m.dS_dT T V - m.S T V + m.dH_dT T V
@[inherit_doc dG_dT] def dG_dT_V : ℝ := -T * m.dS_dT_V T V - m.S T V + m.dH_dT_V T V
@[inherit_doc dG_dT] def dG_dP : ℝ := -T * m.dS_dP T V + m.dH_dP T V
@[inherit_doc dG_dT] noncomputable def dG_dP_V : ℝ :=
  -T * m.dS_dP_V T V - m.dT_dP T V * m.S T V + m.dH_dP_V T V
@[inherit_doc dG_dT] def dG_dV_T : ℝ := m.dG_dP T V * m.dP_dV T V
@[inherit_doc dG_dT] noncomputable def dG_dV_P : ℝ := m.dG_dT T V * m.dT_dV T V

/-- `dU_dT` (1676), `dU_dT_V` (1698), `dU_dP` (1718), `dU_dP_V` (1740), `dU_dV_T` (1760), `dU_dV_P` (1780). -/
noncomputable def dU_dT : ℝ := -m.P T V * m.dV_dT T V + m.dH_dT T V
@[inherit_doc dU_dT] def dU_dT_V : ℝ := m.dH_dT_V T V - V * m.dP_dT T V
@[inherit_doc dU_dT] noncomputable def dU_dP : ℝ := -m.P T V * m.dV_dP T V - V + m.dH_dP T V
@[inherit_doc dU_dT] def dU_dP_V : ℝ := m.dH_dP_V T V - V
@[inherit_doc dU_dT] noncomputable def dU_dV_T : ℝ := m.dU_dP T V * m.dP_dV T V
@[inherit_doc dU_dT] noncomputable def dU_dV_P : ℝ := m.dU_dT T V * m.dT_dV T V

/-- `dA_dT` (1800), `dA_dT_V` (1824-1825), `dA_dP` (1845), `dA_dP_V` (1868-1869), `dA_dV_T` (1889),
`dA_dV_P` (1909). -/
noncomputable def dA_dT : ℝ := -T * m.dS_dT T V - m.S T V + m.dU_dT T V
@[inherit_doc dA_dT] def dA_dT_V : ℝ :=
  m.dH_dT_V T V - V * m.dP_dT T V - T * m.dS_dT_V T V - m.S T V
@[inherit_doc dA_dT] noncomputable def dA_dP : ℝ := -T * m.dS_dP T V + m.dU_dP T V
@[inherit_doc dA_dT] noncomputable def dA_dP_V : ℝ :=
  m.dH_dP_V T V - V - m.dT_dP T V * m.S T V - T * m.dS_dP_V T V
@[inherit_doc dA_dT] noncomputable def dA_dV_T : ℝ := m.dA_dP T V * m.dP_dV T V
@[inherit_doc dA_dT] noncomputable def dA_dV_P : ℝ := m.dA_dT T V * m.dT_dV T V

/-- `_derivs_jacobian` (4476-4488) for `x = 'V'`, `y = 'T'` (4444-4445): the values are the derivatives of
`a`, `b`, `c` by volume at constant temperature and by temperature at constant volume. -/
noncomputable def derivs_jacobian (da_dx_y da_dy_x db_dx_y db_dy_x dc_dx_y dc_dy_x : ℝ) : ℝ :=
  let n0 := da_dx_y
  let n1 := dc_dy_x
  let n2 := da_dy_x
  let n3 := dc_dx_y
  let d0 := db_dx_y
  let d1 := dc_dy_x
  let d2 := db_dy_x
  let d3 := dc_dx_y
  (n0 * n1 - n2 * n3) / (d0 * d1 - d2 * d3)

/-- Names over which the loop at 6135-6159 runs: the properties `T`, `P`, `V`, `rho`. -/
inductive Prop1 | T | P | V | rho
  deriving DecidableEq

/-- The properties held constant in that loop: `H`, `S`, `G`, `U`, `A`. -/
inductive Const1 | H | S | G | U | A
  deriving DecidableEq

/-- The property as a function of the state. -/
noncomputable def val : Prop1 → ℝ → ℝ → ℝ
  | .T => temp
  | .P => m.P
  | .V => vol
  | .rho => Phase.rho

/-- `d{a}_dV_T` of the properties: `dT_dV_T` (4335), `dP_dV`, `dV_dV_T` (4419), `drho_dV_T`. -/
noncomputable def dV_T : Prop1 → ℝ
  | .T => 0
  | .P => m.dP_dV T V
  | .V => 1
  | .rho => drho_dV_T T V

/-- `d{a}_dT_V` of the properties: `dT_dT_V` (4407), `dP_dT`, `dV_dT_V` (4347), `drho_dT_V`. -/
noncomputable def dT_V : Prop1 → ℝ
  | .T => 1
  | .P => m.dP_dT T V
  | .V => 0
  | .rho => drho_dT_V T V

/-- The constant as a function of the state. -/
def cval : Const1 → ℝ → ℝ → ℝ
  | .H => m.H
  | .S => m.S
  | .G => m.G
  | .U => m.U
  | .A => m.A

/-- `d{c}_dV_T`. -/
noncomputable def cV_T : Const1 → ℝ
  | .H => m.dH_dV_T T V
  | .S => m.dS_dV_T T V
  | .G => m.dG_dV_T T V
  | .U => m.dU_dV_T T V
  | .A => m.dA_dV_T T V

/-- `d{c}_dT_V`. -/
noncomputable def cT_V : Const1 → ℝ
  | .H => m.dH_dT_V T V
  | .S => m.dS_dT_V T V
  | .G => m.dG_dT_V T V
  | .U => m.dU_dT_V T V
  | .A => m.dA_dT_V T V

/-- The generated methods `d{a}_d{b}_{c}` (6141-6142). -/
noncomputable def generated (a b : Prop1) (c : Const1) : ℝ :=
  derivs_jacobian (m.dV_T T V a) (m.dT_V T V a) (m.dV_T T V b) (m.dT_V T V b) (m.cV_T T V c) (m.cT_V T V c)

end Methods

/-! ## What a subclass promises -/

/-- The supplied pressure derivatives are derivatives of the pressure, and none of the first ones vanishes. -/
structure Mech (m : Methods) (T V : ℝ) : Prop where
  posR : 0 < m.R
  posT : 0 < T
  posV : 0 < V
  hP : Total m.P (m.dP_dT T V) (m.dP_dV T V) T V
  hPT : Total m.dP_dT (m.d2P_dT2 T V) (m.d2P_dTdV T V) T V
  hPV : Total m.dP_dV (m.d2P_dTdV T V) (m.d2P_dV2 T V) T V
  neT : m.dP_dT T V ≠ 0
  neV : m.dP_dV T V ≠ 0

/-- Enthalpy and entropy are differentiable and the supplied first derivatives are theirs. -/
structure Caloric (m : Methods) (T V : ℝ) : Prop where
  difH : ∃ hT hV, Total m.H hT hV T V
  difS : ∃ sT sV, Total m.S sT sV T V
  H_T_P : Part m.H temp m.P (m.dH_dT T V) T V
  H_P_T : Part m.H m.P temp (m.dH_dP T V) T V
  H_T_V : Part m.H temp vol (m.dH_dT_V T V) T V
  H_P_V : Part m.H m.P vol (m.dH_dP_V T V) T V
  H_V_T : Part m.H vol temp (m.dH_dV_T T V) T V
  H_V_P : Part m.H vol m.P (m.dH_dV_P T V) T V
  S_T_P : Part m.S temp m.P (m.dS_dT T V) T V
  S_P_T : Part m.S m.P temp (m.dS_dP T V) T V
  S_T_V : Part m.S temp vol (m.dS_dT_V T V) T V
  S_P_V : Part m.S m.P vol (m.dS_dP_V T V) T V

section
variable {m : Methods} {T V : ℝ}

theorem tot_T (T V : ℝ) : Total temp 1 0 T V := Total.fst T V
theorem tot_V (T V : ℝ) : Total vol 0 1 T V := Total.snd T V
theorem tot_rho {V : ℝ} (T : ℝ) (h : V ≠ 0) : Total rho 0 (-1 / (V * V)) T V :=
  ((Total.const 1 T V).div (Total.snd T V) h).congr (by ring) (by ring)

theorem eqs_dV_dT (h : Mech m T V) : m.dV_dP T V = 1 / m.dP_dV T V ∧ m.dT_dV T V = -m.dP_dV T V / m.dP_dT T V := by
  have h1 := h.neT; have h2 := h.neV
  constructor
  · simp only [Methods.dV_dP, Methods.dV_dT, Methods.dT_dP]; field_simp
  · simp only [Methods.dT_dV, Methods.dV_dT]; field_simp

/-- Totals of the first derivatives. -/
theorem tot_dT_dP (h : Mech m T V) : Total m.dT_dP (-m.d2P_dT2 T V / m.dP_dT T V ^ 2) (-m.d2P_dTdV T V / m.dP_dT T V ^ 2) T V :=
  ((Total.const 1 T V).div h.hPT h.neT).congr (by ring) (by ring)

@[inherit_doc tot_dT_dP] theorem tot_dV_dT (h : Mech m T V) : Total m.dV_dT
    ((-m.d2P_dT2 T V * m.dP_dV T V + m.dP_dT T V * m.d2P_dTdV T V) / m.dP_dV T V ^ 2)
    ((-m.d2P_dTdV T V * m.dP_dV T V + m.dP_dT T V * m.d2P_dV2 T V) / m.dP_dV T V ^ 2) T V := by
  refine (((Total.const 0 T V).sub h.hPT).div h.hPV h.neV).congr_fun (fun T V => ?_) |>.congr (by ring) (by ring)
  simp only [Methods.dV_dT, zero_sub]

@[inherit_doc tot_dT_dP] theorem tot_dV_dP (h : Mech m T V) : Total m.dV_dP
    (-m.d2P_dTdV T V / m.dP_dV T V ^ 2) (-m.d2P_dV2 T V / m.dP_dV T V ^ 2) T V := by
  have h1 := h.neT; have h2 := h.neV
  refine (((Total.const 0 T V).sub (tot_dV_dT h)).mul (tot_dT_dP h)).congr_fun (fun T V => ?_) |>.congr ?_ ?_
  · simp only [Methods.dV_dP, zero_sub]
  · simp only [Methods.dV_dT, Methods.dT_dP]; field_simp; ring
  · simp only [Methods.dV_dT, Methods.dT_dP]; field_simp; ring

@[inherit_doc tot_dT_dP] theorem tot_dT_dV (h : Mech m T V) : Total m.dT_dV
    ((-m.d2P_dTdV T V * m.dP_dT T V + m.dP_dV T V * m.d2P_dT2 T V) / m.dP_dT T V ^ 2)
    ((-m.d2P_dV2 T V * m.dP_dT T V + m.dP_dV T V * m.d2P_dTdV T V) / m.dP_dT T V ^ 2) T V := by
  have h1 := h.neT; have h2 := h.neV
  have h0 : m.dV_dT T V ≠ 0 := by simp only [Methods.dV_dT]; exact div_ne_zero (neg_ne_zero.mpr h1) h2
  refine ((Total.const 1 T V).div (tot_dV_dT h) h0).congr ?_ ?_
  · simp only [Methods.dV_dT]; field_simp; ring
  · simp only [Methods.dV_dT]; field_simp; ring

end

/-! ## C61 -/

section
variable {m : Methods} {T V : ℝ}

/-- **C61.** First derivatives of temperature, pressure, volume, density and compressibility factor. -/
theorem C61_first (h : Mech m T V) :
    Part vol temp m.P (m.dV_dT T V) T V ∧ Part vol m.P temp (m.dV_dP T V) T V ∧
    Part temp vol m.P (m.dT_dV T V) T V ∧ Part temp m.P vol (m.dT_dP T V) T V ∧
    Part m.P rho temp (m.dP_drho T V) T V ∧ Part rho m.P temp (m.drho_dP T V) T V ∧
    Part temp rho m.P (m.dT_drho T V) T V ∧ Part rho temp m.P (m.drho_dT T V) T V ∧
    Part rho vol temp (Methods.drho_dV_T T V) T V ∧ Part rho temp vol (Methods.drho_dT_V T V) T V ∧
    Part m.Z temp m.P (m.dZ_dT T V) T V ∧ Part m.Z m.P temp (m.dZ_dP T V) T V ∧
    Part m.Z vol temp (m.dZ_dV T V) T V := by
  have h1 := h.neT; have h2 := h.neV; have hV := h.posV.ne'; have hT := h.posT.ne'; have hR := h.posR.ne'
  have kP := h.hP; have kT := tot_T T V; have kV := tot_V T V; have kr := tot_rho T hV
  have kZ : Total m.Z _ _ T V := (kP.mul kV).div ((Total.const m.R T V).mul kT) (mul_ne_zero hR hT)
  obtain ⟨e1, e2⟩ := eqs_dV_dT h
  refine ⟨(part_iff kV kT kP (.inl h1)).2 ?_, (part_iff kV kP kT (.inl one_ne_zero)).2 ?_,
    (part_iff kT kV kP (.inl h1)).2 ?_, (part_iff kT kP kV (.inr one_ne_zero)).2 ?_,
    (part_iff kP kr kT (.inl one_ne_zero)).2 ?_, (part_iff kr kP kT (.inl one_ne_zero)).2 ?_,
    (part_iff kT kr kP (.inl h1)).2 ?_, (part_iff kr kT kP (.inl h1)).2 ?_,
    (part_iff kr kV kT (.inl one_ne_zero)).2 ?_, (part_iff kr kT kV (.inr one_ne_zero)).2 ?_,
    (part_iff kZ kT kP (.inl h1)).2 ?_, (part_iff kZ kP kT (.inl one_ne_zero)).2 ?_,
    (part_iff kZ kV kT (.inl one_ne_zero)).2 ?_⟩
  all_goals
    simp only [Methods.dZ_dT, Methods.dZ_dP, Methods.dZ_dV, Methods.dP_drho, Methods.drho_dP, Methods.dT_drho,
      Methods.drho_dT, Methods.drho_dV_T, Methods.drho_dT_V, e1, e2, Methods.dV_dT, Methods.dT_dP, temp, vol, rho]
    field_simp
    try ring

/-- **C61.** The second derivatives are the derivatives of the first ones: of temperature and volume, with
both orders of the mixed ones, and of the density. -/
theorem C61_second (h : Mech m T V) :
    Part m.dV_dP m.P temp (m.d2V_dP2 T V) T V ∧ Part m.dT_dP m.P vol (m.d2T_dP2 T V) T V ∧
    Part m.dT_dV vol m.P (m.d2T_dV2 T V) T V ∧ Part m.dV_dT temp m.P (m.d2V_dT2 T V) T V ∧
    Part m.dV_dP temp m.P (m.d2V_dPdT T V) T V ∧ Part m.dV_dT m.P temp (m.d2V_dPdT T V) T V ∧
    Part m.dT_dP vol m.P (m.d2T_dPdV T V) T V ∧ Part m.dT_dV m.P vol (m.d2T_dPdV T V) T V ∧
    Part m.dP_dT vol temp (m.d2P_dTdV T V) T V ∧ Part m.dP_dV temp vol (m.d2P_dTdV T V) T V ∧
    Part m.dP_drho rho temp (m.d2P_drho2 T V) T V ∧ Part m.drho_dP m.P temp (m.d2rho_dP2 T V) T V ∧
    Part m.dT_drho rho m.P (m.d2T_drho2 T V) T V ∧ Part m.drho_dT temp m.P (m.d2rho_dT2 T V) T V ∧
    Part m.dP_dT rho temp (m.d2P_dTdrho T V) T V ∧ Part m.dP_drho temp rho (m.d2P_dTdrho T V) T V ∧
    Part m.dT_dP rho m.P (m.d2T_dPdrho T V) T V ∧ Part m.dT_drho m.P rho (m.d2T_dPdrho T V) T V ∧
    Part m.drho_dP temp m.P (m.d2rho_dPdT T V) T V ∧ Part m.drho_dT m.P temp (m.d2rho_dPdT T V) T V := by
  have h1 := h.neT; have h2 := h.neV; have hV := h.posV.ne'; have hT := h.posT.ne'; have hR := h.posR.ne'
  have kP := h.hP; have kT := tot_T T V; have kV := tot_V T V; have kr := tot_rho T hV
  obtain ⟨e1, e2⟩ := eqs_dV_dT h
  have k0 := Total.const 0 T V
  have kVV : Total (fun _ V : ℝ => V * V) _ _ T V := kV.mul kV
  have hVV : V * V ≠ 0 := mul_ne_zero hV hV
  have kPr : Total m.dP_drho _ _ T V := (((k0.sub kV).mul kV).mul h.hPV).congr_fun fun T V => by
    simp only [Methods.dP_drho, vol, zero_sub]
  have krP : Total m.drho_dP _ _ T V := ((k0.sub (tot_dV_dP h)).div kVV hVV).congr_fun fun T V => by
    simp only [Methods.drho_dP, zero_sub]
  have kTr : Total m.dT_drho _ _ T V := (((k0.sub kV).mul kV).mul (tot_dT_dV h)).congr_fun fun T V => by
    simp only [Methods.dT_drho, vol, zero_sub]
  have krT : Total m.drho_dT _ _ T V := ((k0.sub (tot_dV_dT h)).div kVV hVV).congr_fun fun T V => by
    simp only [Methods.drho_dT, zero_sub]
  have hr : (0 : ℝ) ≠ 0 ∨ -1 / (V * V) ≠ 0 := .inr (div_ne_zero (by norm_num) hVV)
  refine ⟨(part_iff (tot_dV_dP h) kP kT (.inl one_ne_zero)).2 ?_, (part_iff (tot_dT_dP h) kP kV (.inr one_ne_zero)).2 ?_,
    (part_iff (tot_dT_dV h) kV kP (.inl h1)).2 ?_, (part_iff (tot_dV_dT h) kT kP (.inl h1)).2 ?_,
    (part_iff (tot_dV_dP h) kT kP (.inl h1)).2 ?_, (part_iff (tot_dV_dT h) kP kT (.inl one_ne_zero)).2 ?_,
    (part_iff (tot_dT_dP h) kV kP (.inl h1)).2 ?_, (part_iff (tot_dT_dV h) kP kV (.inr one_ne_zero)).2 ?_,
    (part_iff h.hPT kV kT (.inl one_ne_zero)).2 ?_, (part_iff h.hPV kT kV (.inr one_ne_zero)).2 ?_,
    (part_iff kPr kr kT (.inl one_ne_zero)).2 ?_, (part_iff krP kP kT (.inl one_ne_zero)).2 ?_,
    (part_iff kTr kr kP (.inl h1)).2 ?_, (part_iff krT kT kP (.inl h1)).2 ?_,
    (part_iff h.hPT kr kT (.inl one_ne_zero)).2 ?_, (part_iff kPr kT kr hr).2 ?_,
    (part_iff (tot_dT_dP h) kr kP (.inl h1)).2 ?_, (part_iff kTr kP kr hr).2 ?_,
    (part_iff krP kT kP (.inl h1)).2 ?_, (part_iff krT kP kT (.inl one_ne_zero)).2 ?_⟩
  all_goals
    try simp only [Methods.d2V_dP2, Methods.d2T_dP2, Methods.d2T_dV2, Methods.d2V_dT2, Methods.d2V_dPdT, Methods.d2T_dPdV,
      Methods.d2P_drho2, Methods.d2rho_dP2, Methods.d2T_drho2, Methods.d2rho_dT2, Methods.d2P_dTdrho,
      Methods.d2T_dPdrho, Methods.d2rho_dPdT, e1, e2, Methods.dV_dT, Methods.dT_dP, temp, vol]
    field_simp
    try ring

/-- **C61.** Expansion coefficient, compressibility, bulk modulus and their derivatives. -/
theorem C61_compressibility (h : Mech m T V) :
    Part (fun _ V => Real.log V) temp m.P (m.isobaric_expansion T V) T V ∧
    Part (fun _ V => -Real.log V) m.P temp (m.kappa T V) T V ∧
    Part m.P rho temp (m.isothermal_bulk_modulus T V * V) T V ∧
    Part m.kappa temp m.P (m.dkappa_dT T V) T V ∧
    Part m.isobaric_expansion temp m.P (m.disobaric_expansion_dT T V) T V ∧
    Part m.isobaric_expansion m.P temp (m.disobaric_expansion_dP T V) T V ∧
    Part m.kappa temp m.P (-m.disobaric_expansion_dP T V) T V := by
  have h1 := h.neT; have h2 := h.neV; have hV := h.posV.ne'; have hT := h.posT.ne'
  have kP := h.hP; have kT := tot_T T V; have kV := tot_V T V; have kr := tot_rho T hV
  obtain ⟨e1, e2⟩ := eqs_dV_dT h
  have k0 := Total.const 0 T V
  have kl := kV.log hV
  have kb : Total m.isobaric_expansion _ _ T V := (tot_dV_dT h).div kV hV
  have kk : Total m.kappa _ _ T V := ((Total.const (-1) T V).div kV hV).mul (tot_dV_dP h)
  have knl : Total (fun _ V => -Real.log V) _ _ T V := (k0.sub kl).congr_fun fun T V => by simp only [vol, zero_sub]
  refine ⟨(part_iff kl kT kP (.inl h1)).2 ?_, (part_iff knl kP kT (.inl one_ne_zero)).2 ?_,
    (part_iff kP kr kT (.inl one_ne_zero)).2 ?_, (part_iff kk kT kP (.inl h1)).2 ?_,
    (part_iff kb kT kP (.inl h1)).2 ?_, (part_iff kb kP kT (.inl one_ne_zero)).2 ?_,
    (part_iff kk kT kP (.inl h1)).2 ?_⟩
  all_goals
    simp only [Methods.isothermal_bulk_modulus, Methods.isobaric_expansion, Methods.kappa, Methods.dkappa_dT,
      Methods.disobaric_expansion_dT, Methods.disobaric_expansion_dP, Methods.d2V_dT2, Methods.d2V_dPdT, e1, e2,
      Methods.dV_dT, Methods.dT_dP, temp, vol]
    field_simp
    try ring

/-- Enthalpy and entropy differentials of a subclass that keeps its promises. -/
theorem Caloric.totals (h : Mech m T V) (k : Caloric m T V) :
    Total m.H (m.dH_dT_V T V) (m.dH_dP T V * m.dP_dV T V) T V ∧
    Total m.S (m.dS_dT_V T V) (m.dS_dP T V * m.dP_dV T V) T V ∧
    m.dH_dT T V = m.dH_dT_V T V - m.dH_dP T V * m.dP_dT T V ∧ m.dH_dP_V T V = m.dH_dT_V T V / m.dP_dT T V ∧
    m.dH_dV_T T V = m.dH_dP T V * m.dP_dV T V ∧
    m.dS_dT T V = m.dS_dT_V T V - m.dS_dP T V * m.dP_dT T V ∧ m.dS_dP_V T V = m.dS_dT_V T V / m.dP_dT T V := by
  have h1 := h.neT; have h2 := h.neV
  have kP := h.hP; have kT := tot_T T V; have kV := tot_V T V
  obtain ⟨hT, hV, kH⟩ := k.difH
  obtain ⟨sT, sV, kS⟩ := k.difS
  have a1 := (part_iff kH kT kP (.inl h1)).1 k.H_T_P
  have a2 := (part_iff kH kP kT (.inl one_ne_zero)).1 k.H_P_T
  have a3 := (part_iff kH kT kV (.inr one_ne_zero)).1 k.H_T_V
  have a4 := (part_iff kH kP kV (.inr one_ne_zero)).1 k.H_P_V
  have a5 := (part_iff kH kV kT (.inl one_ne_zero)).1 k.H_V_T
  have b1 := (part_iff kS kT kP (.inl h1)).1 k.S_T_P
  have b2 := (part_iff kS kP kT (.inl one_ne_zero)).1 k.S_P_T
  have b3 := (part_iff kS kT kV (.inr one_ne_zero)).1 k.S_T_V
  have b4 := (part_iff kS kP kV (.inr one_ne_zero)).1 k.S_P_V
  have c1 : m.dH_dT_V T V = hT := by linear_combination a3
  have c2 : m.dH_dP T V * m.dP_dV T V = hV := by linear_combination -a2
  have d1 : m.dS_dT_V T V = sT := by linear_combination b3
  have d2 : m.dS_dP T V * m.dP_dV T V = sV := by linear_combination -b2
  refine ⟨kH.congr c1 c2, kS.congr d1 d2, ?_, ?_, ?_, ?_, ?_⟩
  · refine mul_right_cancel₀ h2 ?_; rw [c1]; linear_combination a1 + m.dP_dT T V * c2
  · rw [eq_div_iff h1, c1]; linear_combination a4
  · rw [c2]; linear_combination -a5
  · refine mul_right_cancel₀ h2 ?_; rw [d1]; linear_combination b1 + m.dP_dT T V * d2
  · rw [eq_div_iff h1, d1]; linear_combination b4

theorem tot_G (h : Mech m T V) (k : Caloric m T V) : Total m.G (m.dH_dT_V T V - m.S T V - T * m.dS_dT_V T V)
    (m.dH_dP T V * m.dP_dV T V - T * (m.dS_dP T V * m.dP_dV T V)) T V := by
  obtain ⟨kH, kS, -⟩ := k.totals h
  exact (kH.sub ((tot_T T V).mul kS)).congr (by simp only [temp]; ring) (by simp only [temp]; ring)

theorem tot_U (h : Mech m T V) (k : Caloric m T V) : Total m.U (m.dH_dT_V T V - m.dP_dT T V * V)
    (m.dH_dP T V * m.dP_dV T V - m.dP_dV T V * V - m.P T V) T V := by
  obtain ⟨kH, kS, -⟩ := k.totals h
  exact (kH.sub (h.hP.mul (tot_V T V))).congr (by simp only [vol]; ring) (by simp only [vol]; ring)

theorem tot_A (h : Mech m T V) (k : Caloric m T V) : Total m.A
    (m.dH_dT_V T V - m.dP_dT T V * V - m.S T V - T * m.dS_dT_V T V)
    (m.dH_dP T V * m.dP_dV T V - m.dP_dV T V * V - m.P T V - T * (m.dS_dP T V * m.dP_dV T V)) T V := by
  obtain ⟨kH, kS, -⟩ := k.totals h
  exact ((tot_U h k).sub ((tot_T T V).mul kS)).congr (by simp only [temp]; ring) (by simp only [temp]; ring)

/-- **C61.** The derivatives of Gibbs energy, internal energy, Helmholtz energy and entropy by two of
temperature, pressure and volume, at every constant third. -/
theorem C61_energy (h : Mech m T V) (k : Caloric m T V) :
    (Part m.G temp m.P (m.dG_dT T V) T V ∧ Part m.G temp vol (m.dG_dT_V T V) T V ∧
      Part m.G m.P temp (m.dG_dP T V) T V ∧ Part m.G m.P vol (m.dG_dP_V T V) T V ∧
      Part m.G vol temp (m.dG_dV_T T V) T V ∧ Part m.G vol m.P (m.dG_dV_P T V) T V) ∧
    (Part m.U temp m.P (m.dU_dT T V) T V ∧ Part m.U temp vol (m.dU_dT_V T V) T V ∧
      Part m.U m.P temp (m.dU_dP T V) T V ∧ Part m.U m.P vol (m.dU_dP_V T V) T V ∧
      Part m.U vol temp (m.dU_dV_T T V) T V ∧ Part m.U vol m.P (m.dU_dV_P T V) T V) ∧
    (Part m.A temp m.P (m.dA_dT T V) T V ∧ Part m.A temp vol (m.dA_dT_V T V) T V ∧
      Part m.A m.P temp (m.dA_dP T V) T V ∧ Part m.A m.P vol (m.dA_dP_V T V) T V ∧
      Part m.A vol temp (m.dA_dV_T T V) T V ∧ Part m.A vol m.P (m.dA_dV_P T V) T V) ∧
    Part m.S vol temp (m.dS_dV_T T V) T V ∧ Part m.S vol m.P (m.dS_dV_P T V) T V := by
  have h1 := h.neT; have h2 := h.neV
  have kP := h.hP; have kT := tot_T T V; have kV := tot_V T V
  obtain ⟨kH, kS, c1, c2, c3, d1, d2⟩ := k.totals h
  have kG := tot_G h k; have kU := tot_U h k; have kA := tot_A h k
  obtain ⟨e1, e2⟩ := eqs_dV_dT h
  refine ⟨⟨(part_iff kG kT kP (.inl h1)).2 ?_, (part_iff kG kT kV (.inr one_ne_zero)).2 ?_,
    (part_iff kG kP kT (.inl one_ne_zero)).2 ?_, (part_iff kG kP kV (.inr one_ne_zero)).2 ?_,
    (part_iff kG kV kT (.inl one_ne_zero)).2 ?_, (part_iff kG kV kP (.inl h1)).2 ?_⟩,
    ⟨(part_iff kU kT kP (.inl h1)).2 ?_, (part_iff kU kT kV (.inr one_ne_zero)).2 ?_,
    (part_iff kU kP kT (.inl one_ne_zero)).2 ?_, (part_iff kU kP kV (.inr one_ne_zero)).2 ?_,
    (part_iff kU kV kT (.inl one_ne_zero)).2 ?_, (part_iff kU kV kP (.inl h1)).2 ?_⟩,
    ⟨(part_iff kA kT kP (.inl h1)).2 ?_, (part_iff kA kT kV (.inr one_ne_zero)).2 ?_,
    (part_iff kA kP kT (.inl one_ne_zero)).2 ?_, (part_iff kA kP kV (.inr one_ne_zero)).2 ?_,
    (part_iff kA kV kT (.inl one_ne_zero)).2 ?_, (part_iff kA kV kP (.inl h1)).2 ?_⟩,
    (part_iff kS kV kT (.inl one_ne_zero)).2 ?_, (part_iff kS kV kP (.inl h1)).2 ?_⟩
  all_goals
    simp only [Methods.dG_dV_T, Methods.dG_dV_P, Methods.dG_dT, Methods.dG_dT_V, Methods.dG_dP, Methods.dG_dP_V,
      Methods.dU_dV_T, Methods.dU_dV_P, Methods.dU_dT, Methods.dU_dT_V, Methods.dU_dP, Methods.dU_dP_V,
      Methods.dA_dV_T, Methods.dA_dV_P, Methods.dA_dT, Methods.dA_dT_V, Methods.dA_dP, Methods.dA_dP_V,
      Methods.dU_dT, Methods.dU_dP, Methods.dS_dV_T, Methods.dS_dV_P, c1, c2, d1, d2, e1, e2, Methods.dV_dT,
      Methods.dT_dP]
    field_simp
    try ring

/-- **C61.** The generated derivatives of temperature, pressure, volume and density by each other at constant
enthalpy, entropy, Gibbs, internal or Helmholtz energy, wherever the second variable changes on those curves. -/
theorem C61_generated (h : Mech m T V) (k : Caloric m T V) (a b : Methods.Prop1) (c : Methods.Const1)
    (h0 : m.dV_T T V b * m.cT_V T V c - m.dT_V T V b * m.cV_T T V c ≠ 0) :
    Part (m.val a) (m.val b) (m.cval c) (m.generated T V a b c) T V := by
  obtain ⟨kH, kS, c1, c2, c3, d1, d2⟩ := k.totals h
  obtain ⟨e1, e2⟩ := eqs_dV_dT h
  have h2 := h.neV
  have tv : ∀ a, Total (m.val a) (m.dT_V T V a) (m.dV_T T V a) T V := fun a => by
    cases a with
    | T => exact tot_T T V
    | P => exact h.hP
    | V => exact tot_V T V
    | rho => exact tot_rho T h.posV.ne'
  have tc : Total (m.cval c) (m.cT_V T V c) (m.cV_T T V c) T V := by
    cases c with
    | H => exact kH.congr rfl c3
    | S => exact kS
    | G =>
      refine (tot_G h k).congr ?_ ?_
      · simp only [Methods.cT_V, Methods.dG_dT_V]; ring
      · simp only [Methods.cV_T, Methods.dG_dV_T, Methods.dG_dP]; ring
    | U =>
      refine (tot_U h k).congr ?_ ?_
      · simp only [Methods.cT_V, Methods.dU_dT_V]; ring
      · simp only [Methods.cV_T, Methods.dU_dV_T, Methods.dU_dP, e1]; field_simp; ring
    | A =>
      refine (tot_A h k).congr ?_ ?_
      · simp only [Methods.cT_V, Methods.dA_dT_V]; ring
      · simp only [Methods.cV_T, Methods.dA_dV_T, Methods.dA_dP, Methods.dU_dP, e1]; field_simp; ring
  have hc : m.cT_V T V c ≠ 0 ∨ m.cV_T T V c ≠ 0 := by
    by_contra hn
    push Not at hn
    exact h0 (by rw [hn.1, hn.2]; ring)
  refine (part_iff (tv a) (tv b) tc hc).2 ?_
  simp only [Methods.generated, Methods.derivs_jacobian]
  rw [div_mul_eq_mul_div, div_eq_iff h0]
  ring

end

/-! ## C62: heat capacities, sound, expansion -/

namespace Methods

variable (m : Methods) (T V : ℝ)

/-- `Cv` (2371-2373) with `Cp_minus_Cv` of `chemicals`. -/
noncomputable def Cv : ℝ :=
  let Cp_m_Cv := -T * m.dP_dT T V * m.dP_dT T V / m.dP_dV T V
  m.Cp T V - Cp_m_Cv

/-- `Joule_Thomson` (3233) with the formula of `chemicals` for a given `dV_dT`. -/
noncomputable def Joule_Thomson : ℝ := (T * m.dV_dT T V - V) / m.Cp T V

/-- `speed_of_sound` (3255) with the formula of `chemicals`. -/
noncomputable def speed_of_sound : ℝ := √(-V * V * m.dP_dV T V * m.Cp T V / m.Cv T V)

/-- `isentropic_exponent_PV` (2612), `isentropic_exponent_PT` (2632), `isentropic_exponent_TV` (2650). -/
noncomputable def isentropic_exponent_PV : ℝ := -V / m.P T V * (m.Cp T V / m.Cv T V) * m.dP_dV T V
@[inherit_doc isentropic_exponent_PV] noncomputable def isentropic_exponent_PT : ℝ :=
  1 / (1 - m.P T V / m.Cp T V * m.dV_dT T V)
@[inherit_doc isentropic_exponent_PV] noncomputable def isentropic_exponent_TV : ℝ :=
  1 + V / m.Cv T V * m.dP_dT T V

/-- `dCv_dT_P` (2400-2409). -/
noncomputable def dCv_dT_P : ℝ :=
  let x0 := m.dP_dT T V
  let x1 := x0 * x0
  let x2 := m.dP_dV T V
  let x3 := 1 / x2
  let x50 := m.d2P_dT2_PV T V
  let x51 := m.d2P_dVdT_TP T V
  let x52 := m.d2H_dT2 T V
  2 * T * x0 * x3 * x50 - T * x1 * x51 * x3 * x3 + x1 * x3 + x52

/-- `dCv_dP_T` (2432-2438). -/
noncomputable def dCv_dP_T : ℝ :=
  -T * m.dP_dT T V * m.d2V_dPdT T V - T * m.dV_dT T V * m.d2P_dTdP T V + m.d2H_dTdP T V

/-- `dspeed_of_sound_dT_P` (5020-5033), `dspeed_of_sound_dP_T` (5074-5087): the same formula in four
derivatives. -/
noncomputable def dspeed (x50 x51 x52 x53 : ℝ) : ℝ :=
  let x0 := m.Cp T V
  let x1 := V
  let x2 := m.dP_dV T V
  let x3 := m.Cv T V
  let x4 := x0 * x2
  let x5 := x4 / x3
  let x6 := 1 / 2 * x1
  √(-x1 * x1 * x5) * (x0 * x6 * x50 + x2 * x6 * x51 + x4 * x52 - x5 * x6 * x53) / (x0 * x1 * x2)
@[inherit_doc dspeed] noncomputable def dspeed_of_sound_dT_P : ℝ :=
  m.dspeed T V (m.d2P_dVdT_TP T V) (m.d2H_dT2 T V) (m.dV_dT T V) (m.dCv_dT_P T V)
@[inherit_doc dspeed] noncomputable def dspeed_of_sound_dP_T : ℝ :=
  m.dspeed T V (m.d2P_dVdP T V) (m.d2H_dTdP T V) (m.dV_dP T V) (m.dCv_dP_T T V)

end Methods

/-- The supplied enthalpy and entropy derivatives obey the relations of thermodynamics to the heat capacity and the
equation of state. -/
structure Consistent (m : Methods) (T V : ℝ) : Prop where
  HT : m.dH_dT T V = m.Cp T V
  HP : m.dH_dP T V = V - T * m.dV_dT T V
  ST : m.dS_dT T V = m.Cp T V / T
  SP : m.dS_dP T V = -m.dV_dT T V

/-- The supplied second derivatives are derivatives of the first ones. -/
structure Second (m : Methods) (T V : ℝ) : Prop where
  difCp : ∃ cT cV, Total m.Cp cT cV T V
  Cp_T : Part m.Cp temp m.P (m.d2H_dT2 T V) T V
  Cp_P : Part m.Cp m.P temp (m.d2H_dTdP T V) T V
  PT_T : Part m.dP_dT temp m.P (m.d2P_dT2_PV T V) T V
  PT_P : Part m.dP_dT m.P temp (m.d2P_dTdP T V) T V
  PV_T : Part m.dP_dV temp m.P (m.d2P_dVdT_TP T V) T V
  PV_P : Part m.dP_dV m.P temp (m.d2P_dVdP T V) T V

section
variable {m : Methods} {T V : ℝ}

/-- Differentials of enthalpy, internal energy and entropy in temperature and volume. -/
theorem Consistent.diffs (h : Mech m T V) (k : Caloric m T V) (c : Consistent m T V) :
    Total m.H (m.Cv T V + V * m.dP_dT T V) (V * m.dP_dV T V + T * m.dP_dT T V) T V ∧
    Total m.U (m.Cv T V) (T * m.dP_dT T V - m.P T V) T V ∧
    Total m.S (m.Cv T V / T) (m.dP_dT T V) T V := by
  have h1 := h.neT; have h2 := h.neV; have hT := h.posT.ne'
  obtain ⟨kH, kS, c1, c2, c3, d1, d2⟩ := k.totals h
  have kU := tot_U h k
  have x1 : m.dH_dT_V T V = m.Cv T V + V * m.dP_dT T V := by
    have := c1; rw [c.HT, c.HP] at this
    simp only [Methods.Cv, Methods.dV_dT] at this ⊢
    rw [this]; field_simp; ring
  have x2 : m.dH_dP T V * m.dP_dV T V = V * m.dP_dV T V + T * m.dP_dT T V := by
    rw [c.HP]; simp only [Methods.dV_dT]; field_simp; ring
  have x3 : m.dS_dT_V T V = m.Cv T V / T := by
    have := d1; rw [c.ST, c.SP] at this
    simp only [Methods.Cv, Methods.dV_dT] at this ⊢
    have e : m.dS_dT_V T V = m.Cp T V / T + -(-m.dP_dT T V / m.dP_dV T V) * m.dP_dT T V := by linear_combination -this
    rw [e]; field_simp; ring
  have x4 : m.dS_dP T V * m.dP_dV T V = m.dP_dT T V := by
    rw [c.SP]; simp only [Methods.dV_dT]; field_simp
  refine ⟨kH.congr x1.symm x2.symm, kU.congr ?_ ?_, kS.congr x3.symm x4.symm⟩
  · rw [x1]; ring
  · rw [x2]; ring

/-- **C62.** The fundamental relations: the code's derivatives of the energies reduce to entropy, volume,
pressure; temperature and pressure are the derivatives of the energies by entropy and volume. -/
theorem C62_fundamental (h : Mech m T V) (k : Caloric m T V) (c : Consistent m T V) (hc : m.Cv T V ≠ 0)
    (hp : m.Cp T V ≠ 0) :
    m.dG_dT T V = -m.S T V ∧ m.dG_dP T V = V ∧ m.dA_dT_V T V = -m.S T V ∧ m.dA_dV_T T V = -m.P T V ∧
    m.dU_dV_T T V = T * m.dP_dT T V - m.P T V ∧ m.dU_dT_V T V = m.Cv T V ∧ m.dH_dT T V = m.Cp T V ∧
    Part m.U m.S vol T T V ∧ Part m.U vol m.S (-m.P T V) T V ∧ Part m.H m.S m.P T T V ∧ Part m.H m.P m.S V T V := by
  have h1 := h.neT; have h2 := h.neV; have hT := h.posT.ne'
  obtain ⟨kH, kU, kS⟩ := c.diffs h k
  obtain ⟨kH', kS', c1, c2, c3, d1, d2⟩ := k.totals h
  obtain ⟨e1, e2⟩ := eqs_dV_dT h
  have e0 : m.Cv T V = m.Cp T V + T * m.dP_dT T V * m.dP_dT T V / m.dP_dV T V := by
    simp only [Methods.Cv]; ring
  have x1 : m.dH_dT_V T V = m.Cp T V + (V - T * m.dV_dT T V) * m.dP_dT T V := by
    have := c1; rw [c.HT, c.HP] at this; linear_combination -this
  have x3 : m.dS_dT_V T V = m.Cp T V / T - m.dV_dT T V * m.dP_dT T V := by
    have := d1; rw [c.ST, c.SP] at this; linear_combination -this
  have x5 : m.dU_dT_V T V = m.Cv T V := by
    simp only [Methods.dU_dT_V, x1, e0, Methods.dV_dT]; field_simp; ring
  refine ⟨?_, ?_, ?_, ?_, ?_, x5, c.HT, (part_iff kU kS (tot_V T V) (.inr one_ne_zero)).2 ?_,
    (part_iff kU (tot_V T V) kS (.inr h1)).2 ?_, (part_iff kH kS h.hP (.inl h1)).2 ?_, (part_iff kH h.hP kS (.inr h1)).2 ?_⟩
  · simp only [Methods.dG_dT, c.ST, c.HT]; field_simp; ring
  · simp only [Methods.dG_dP, c.SP, c.HP]; ring
  · simp only [Methods.dA_dT_V, x1, x3]; field_simp; ring
  · simp only [Methods.dA_dV_T, Methods.dA_dP, Methods.dU_dP, c.SP, c.HP, e1]; field_simp; ring
  · simp only [Methods.dU_dV_T, Methods.dU_dP, c.HP, e1, Methods.dV_dT]; field_simp; ring
  · field_simp; ring
  · field_simp; ring
  · field_simp; ring
  · field_simp; ring

/-- **C62.** `Cv` is the derivative of the internal energy by temperature at constant volume (and `T dS/dT`), the
Joule-Thomson coefficient that of temperature by pressure at constant enthalpy. -/
theorem C62_heat_capacity (h : Mech m T V) (k : Caloric m T V) (c : Consistent m T V) (hp : m.Cp T V ≠ 0) :
    Part m.U temp vol (m.Cv T V) T V ∧ Part m.S temp vol (m.Cv T V / T) T V ∧
    Part m.H temp m.P (m.Cp T V) T V ∧ Part m.S temp m.P (m.Cp T V / T) T V ∧
    Part temp m.P m.H (m.Joule_Thomson T V) T V := by
  have h1 := h.neT; have h2 := h.neV; have hT := h.posT.ne'
  obtain ⟨kH, kU, kS⟩ := c.diffs h k
  have e0 : m.Cv T V = m.Cp T V + T * m.dP_dT T V * m.dP_dT T V / m.dP_dV T V := by
    simp only [Methods.Cv]; ring
  have hne : m.Cv T V + V * m.dP_dT T V ≠ 0 ∨ V * m.dP_dV T V + T * m.dP_dT T V ≠ 0 := by
    by_contra hn
    push Not at hn
    refine hp ?_
    rw [e0] at hn
    have a := hn.1; have b := hn.2
    field_simp at a
    have : m.dP_dV T V * m.Cp T V = 0 := by linear_combination a - m.dP_dT T V * b
    exact (mul_eq_zero.mp this).resolve_left h2
  refine ⟨(part_iff kU (tot_T T V) (tot_V T V) (.inr one_ne_zero)).2 ?_,
    (part_iff kS (tot_T T V) (tot_V T V) (.inr one_ne_zero)).2 ?_,
    (part_iff kH (tot_T T V) h.hP (.inl h1)).2 ?_, (part_iff kS (tot_T T V) h.hP (.inl h1)).2 ?_,
    (part_iff (tot_T T V) h.hP kH hne).2 ?_⟩
  · ring
  · ring
  · rw [e0]; field_simp; ring
  · rw [e0]; field_simp; ring
  · simp only [Methods.Joule_Thomson, Methods.dV_dT, e0]; field_simp; ring

/-- **C62.** The square of the speed of sound is the derivative of pressure by (molar) density at constant
entropy, for a stable state; the three isentropic exponents describe the isentropes in their variables. -/
theorem C62_isentropic (h : Mech m T V) (k : Caloric m T V) (c : Consistent m T V) (hp : 0 < m.Cp T V)
    (hc : 0 < m.Cv T V) (hst : m.dP_dV T V < 0) (hP : 0 < m.P T V) (hk : m.Cp T V ≠ m.P T V * m.dV_dT T V) :
    Part m.P rho m.S (m.speed_of_sound T V ^ 2) T V ∧
    Part (fun T V => Real.log (m.P T V)) (fun _ V => Real.log V) m.S (-m.isentropic_exponent_PV T V) T V ∧
    Part (fun T _ => Real.log T) (fun T V => Real.log (m.P T V)) m.S
      (-(1 - m.isentropic_exponent_PT T V) / m.isentropic_exponent_PT T V) T V ∧
    Part (fun T _ => Real.log T) (fun _ V => Real.log V) m.S (1 - m.isentropic_exponent_TV T V) T V := by
  have h1 := h.neT; have h2 := h.neV; have hT := h.posT; have hV := h.posV
  obtain ⟨kH, kU, kS⟩ := c.diffs h k
  have e0 : m.Cp T V = m.Cv T V - T * m.dP_dT T V * m.dP_dT T V / m.dP_dV T V := by
    simp only [Methods.Cv]; ring
  have kp : Total (fun T V => Real.log (m.P T V)) _ _ T V := h.hP.log hP.ne'
  have kv : Total (fun _ V => Real.log V) _ _ T V := (tot_V T V).log hV.ne'
  have kt : Total (fun T _ => Real.log T) _ _ T V := (tot_T T V).log hT.ne'
  have hsq : 0 ≤ -V * V * m.dP_dV T V * m.Cp T V / m.Cv T V := by
    have : 0 ≤ V * V * (-m.dP_dV T V) * m.Cp T V / m.Cv T V := by
      have : 0 < -m.dP_dV T V := neg_pos.mpr hst
      positivity
    linarith [show -V * V * m.dP_dV T V * m.Cp T V / m.Cv T V = V * V * (-m.dP_dV T V) * m.Cp T V / m.Cv T V by ring]
  refine ⟨(part_iff h.hP (tot_rho T hV.ne') kS (.inr h1)).2 ?_, (part_iff kp kv kS (.inr h1)).2 ?_,
    (part_iff kt kp kS (.inr h1)).2 ?_, (part_iff kt kv kS (.inr h1)).2 ?_⟩
  · rw [Methods.speed_of_sound, Real.sq_sqrt hsq, e0]; field_simp; ring
  · simp only [Methods.isentropic_exponent_PV, vol, e0]; field_simp; ring
  · have e : -(1 - m.isentropic_exponent_PT T V) / m.isentropic_exponent_PT T V = m.P T V / m.Cp T V * m.dV_dT T V := by
      have hne : 1 - m.P T V / m.Cp T V * m.dV_dT T V ≠ 0 := by
        intro h0
        refine hk ?_
        have hp' := hp.ne'
        field_simp at h0
        linarith
      simp only [Methods.isentropic_exponent_PT]
      field_simp
      ring
    rw [e]
    have hp' := hp.ne'; have hc' := hc.ne'
    simp only [temp, Methods.dV_dT]
    have e3 : m.Cv T V = m.Cp T V + T * m.dP_dT T V * m.dP_dT T V / m.dP_dV T V := by rw [e0]; ring
    rw [e3]
    field_simp
    ring
  · simp only [Methods.isentropic_exponent_TV, temp, vol]; field_simp; ring

/-- The square root of a positive differentiable function. -/
theorem tot_sqrt {X : ℝ → ℝ → ℝ} {xT xV T V : ℝ} (h : Total X xT xV T V) (h0 : 0 < X T V) :
    Total (fun T V => √(X T V)) (xT / (2 * √(X T V))) (xV / (2 * √(X T V))) T V := fun T' V' τ ν h1 h2 h3 h4 => by
  refine HasDerivAt.congr_deriv ((h T' V' τ ν h1 h2 h3 h4).sqrt (by rw [h1, h2]; exact h0.ne')) ?_
  simp only [h1, h2]
  ring

/-- **C62.** The derivatives of `Cv` and of the speed of sound by temperature at constant pressure and by pressure
at constant temperature. -/
theorem C62_second (h : Mech m T V) (s : Second m T V) :
    Part m.Cv temp m.P (m.dCv_dT_P T V) T V ∧ Part m.Cv m.P temp (m.dCv_dP_T T V) T V ∧
    (0 < m.Cp T V → 0 < m.Cv T V → m.dP_dV T V < 0 →
      Part m.speed_of_sound temp m.P (m.dspeed_of_sound_dT_P T V) T V ∧
      Part m.speed_of_sound m.P temp (m.dspeed_of_sound_dP_T T V) T V) := by
  have h1 := h.neT; have h2 := h.neV; have hT := h.posT; have hV := h.posV
  obtain ⟨cT, cV, kC⟩ := s.difCp
  have kT := tot_T T V; have kV := tot_V T V
  have o1 : (1 : ℝ) ≠ 0 ∨ (0 : ℝ) ≠ 0 := .inl one_ne_zero
  have q1 := (part_iff kC kT h.hP (.inl h1)).1 s.Cp_T
  have q2 := (part_iff kC h.hP kT o1).1 s.Cp_P
  have q3 := (part_iff h.hPT kT h.hP (.inl h1)).1 s.PT_T
  have q4 := (part_iff h.hPT h.hP kT o1).1 s.PT_P
  have q5 := (part_iff h.hPV kT h.hP (.inl h1)).1 s.PV_T
  have q6 := (part_iff h.hPV h.hP kT o1).1 s.PV_P
  simp only [one_mul, zero_mul, mul_zero, mul_one, sub_zero, zero_sub] at q1 q2 q3 q4 q5 q6
  have r1 : m.d2H_dT2 T V = (cT * m.dP_dV T V - cV * m.dP_dT T V) / m.dP_dV T V := by rw [eq_div_iff h2, q1]
  have r2 : m.d2H_dTdP T V = cV / m.dP_dV T V := by rw [eq_div_iff h2]; linear_combination -q2
  have r3 : m.d2P_dT2_PV T V = (m.d2P_dT2 T V * m.dP_dV T V - m.d2P_dTdV T V * m.dP_dT T V) / m.dP_dV T V := by
    rw [eq_div_iff h2, q3]
  have r4 : m.d2P_dTdP T V = m.d2P_dTdV T V / m.dP_dV T V := by rw [eq_div_iff h2]; linear_combination -q4
  have r5 : m.d2P_dVdT_TP T V = (m.d2P_dTdV T V * m.dP_dV T V - m.d2P_dV2 T V * m.dP_dT T V) / m.dP_dV T V := by
    rw [eq_div_iff h2, q5]
  have r6 : m.d2P_dVdP T V = m.d2P_dV2 T V / m.dP_dV T V := by rw [eq_div_iff h2]; linear_combination -q6
  obtain ⟨e1, e2⟩ := eqs_dV_dT h
  have kCv : Total m.Cv
      (cT + (m.dP_dT T V ^ 2 + 2 * T * m.dP_dT T V * m.d2P_dT2 T V) / m.dP_dV T V
        - T * m.dP_dT T V ^ 2 * m.d2P_dTdV T V / m.dP_dV T V ^ 2)
      (cV + 2 * T * m.dP_dT T V * m.d2P_dTdV T V / m.dP_dV T V
        - T * m.dP_dT T V ^ 2 * m.d2P_dV2 T V / m.dP_dV T V ^ 2) T V := by
    have k1 := ((((Total.const 0 T V).sub kT).mul h.hPT).mul h.hPT).div h.hPV h2
    refine (kC.sub k1).congr_fun (fun T V => ?_) |>.congr ?_ ?_
    · simp only [Methods.Cv, temp, zero_sub]
    · simp only [temp]; field_simp; ring
    · simp only [temp]; field_simp; ring
  have g1 : Part m.Cv temp m.P (m.dCv_dT_P T V) T V := by
    refine (part_iff kCv kT h.hP (.inl h1)).2 ?_
    simp only [Methods.dCv_dT_P, r1, r3, r5]
    field_simp
    ring
  have g2 : Part m.Cv m.P temp (m.dCv_dP_T T V) T V := by
    refine (part_iff kCv h.hP kT o1).2 ?_
    simp only [Methods.dCv_dP_T, r2, r4, Methods.d2V_dPdT, Methods.dV_dT]
    field_simp
    ring
  refine ⟨g1, g2, fun hp hc hst => ?_⟩
  have w1 := (part_iff kCv kT h.hP (.inl h1)).1 g1
  have w2 := (part_iff kCv h.hP kT o1).1 g2
  generalize hx : (cT + (m.dP_dT T V ^ 2 + 2 * T * m.dP_dT T V * m.d2P_dT2 T V) / m.dP_dV T V
        - T * m.dP_dT T V ^ 2 * m.d2P_dTdV T V / m.dP_dV T V ^ 2) = vT at *
  generalize hy : (cV + 2 * T * m.dP_dT T V * m.d2P_dTdV T V / m.dP_dV T V
        - T * m.dP_dT T V ^ 2 * m.d2P_dV2 T V / m.dP_dV T V ^ 2) = vV at *
  simp only [one_mul, zero_mul, mul_zero, mul_one, sub_zero, zero_sub] at w1 w2
  have r7 : m.dCv_dT_P T V = (vT * m.dP_dV T V - vV * m.dP_dT T V) / m.dP_dV T V := by rw [eq_div_iff h2, w1]
  have r8 : m.dCv_dP_T T V = vV / m.dP_dV T V := by rw [eq_div_iff h2]; linear_combination -w2
  have hsq : 0 < -V * V * m.dP_dV T V * m.Cp T V / m.Cv T V := by
    have h3 : 0 < -m.dP_dV T V := neg_pos.mpr hst
    have : 0 < V * V * (-m.dP_dV T V) * m.Cp T V / m.Cv T V := by positivity
    linarith [show -V * V * m.dP_dV T V * m.Cp T V / m.Cv T V = V * V * (-m.dP_dV T V) * m.Cp T V / m.Cv T V by ring]
  have hp' := hp.ne'; have hc' := hc.ne'; have hV' := hV.ne'
  have kin : Total (fun T V => -V * V * m.dP_dV T V * m.Cp T V / m.Cv T V) _ _ T V :=
    (((((Total.const 0 T V).sub kV).mul kV).mul h.hPV).mul kC).div kCv hc' |>.congr_fun fun T V => by
      simp only [vol, zero_sub]
  have kc : Total m.speed_of_sound _ _ T V := tot_sqrt kin hsq
  have hs : m.speed_of_sound T V ^ 2 = -V * V * m.dP_dV T V * m.Cp T V / m.Cv T V := Real.sq_sqrt hsq.le
  have hpos : 0 < m.speed_of_sound T V := Real.sqrt_pos.mpr hsq
  have es : √(-V * V * (m.Cp T V * m.dP_dV T V / m.Cv T V)) = m.speed_of_sound T V := by
    simp only [Methods.speed_of_sound]; congr 1; ring
  have es' : √(-V * V * m.dP_dV T V * m.Cp T V / m.Cv T V) = m.speed_of_sound T V := rfl
  have hs' : m.Cv T V * m.speed_of_sound T V ^ 2 = -V * V * m.dP_dV T V * m.Cp T V := by rw [hs]; field_simp
  refine ⟨(part_iff kc kT h.hP (.inl h1)).2 ?_, (part_iff kc h.hP kT o1).2 ?_⟩
  · simp only [Methods.dspeed_of_sound_dT_P, Methods.dspeed, es, es', r1, r5, r7, Methods.dV_dT, vol]
    generalize m.speed_of_sound T V = q at *
    have hq := hpos.ne'
    field_simp
    linear_combination ((V * (m.Cp T V * (m.d2P_dTdV T V * m.dP_dV T V - m.d2P_dV2 T V * m.dP_dT T V) +
      m.dP_dV T V * (m.dP_dV T V * cT - m.dP_dT T V * cV)) + -(m.Cp T V * 2 * m.dP_dV T V * m.dP_dT T V)) * m.Cv T V -
      m.Cp T V * V * m.dP_dV T V * (m.dP_dV T V * vT - m.dP_dT T V * vV)) * m.dP_dV T V * hs'
  · simp only [Methods.dspeed_of_sound_dP_T, Methods.dspeed, es, es', r2, r6, r8, e1, vol]
    generalize m.speed_of_sound T V = q at *
    have hq := hpos.ne'
    field_simp
    linear_combination ((V * (m.Cp T V * m.d2P_dV2 T V + m.dP_dV T V * cV) + m.Cp T V * 2 * m.dP_dV T V) * m.Cv T V -
      m.Cp T V * V * m.dP_dV T V * vV) * (-m.dP_dV T V) * hs'

end

end Verif.Phase
