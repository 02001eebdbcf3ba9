import Verif.Phases.IdealGas

/-!
# Phases from a cubic equation of state (`thermo/phases/ceos.py`, `IdealGasDeparturePhase` of `thermo/phases/phase.py`)

* C64: enthalpy, entropy and all their derivatives of `CEOSGas` and `CEOSLiquid` are consistent with each other and
  with the equation of state.

The phase reads the departure functions of its `eos_mix` and adds ideal gas sums. Composition derivatives
(`dH_dzs`, `dS_dzs`) are those of C41 and are not repeated. Caches are not modelled.
-/

namespace Verif.Phase

open Verif.Departure
open Filter Topology

/-! ## Model -/

/-- Reading an attribute: `try: return eos_mix.X_g; except AttributeError: return eos_mix.X_l` (`CEOSGas`,
605-877; `CEOSLiquid`, 892-1166, the other way around). An attribute of a root exists when the root does; `none` is
the second `AttributeError`. -/
def readRoot {α : Type} (first second : Option ℝ) (attr : ℝ → α) : Option α :=
  match first with
  | some V => some (attr V)
  | none => match second with
    | some V => some (attr V)
    | none => none

variable {N : ℕ}

/-- Gas constant of the equation of state and of the phase are the same number. -/
structure Ceos (N : ℕ) where
  /-- the equation of state at the composition of the phase -/
  f : Fluid
  /-- ideal gas part -/
  r : Ref N

namespace Ceos
variable (c : Ceos N) (T V : ℝ)

/-- `Cp_dep` (`eos.py` 1446). -/
noncomputable def Cp_dep : ℝ := T * pT c.f T V * V_T c.f T V + (c.f.main T (c.f.p T V) V).Cv_dep - c.f.R

/-- `dH_dep_dV_T` (`eos.py` 5606, 5618), `dH_dep_dV_P` (5630, 5642). -/
noncomputable def dH_dep_dV_T : ℝ :=
  dH_dep_dP T (c.f.p T V) V c.f.delta c.f.epsilon (c.f.a T) (c.f.a1 T) (V_P c.f T V) * pV c.f T V
@[inherit_doc dH_dep_dV_T] noncomputable def dH_dep_dV_P : ℝ :=
  dH_dep_dT c.f.R T (c.f.p T V) V c.f.delta c.f.epsilon (c.f.a T) (c.f.a1 T) (c.f.a2 T) (V_T c.f T V) * T_V c.f T V

/-- The methods of a phase at a root `V` of the equation of state. Lines of `phase.py`: `H` 5924-5937, `S`
5939-5961, `Cp`, `dH_dT` 5963-5979, `dH_dP` 5981-5987, `dH_dT_V` 5991-5994, `dH_dP_V` 5996-5999, `dH_dV_T` 6001-6002,
`dH_dV_P` 6004-6007, `d2H_dT2` 6009-6023, `dS_dT` 6048-6051, `dS_dP` 6053-6058, `dS_dT_V` 6063-6089, `dS_dP_V`
6092-6095. Lines of `ceos.py` (`CEOSGas`; `CEOSLiquid` is the same with the roots exchanged): pressure derivatives
737-773, `d2H_dTdP` 830-834, mixed derivatives 849-871. -/
noncomputable def phase : Methods where
  R := c.r.R
  P := c.f.p
  H T V := Hd c.f T V + c.r.H T
  S T V := 0 - c.r.R * (∑ i, c.r.zs i * Real.log (c.r.zs i)) + (∑ i, c.r.zs i * c.r.SI i T)
    - c.r.R * Real.log (c.f.p T V * (1 / c.r.Pref)) + Sd c.f T V
  Cp T V := c.r.Cp T + c.Cp_dep T V
  dP_dT := pT c.f
  dP_dV := pV c.f
  d2P_dT2 := pTT c.f
  d2P_dTdV := pTV c.f
  d2P_dV2 := pVV c.f
  dH_dT T V := c.r.Cp T + c.Cp_dep T V
  dH_dP T V := dH_dep_dP T (c.f.p T V) V c.f.delta c.f.epsilon (c.f.a T) (c.f.a1 T) (V_P c.f T V)
  dH_dT_V T V := c.r.Cp T + dH_dep_dT_V c.f.R T V c.f.delta c.f.epsilon (c.f.a2 T) (pT c.f T V)
  dH_dP_V T V := c.r.Cp T * (1 / pT c.f T V)
    + dH_dep_dP_V c.f.R T V c.f.delta c.f.epsilon (c.f.a1 T) (c.f.a2 T) (T_P c.f T V)
  dH_dV_T := c.dH_dep_dV_T
  dH_dV_P T V := -pV c.f T V * (1 / pT c.f T V) * c.r.Cp T + c.dH_dep_dV_P T V
  dS_dT T V := c.r.Cp T / T + dS_dep_dT c.f.R T V c.f.b c.f.delta c.f.epsilon (c.f.a1 T) (c.f.a2 T) (V_T c.f T V)
  dS_dP T V := 0 - c.r.R / c.f.p T V
    + dS_dep_dP c.f.R (c.f.p T V) V c.f.b c.f.delta c.f.epsilon (c.f.a1 T) (V_P c.f T V)
  dS_dT_V T V := c.r.Cp T / T - c.r.R / c.f.p T V * pT c.f T V
    + dS_dep_dT_V c.f.R T (c.f.p T V) V c.f.delta c.f.epsilon (c.f.a2 T) (pT c.f T V)
  dS_dP_V T V := -c.r.R / c.f.p T V + c.r.Cp T / T * (1 / pT c.f T V)
    + dS_dep_dP_V c.f.R T (c.f.p T V) V c.f.delta c.f.epsilon (c.f.a2 T) (T_P c.f T V)
  d2H_dT2 T V := c.r.dCp T + d2H_dep_dT2 T (c.f.p T V) V c.f.delta c.f.epsilon (c.f.a T) (c.f.a1 T) (c.f.a2 T)
    (c.f.a3 T) (V_T c.f T V) (V_TT c.f T V)
  d2H_dTdP T V := Departure.d2H_dep_dTdP T (c.f.p T V) V c.f.delta c.f.epsilon (c.f.a T) (c.f.a1 T) (c.f.a2 T)
    (V_T c.f T V) (V_P c.f T V) (V_PT c.f T V)
  d2P_dTdP T V := Departure.d2P_dTdP c.f.R V c.f.b c.f.delta c.f.epsilon (c.f.a1 T) (V_P c.f T V)
  d2P_dVdP T V := Departure.d2P_dVdP c.f.R T V c.f.b c.f.delta c.f.epsilon (c.f.a T) (V_P c.f T V)
  d2P_dVdT_TP T V := Departure.d2P_dVdT_TP c.f.R T V c.f.b c.f.delta c.f.epsilon (c.f.a T) (c.f.a1 T) (V_T c.f T V)
  d2P_dT2_PV T V := Departure.d2P_dT2_PV c.f.R V c.f.b c.f.delta c.f.epsilon (c.f.a1 T) (c.f.a2 T) (V_T c.f T V)

/-- `d2H_dT2_V` (`phase.py` 6025-6033). -/
noncomputable def d2H_dT2_V : ℝ :=
  c.r.dCp T + Departure.d2H_dep_dT2_V T V c.f.delta c.f.epsilon (c.f.a2 T) (c.f.a3 T) (pTT c.f T V)

end Ceos

/-- A state of the phase: a physical root of the equation of state and ideal gas functions that integrate. -/
structure Ceos.Ok (c : Ceos N) (T V : ℝ) : Prop where
  state : State c.f T V
  ref : c.r.Ok T
  R : c.f.R = c.r.R

/-! ## Tools -/

theorem Along.unique {X : ℝ → ℝ → ℝ} {T V T' V' d e : ℝ} (h : Along T V T' V' X d) (k : Along T V T' V' X e) : d = e :=
  (h (fun t => T + T' * t) (fun t => V + V' * t) (by simp) (by simp) (line _ _) (line _ _)).unique
    (k (fun t => T + T' * t) (fun t => V + V' * t) (by simp) (by simp) (line _ _) (line _ _))

section
variable {c : Ceos N} {T V : ℝ}

theorem p_cons (h : State c.f T V) : c.f.p T V + 1 / (V ^ 2 + c.f.delta * V + c.f.epsilon) * (c.f.a T - T * c.f.a1 T)
    = T * pT c.f T V := by
  have h1 := h.phys.off.b; have h2 := h.phys.off.q
  rw [pT_eq]
  simp only [Fluid.p, Cubic.pressure]
  generalize V ^ 2 + c.f.delta * V + c.f.epsilon = Q at *
  generalize V - c.f.b = B at *
  field_simp
  ring

/-- Cp_dep is the stored temperature derivative of the departure enthalpy, near the state. -/
theorem Cp_dep_near (h : State c.f T V) :
    ∀ᶠ q : ℝ × ℝ in 𝓝 (T, V), c.Cp_dep q.1 q.2 = Hd_T c.f q.1 q.2 := by
  filter_upwards [phys_near h.phys h.posV T] with q hq
  have h1 := hq.1.off.b; have h2 := hq.1.off.q
  rw [Hd_T_eq h.phys.disc hq.1]
  simp only [Ceos.Cp_dep, main_Cv hq.1]
  rw [pT_eq]
  simp only [Fluid.p, Cubic.pressure]
  generalize q.2 ^ 2 + c.f.delta * q.2 + c.f.epsilon = Q at *
  generalize q.2 - c.f.b = B at *
  field_simp
  ring

theorem ceos_mech (h : c.Ok T V) : Mech c.phase T V where
  posR := h.ref.posR
  posT := h.state.posT
  posV := h.state.posV
  hP := total_p h.state.smooth h.state.posT h.state.phys.off
  hPT := total_pT h.state.smooth h.state.posT h.state.phys.off
  hPV := total_pV h.state.smooth h.state.posT h.state.phys.off
  neT := h.state.hT
  neV := h.state.hV

theorem ceos_totals (h : c.Ok T V) :
    Total c.phase.H (hard c.f V * (T * c.f.a2 T) - c.r.R + pT c.f T V * V + c.r.Cp T)
      (V * pV c.f T V + T * pT c.f T V) T V ∧
    Total c.phase.S (c.r.Cp T / T - c.r.R / T + c.f.a2 T * hard c.f V) (pT c.f T V) T V := by
  have hs := h.state
  have hT := hs.posT; have hP := hs.posP
  have kp := total_p hs.smooth hs.posT hs.phys.off
  have kH := total_Hd hs
  have kS := total_Sd hs
  have e := p_cons hs
  rw [h.R] at kH kS
  constructor
  · refine (kH.add (tot_HI h.ref V)).congr (by ring) ?_
    linear_combination (-1 : ℝ) * e
  · have h1 := hs.phys.off.b; have h2 := hs.phys.off.q
    have k := (tot_S h.ref kp hP).add kS
    refine (k.congr_fun fun T V => ?_).congr ?_ ?_
    · simp only [Ceos.phase, Ref.S]; ring
    · ring
    · rw [pT_eq, h.R]; ring

theorem ceos_caloric_values (h : c.Ok T V) :
    c.phase.dH_dT T V = hard c.f V * (T * c.f.a2 T) - c.r.R + pT c.f T V * V + c.r.Cp T
      + (V * pV c.f T V + T * pT c.f T V) * V_T c.f T V ∧
    c.phase.dH_dT_V T V = hard c.f V * (T * c.f.a2 T) - c.r.R + pT c.f T V * V + c.r.Cp T ∧
    c.phase.dH_dP T V = (V * pV c.f T V + T * pT c.f T V) * V_P c.f T V ∧
    c.phase.dH_dP_V T V = (hard c.f V * (T * c.f.a2 T) - c.r.R + pT c.f T V * V + c.r.Cp T) * T_P c.f T V ∧
    c.phase.dH_dV_T T V = V * pV c.f T V + T * pT c.f T V ∧
    c.phase.dH_dV_P T V = (hard c.f V * (T * c.f.a2 T) - c.r.R + pT c.f T V * V + c.r.Cp T) * T_V c.f T V
      + (V * pV c.f T V + T * pT c.f T V) ∧
    c.phase.dS_dT T V = c.r.Cp T / T - c.r.R / T + c.f.a2 T * hard c.f V + pT c.f T V * V_T c.f T V ∧
    c.phase.dS_dT_V T V = c.r.Cp T / T - c.r.R / T + c.f.a2 T * hard c.f V ∧
    c.phase.dS_dP T V = pT c.f T V * V_P c.f T V ∧
    c.phase.dS_dP_V T V = (c.r.Cp T / T - c.r.R / T + c.f.a2 T * hard c.f V) * T_P c.f T V := by
  have hs := h.state
  have hT := hs.posT; have hP := hs.posP
  have n1 := hs.hT; have n2 := hs.hV
  have e := p_cons hs
  have kH := total_Hd hs
  have kS := total_Sd hs
  obtain ⟨a1, a2, a3, a4, a5, a6⟩ := C57_enthalpy hs
  obtain ⟨b1, b2, b3, b4, b5, b6⟩ := C57_entropy hs
  have x1 := Along.unique a1 (kH _ _); have x2 := Along.unique a2 (kH _ _); have x3 := Along.unique a3 (kH _ _)
  have x4 := Along.unique a4 (kH _ _); have x5 := Along.unique a5 (kH _ _); have x6 := Along.unique a6 (kH _ _)
  have y1 := Along.unique b1 (kS _ _); have y2 := Along.unique b2 (kS _ _); have y3 := Along.unique b3 (kS _ _)
  have y4 := Along.unique b4 (kS _ _)
  have h1 := hs.phys.off.b; have h2 := hs.phys.off.q
  have eS : c.f.R * (1 / (V - c.f.b) + pV c.f T V / c.f.p T V)
      - c.f.a1 T * (1 / (V ^ 2 + c.f.delta * V + c.f.epsilon)) = pT c.f T V + c.r.R / c.f.p T V * pV c.f T V := by
    rw [pT_eq, h.R]; ring
  rw [eS, h.R] at y1 y2 y3 y4
  rw [h.R] at x1 x2 x3 x4 x5 x6
  have eH : -(1 / (V ^ 2 + c.f.delta * V + c.f.epsilon)) * (T * c.f.a1 T - c.f.a T) + pV c.f T V * V + c.f.p T V
      = V * pV c.f T V + T * pT c.f T V := by linear_combination e
  rw [eH] at x1 x2 x3 x4 x5 x6
  have z := (Cp_dep_near hs).self_of_nhds
  simp only [Hd_T, h.R] at z
  have v1 : pT c.f T V + pV c.f T V * V_T c.f T V = 0 := by rw [V_T_eq]; field_simp; ring
  have v2 : pV c.f T V * V_P c.f T V = 1 := by rw [V_P_eq]; field_simp
  have v3 : pT c.f T V * T_P c.f T V = 1 := by rw [T_P_eq]; field_simp
  have v4 : pT c.f T V * T_V c.f T V + pV c.f T V = 0 := by rw [T_V_eq]; field_simp; ring
  refine ⟨?_, ?_, ?_, ?_, ?_, ?_, ?_, ?_, ?_, ?_⟩
  all_goals simp only [Ceos.phase, Ceos.dH_dep_dV_T, Ceos.dH_dep_dV_P, h.R]
  · rw [z, x1]; ring
  · rw [x2]; ring
  · rw [x3]; ring
  · rw [x4, T_P_eq]; ring
  · rw [x5]; ring
  · rw [x6, T_V_eq]; ring
  · rw [y1]; linear_combination (c.r.R / c.f.p T V) * v1
  · rw [y2]; ring
  · rw [y3]; linear_combination (c.r.R / c.f.p T V) * v2
  · rw [y4]; rw [← T_P_eq]; linear_combination (c.r.R / c.f.p T V) * v3

theorem ceos_caloric (h : c.Ok T V) : Caloric c.phase T V := by
  obtain ⟨kH, kS⟩ := ceos_totals h
  obtain ⟨a1, a2, a3, a4, a5, a6, b1, b2, b3, b4⟩ := ceos_caloric_values h
  have kT := tot_T T V; have kV := tot_V T V
  have m := ceos_mech h
  have kP := m.hP
  have n1 : pT c.f T V ≠ 0 := m.neT
  have n2 : pV c.f T V ≠ 0 := m.neV
  have o := m.neT
  refine ⟨⟨_, _, kH⟩, ⟨_, _, kS⟩, (part_iff kH kT kP (.inl o)).2 ?_, (part_iff kH kP kT (.inl one_ne_zero)).2 ?_,
    (part_iff kH kT kV (.inr one_ne_zero)).2 ?_, (part_iff kH kP kV (.inr one_ne_zero)).2 ?_,
    (part_iff kH kV kT (.inl one_ne_zero)).2 ?_, (part_iff kH kV kP (.inl o)).2 ?_,
    (part_iff kS kT kP (.inl o)).2 ?_, (part_iff kS kP kT (.inl one_ne_zero)).2 ?_,
    (part_iff kS kT kV (.inr one_ne_zero)).2 ?_, (part_iff kS kP kV (.inr one_ne_zero)).2 ?_⟩
  · rw [a1, V_T_eq]; simp only [Ceos.phase]; field_simp; ring
  · rw [a3, V_P_eq]; simp only [Ceos.phase]; field_simp; ring
  · rw [a2]; ring
  · rw [a4, T_P_eq]; simp only [Ceos.phase]; field_simp; ring
  · rw [a5]; ring
  · rw [a6, T_V_eq]; simp only [Ceos.phase]; field_simp; ring
  · rw [b1, V_T_eq]; simp only [Ceos.phase]; field_simp; ring
  · rw [b3, V_P_eq]; simp only [Ceos.phase]; field_simp; ring
  · rw [b2]; ring
  · rw [b4, T_P_eq]; simp only [Ceos.phase]; field_simp; ring

theorem ceos_consistent (h : c.Ok T V) : Consistent c.phase T V := by
  obtain ⟨a1, a2, a3, a4, a5, a6, b1, b2, b3, b4⟩ := ceos_caloric_values h
  have m := ceos_mech h
  have n1 : pT c.f T V ≠ 0 := m.neT
  have n2 : pV c.f T V ≠ 0 := m.neV
  have hT := m.posT
  have e : c.phase.Cp T V = c.phase.dH_dT T V := rfl
  refine ⟨rfl, ?_, ?_, ?_⟩
  · rw [a3, V_P_eq]; simp only [Methods.dV_dT, Ceos.phase]; field_simp; ring
  · rw [e, a1, b1, V_T_eq]; field_simp; ring
  · rw [b3, V_P_eq]; simp only [Methods.dV_dT, Ceos.phase]; field_simp

theorem Total.congr_near {X Y : ℝ → ℝ → ℝ} {xT xV T V : ℝ} (h : Total X xT xV T V)
    (e : ∀ᶠ q : ℝ × ℝ in 𝓝 (T, V), Y q.1 q.2 = X q.1 q.2) : Total Y xT xV T V :=
  fun T' V' => Along.congr_near (h T' V') e

/-- A partial derivative from the derivative along one curve. -/
theorem Part.of_along {X b c : ℝ → ℝ → ℝ} {xT xV bT bV cT cV T' V' d : ℝ} (hX : Total X xT xV T V)
    (hb : Total b bT bV T V) (hc : Total c cT cV T V) (h0 : cT ≠ 0 ∨ cV ≠ 0) (ha : Along T V T' V' X d)
    (h1 : bT * T' + bV * V' = 1) (h2 : cT * T' + cV * V' = 0) : Part X b c d T V := by
  refine (part_iff hX hb hc h0).2 ?_
  have e := Along.unique ha (hX _ _)
  rw [e]
  linear_combination (xT * cV - xV * cT) * h1 + (xV * bT - xT * bV) * h2

theorem ceos_second (h : c.Ok T V) : Second c.phase T V := by
  have hs := h.state
  have m := ceos_mech h
  have kT := tot_T T V; have kV := tot_V T V
  have n1 : pT c.f T V ≠ 0 := m.neT
  have n2 : pV c.f T V ≠ 0 := m.neV
  have near := Cp_dep_near hs
  obtain ⟨q1, -, q3⟩ := C57_enthalpy_second hs
  obtain ⟨r1, r2, r3, r4⟩ := C56_mixed hs
  have v1 : pT c.f T V * 1 + pV c.f T V * V_T c.f T V = 0 := by rw [V_T_eq]; field_simp; ring
  have v2 : pT c.f T V * 0 + pV c.f T V * V_P c.f T V = 1 := by rw [V_P_eq]; field_simp; ring
  obtain ⟨cT, cV, kC⟩ : ∃ cT cV, Total (Hd_T c.f) cT cV T V := by
    have kd := ((Total.fst T V).mul (Total.of_T (hs.smooth.d2 T hs.posT) V)).sub (Total.of_T (hs.smooth.d1 T hs.posT) V)
    have kq := (Total.const 1 T V).div (total_quad c.f T V) hs.phys.qpos.ne'
    have kT2 := (Total.fst T V).mul (Total.of_T (hs.smooth.d3 T hs.posT) V)
    have k := ((((total_hard hs.phys T).mul kT2).sub (Total.const c.f.R T V)).add
      ((total_p hs.smooth hs.posT hs.phys.off).mul (total_V_T hs))).sub (((total_V_T hs).mul kd).mul kq)
    refine ⟨_, _, Total.congr_near k ?_⟩
    filter_upwards [phys_near hs.phys hs.posV T] with q hq using Hd_T_eq hs.phys.disc hq.1
  have kC2 : Total c.Cp_dep cT cV T V := Total.congr_near kC near
  have kCp : Total c.phase.Cp _ _ T V := (tot_Cp h.ref V).add kC2
  have kPT : Total c.phase.dP_dT _ _ T V := m.hPT
  have kPV : Total c.phase.dP_dV _ _ T V := m.hPV
  have d1 : Along T V 1 (V_T c.f T V) c.phase.Cp (c.phase.d2H_dT2 T V) := by
    have e := Along.unique q1 (kC _ _)
    have k := kCp 1 (V_T c.f T V)
    have : c.phase.d2H_dT2 T V = (c.r.dCp T + cT) * 1 + (0 + cV) * V_T c.f T V := by
      simp only [Ceos.phase]; rw [e]; ring
    rw [this]; exact k
  have d2 : Along T V 0 (V_P c.f T V) c.phase.Cp (c.phase.d2H_dTdP T V) := by
    have e := Along.unique q3 (kC _ _)
    have k := kCp 0 (V_P c.f T V)
    have : c.phase.d2H_dTdP T V = (c.r.dCp T + cT) * 0 + (0 + cV) * V_P c.f T V := by
      simp only [Ceos.phase]; rw [e]; ring
    rw [this]; exact k
  refine ⟨⟨_, _, kCp⟩, Part.of_along kCp kT m.hP (.inl n1) d1 (by ring) v1,
    Part.of_along kCp m.hP kT (.inl one_ne_zero) d2 v2 (by ring),
    Part.of_along kPT kT m.hP (.inl n1) r3 (by ring) v1,
    Part.of_along kPT m.hP kT (.inl one_ne_zero) r4 v2 (by ring),
    Part.of_along kPV kT m.hP (.inl n1) r2 (by ring) v1,
    Part.of_along kPV m.hP kT (.inl one_ne_zero) r1 v2 (by ring)⟩

/-! ## C64 -/

/-- **C64.** A phase object reads all its attributes from one and the same root, the root of its own kind whenever
there is one, and fails only without any root. -/
theorem C64_root (first second : Option ℝ) :
    (∃ V, (first = some V ∨ first = none ∧ second = some V) ∧
      ∀ {α : Type} (attr : ℝ → α), readRoot first second attr = some (attr V)) ∨
    (first = none ∧ second = none ∧ ∀ {α : Type} (attr : ℝ → α), readRoot first second attr = none) := by
  cases first with
  | some V => exact .inl ⟨V, .inl rfl, fun attr => rfl⟩
  | none => cases second with
    | some V => exact .inl ⟨V, .inr ⟨rfl, rfl⟩, fun attr => rfl⟩
    | none => exact .inr ⟨rfl, rfl, fun attr => rfl⟩

/-- **C64.** At a physical root of the equation of state all derivatives supplied by the phase are the partial
derivatives they are named after, of one pressure, one enthalpy and one entropy that satisfy the thermodynamic
relations. With C61 and C62, so are all derivatives the base class computes from them. -/
theorem C64_promises (h : c.Ok T V) :
    Mech c.phase T V ∧ Caloric c.phase T V ∧ Consistent c.phase T V ∧ Second c.phase T V :=
  ⟨ceos_mech h, ceos_caloric h, ceos_consistent h, ceos_second h⟩

/-- **C64.** The second volume and temperature derivatives read from the equation of state are those the base class
would compute, and `d2H_dT2_V` is the derivative of `dH_dT_V` at constant volume. -/
theorem C64_second (h : c.Ok T V) :
    T_VV c.f T V = c.phase.d2T_dV2 T V ∧ V_TT c.f T V = c.phase.d2V_dT2 T V ∧
    HasDerivAt (fun t => c.phase.dH_dT_V t V) (c.d2H_dT2_V T V) T := by
  have n1 := h.state.hT; have n2 := h.state.hV
  refine ⟨?_, ?_, ?_⟩
  · simp only [T_VV, Departure.d2T_dV2, T_P_eq, Methods.d2T_dV2, Methods.dT_dP, Ceos.phase]; field_simp
  · simp only [V_TT, Departure.d2V_dT2, V_P_eq, Methods.d2V_dT2, Methods.dV_dP, Ceos.phase]; field_simp
  · obtain ⟨-, q2, -⟩ := C57_enthalpy_second h.state
    have k := tot_Cp h.ref V 1 0
    have hT : HasDerivAt (fun t : ℝ => T + 1 * t) 1 0 := line T 1
    have hV : HasDerivAt (fun t : ℝ => V + 0 * t) 0 0 := line V 0
    have k1 := (k _ _ (by simp) (by simp) hT hV).add (q2 _ _ (by simp) (by simp) hT hV)
    have k2 := HasDerivAt.comp T (h₂ := fun t : ℝ => c.phase.dH_dT_V (T + 1 * t) (V + 0 * t)) (h := fun t => t - T)
      (h₂' := c.d2H_dT2_V T V) (h' := 1) (by
        rw [sub_self]
        refine k1.congr_deriv ?_
        simp only [Ceos.d2H_dT2_V]; ring) ((hasDerivAt_id T).sub_const T)
    refine (k2.congr_deriv (mul_one _)).congr_of_eventuallyEq (Eventually.of_forall fun t => ?_)
    simp

/-- **C64.** The stored heat capacity obeys both of its definitions: temperature derivative of enthalpy and
temperature times temperature derivative of entropy, both at constant pressure; enthalpy and entropy of the phase
are the ideal gas values of C63 at the same temperature and pressure plus the departures. -/
theorem C64_caloric (h : c.Ok T V) :
    Part c.phase.H temp c.phase.P (c.phase.Cp T V) T V ∧
    (∃ s, Part c.phase.S temp c.phase.P s T V ∧ c.phase.Cp T V = T * s) ∧
    c.phase.H T V = c.r.H T + Hd c.f T V ∧ c.phase.S T V = c.r.S T (c.f.p T V) + Sd c.f T V ∧
    Part (Hd c.f) temp c.phase.P (c.phase.Cp T V - c.r.Cp T) T V := by
  have hT := h.state.posT
  have k := ceos_caloric h
  have q := ceos_consistent h
  refine ⟨q.HT ▸ k.H_T_P, ⟨_, k.S_T_P, ?_⟩, ?_, ?_, ?_⟩
  · rw [q.ST]; field_simp
  · simp only [Ceos.phase]; ring
  · simp only [Ceos.phase, Ref.S]; ring
  · refine Part.of_along (total_Hd h.state) (tot_T T V) (ceos_mech h).hP (.inl (ceos_mech h).neT)
      (T' := 1) (V' := V_T c.f T V) ?_ (by ring) ?_
    · have z := (Cp_dep_near h.state).self_of_nhds
      have e : c.phase.Cp T V - c.r.Cp T = c.Cp_dep T V := by simp only [Ceos.phase]; ring
      rw [e, z]
      exact (C57_enthalpy h.state).1
    · have n2 := h.state.hV
      simp only [Ceos.phase]
      rw [V_T_eq]; field_simp; ring

end

/-! ## Examples -/

/-- The example fluid of C56 with a monatomic ideal gas part. -/
noncomputable def demoCeos : Ceos 1 where
  f := demo
  r := { R := 1, Pref := 1, zs := ![1], Cps := fun _ _ => 5 / 2, dCps := fun _ _ => 0,
         HI := fun _ T => 5 / 2 * T, SI := fun _ T => 5 / 2 * Real.log T }

theorem demoCeos_ok : demoCeos.Ok 1 3 where
  state := demo_state
  R := rfl
  ref :=
    { posR := one_pos
      posPref := one_pos
      posT := one_pos
      H := fun _ => by simpa [demoCeos] using (hasDerivAt_id (1 : ℝ)).const_mul (5 / 2)
      S := fun _ => by simpa [demoCeos] using (Real.hasDerivAt_log (one_ne_zero (α := ℝ))).const_mul (5 / 2)
      C := fun _ => hasDerivAt_const _ _ }

example : demoCeos.Ok 1 3 ∧ Mech demoCeos.phase 1 3 ∧ Caloric demoCeos.phase 1 3 ∧ Consistent demoCeos.phase 1 3 ∧
    Second demoCeos.phase 1 3 := ⟨demoCeos_ok, C64_promises demoCeos_ok⟩

example : readRoot (some 3) (some 5) (fun V => 2 * V) = some (6 : ℝ) ∧
    readRoot none (some 5) (fun V => 2 * V) = some (10 : ℝ) := by norm_num [readRoot]

end Verif.Phase
