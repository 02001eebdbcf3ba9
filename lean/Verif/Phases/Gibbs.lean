import Verif.Phases.Phase
import Mathlib.Analysis.SpecialFunctions.Complex.LogDeriv
import Mathlib.Analysis.Complex.RealDeriv
import Mathlib.Tactic.NormNum

/-!
# Phases from a Gibbs energy (`thermo/phases/gibbs_eos.py`, `IAPWS06` of `thermo/phases/iapws_phase.py`)

* C78: every state property and derivative of a `GibbsEOS` phase is exact.
* C79: the derivatives the ice model `IAPWS06` supplies are derivatives of its Gibbs energy.

Functions of the state are functions of temperature and pressure here, in that order.
-/

namespace Verif.Gibbs

open Verif.Departure (Along Total)
open Verif.Phase (Part part_iff)

/-! ## Model of `GibbsEOS` -/

/-- What a subclass of `GibbsEOS` supplies, as functions of temperature and pressure. -/
structure Supply where
  (G dG_dT dG_dP d2G_dT2 d2G_dTdP d2G_dP2 d3G_dT3 d3G_dT2dP d3G_dTdP2 d3G_dP3 : ℝ → ℝ → ℝ)

namespace Supply

variable (s : Supply) (T P : ℝ)

/-- `V` (31), `dV_dP` (42), `dP_dV` (47), `d2V_dP2` (52), `dV_dT` (55), `dT_dV` (58), `d2V_dT2` (63),
`d2V_dTdP` (66), `dP_dT` (70), `dT_dP` (75). -/
def V : ℝ := s.dG_dP T P
@[inherit_doc V] def dV_dP : ℝ := s.d2G_dP2 T P
@[inherit_doc V] noncomputable def dP_dV : ℝ := 1 / s.d2G_dP2 T P
@[inherit_doc V] def d2V_dP2 : ℝ := s.d3G_dP3 T P
@[inherit_doc V] def dV_dT : ℝ := s.d2G_dTdP T P
@[inherit_doc V] noncomputable def dT_dV : ℝ := 1 / s.d2G_dTdP T P
@[inherit_doc V] def d2V_dT2 : ℝ := s.d3G_dT2dP T P
@[inherit_doc V] def d2V_dTdP : ℝ := s.d3G_dTdP2 T P
@[inherit_doc V] noncomputable def dP_dT : ℝ := -s.dV_dT T P / s.dV_dP T P
@[inherit_doc V] noncomputable def dT_dP : ℝ := 1 / s.dP_dT T P

/-- `H` (81), `S` (84), `Cp` (87), `U` (90), `A` (93). -/
def H : ℝ := s.G T P - T * s.dG_dT T P
@[inherit_doc H] def S : ℝ := -s.dG_dT T P
@[inherit_doc H] def Cp : ℝ := -T * s.d2G_dT2 T P
@[inherit_doc H] def U : ℝ := s.G T P - T * s.dG_dT T P - P * s.dG_dP T P
@[inherit_doc H] def A : ℝ := s.G T P - P * s.dG_dP T P

/-- `dS_dT` (96), `d2S_dT2` (100), `dS_dP` (104), `d2S_dP2` (109), `d2S_dTdP` (112). -/
def dS_dT : ℝ := -s.d2G_dT2 T P
@[inherit_doc dS_dT] def d2S_dT2 : ℝ := -s.d3G_dT3 T P
@[inherit_doc dS_dT] def dS_dP : ℝ := -s.d2G_dTdP T P
@[inherit_doc dS_dT] def d2S_dP2 : ℝ := -s.d3G_dTdP2 T P
@[inherit_doc dS_dT] def d2S_dTdP : ℝ := -s.d3G_dT2dP T P

end Supply

/-- Temperature and pressure as functions of the state. -/
def temp : ℝ → ℝ → ℝ := fun T _ => T
@[inherit_doc temp] def press : ℝ → ℝ → ℝ := fun _ P => P

/-- The supplied derivatives up to second order are derivatives of the supplied Gibbs energy. -/
structure Deriv2 (s : Supply) (T P : ℝ) : Prop where
  h : Total s.G (s.dG_dT T P) (s.dG_dP T P) T P
  hT : Total s.dG_dT (s.d2G_dT2 T P) (s.d2G_dTdP T P) T P
  hP : Total s.dG_dP (s.d2G_dTdP T P) (s.d2G_dP2 T P) T P

/-- So are those of third order. -/
structure Deriv3 (s : Supply) (T P : ℝ) : Prop extends Deriv2 s T P where
  hTT : Total s.d2G_dT2 (s.d3G_dT3 T P) (s.d3G_dT2dP T P) T P
  hTP : Total s.d2G_dTdP (s.d3G_dT2dP T P) (s.d3G_dTdP2 T P) T P
  hPP : Total s.d2G_dP2 (s.d3G_dTdP2 T P) (s.d3G_dP3 T P) T P

section
variable {s : Supply} {T P : ℝ}

/-! ## C78 -/

/-- **C78.** The energies satisfy their definitions, and the volume and the entropy are those of the Gibbs energy:
`dG = -S dT + V dP`. -/
theorem C78_energies (h : Deriv2 s T P) :
    Total s.G (-s.S T P) (s.V T P) T P ∧ s.H T P = s.G T P + T * s.S T P ∧
      s.U T P = s.H T P - P * s.V T P ∧ s.A T P = s.U T P - T * s.S T P := by
  refine ⟨h.h.congr (by simp only [Supply.S, neg_neg]) rfl, ?_, ?_, ?_⟩
  all_goals simp only [Supply.H, Supply.S, Supply.U, Supply.A, Supply.V]
  all_goals try ring

/-- **C78.** The enthalpy, the entropy and the volume have the differentials that the heat capacity and the derivative
methods give: `dH = Cp dT + (V - T ∂V/∂T) dP`, `dS = Cp/T dT - ∂V/∂T dP`. -/
theorem C78_first (h : Deriv2 s T P) (hT : T ≠ 0) :
    Total s.H (s.Cp T P) (s.V T P - T * s.dV_dT T P) T P ∧ Total s.S (s.dS_dT T P) (s.dS_dP T P) T P ∧
      s.dS_dT T P = s.Cp T P / T ∧ s.dS_dP T P = -s.dV_dT T P ∧ Total s.V (s.dV_dT T P) (s.dV_dP T P) T P := by
  refine ⟨?_, ?_, ?_, rfl, h.hP⟩
  · refine (h.h.sub ((Total.fst T P).mul h.hT)).congr ?_ ?_
    all_goals simp only [Supply.Cp, Supply.V, Supply.dV_dT]; ring
  · refine (((Total.const 0 T P).sub h.hT).congr_fun fun T P => ?_).congr ?_ ?_
    all_goals simp only [Supply.S, Supply.dS_dT, Supply.dS_dP]; ring
  · simp only [Supply.dS_dT, Supply.Cp]; field_simp

/-- **C78.** The derivatives between pressure, volume and temperature are the partial derivatives they are named
after. -/
theorem C78_pvt (h : Deriv2 s T P) (n1 : s.dV_dT T P ≠ 0) (n2 : s.dV_dP T P ≠ 0) :
    Part s.V press temp (s.dV_dP T P) T P ∧ Part press s.V temp (s.dP_dV T P) T P ∧
      Part s.V temp press (s.dV_dT T P) T P ∧ Part temp s.V press (s.dT_dV T P) T P ∧
      Part press temp s.V (s.dP_dT T P) T P ∧ Part temp press s.V (s.dT_dP T P) T P := by
  have kV : Total s.V (s.d2G_dTdP T P) (s.d2G_dP2 T P) T P := h.hP
  have kT : Total temp 1 0 T P := Total.fst T P
  have kP : Total press 0 1 T P := Total.snd T P
  have n1 : s.d2G_dTdP T P ≠ 0 := n1
  have n2 : s.d2G_dP2 T P ≠ 0 := n2
  refine ⟨(part_iff kV kP kT (.inl one_ne_zero)).2 ?_, (part_iff kP kV kT (.inl one_ne_zero)).2 ?_,
    (part_iff kV kT kP (.inr one_ne_zero)).2 ?_, (part_iff kT kV kP (.inr one_ne_zero)).2 ?_,
    (part_iff kP kT kV (.inl n1)).2 ?_, (part_iff kT kP kV (.inl n1)).2 ?_⟩
  all_goals simp only [Supply.dV_dP, Supply.dP_dV, Supply.dV_dT, Supply.dT_dV, Supply.dP_dT, Supply.dT_dP]
  all_goals (field_simp; try ring)

/-- **C78.** The second derivatives of volume and entropy are derivatives of the first ones. -/
theorem C78_second (h : Deriv3 s T P) :
    Total s.dV_dT (s.d2V_dT2 T P) (s.d2V_dTdP T P) T P ∧ Total s.dV_dP (s.d2V_dTdP T P) (s.d2V_dP2 T P) T P ∧
      Total s.dS_dT (s.d2S_dT2 T P) (s.d2S_dTdP T P) T P ∧ Total s.dS_dP (s.d2S_dTdP T P) (s.d2S_dP2 T P) T P := by
  refine ⟨h.hTP, h.hPP, ?_, ?_⟩
  · refine (((Total.const 0 T P).sub h.hTT).congr_fun fun T P => ?_).congr ?_ ?_
    all_goals simp only [Supply.dS_dT, Supply.d2S_dT2, Supply.d2S_dTdP]; ring
  · refine (((Total.const 0 T P).sub h.hTP).congr_fun fun T P => ?_).congr ?_ ?_
    all_goals simp only [Supply.dS_dP, Supply.d2S_dP2, Supply.d2S_dTdP]; ring

/-- A Gibbs energy with derivatives of all orders up to three. -/
noncomputable def demo : Supply where
  G T P := T * T * P - P * P
  dG_dT T P := 2 * T * P
  dG_dP T P := T * T - 2 * P
  d2G_dT2 _ P := 2 * P
  d2G_dTdP T _ := 2 * T
  d2G_dP2 _ _ := -2
  d3G_dT3 _ _ := 0
  d3G_dT2dP _ _ := 2
  d3G_dTdP2 _ _ := 0
  d3G_dP3 _ _ := 0

example : Deriv3 demo 3 5 ∧ demo.dV_dT 3 5 ≠ 0 ∧ demo.dV_dP 3 5 ≠ 0 := by
  have kT := Total.fst 3 5
  have kP := Total.snd 3 5
  have k2 := Total.const 2 3 5
  refine ⟨⟨⟨?_, ?_, ?_⟩, ?_, ?_, ?_⟩, by norm_num [demo, Supply.dV_dT], by norm_num [demo, Supply.dV_dP]⟩
  · exact (((kT.mul kT).mul kP).sub (kP.mul kP)).congr (by norm_num [demo]) (by norm_num [demo])
  · exact ((k2.mul kT).mul kP).congr (by norm_num [demo]) (by norm_num [demo])
  · exact ((kT.mul kT).sub (k2.mul kP)).congr (by norm_num [demo]) (by norm_num [demo])
  · exact (k2.mul kP).congr (by norm_num [demo]) (by norm_num [demo])
  · exact (k2.mul kT).congr (by norm_num [demo]) (by norm_num [demo])
  · exact Total.const (-2) 3 5

end

/-! ## Model of `IAPWS06` -/

/-- The constants of the model (666-691): molar mass in kg, triple point temperature and pressure, reference pressure,
`g0n`, `s0`, `t1`, `r1`, `t2`, `r2n`. -/
structure IceConst where
  (MW_kg Tt pt p0 g00 g01 g02 g03 g04 s0 : ℝ)
  (t1 r1 t2 r20 r21 r22 : ℂ)

namespace IceConst

variable (c : IceConst) (T P : ℝ)

/-- `tau` and `v0 = pi - pi0` (748-760). -/
noncomputable def tau (T : ℝ) : ℝ := T / c.Tt
@[inherit_doc tau] noncomputable def v0 (P : ℝ) : ℝ := P / c.pt - c.p0 / c.pt

/-- `r2`, `r2p`, `r2pp` (761-766, 699), the folded coefficients of the code written as the products they stand for. -/
noncomputable def r2 (P : ℝ) : ℂ := c.v0 P * (c.v0 P * c.r22 + c.r21) + c.r20
@[inherit_doc r2] noncomputable def r2p (P : ℝ) : ℂ := c.v0 P * (2 * c.r22 / c.pt) + c.r21 / c.pt
@[inherit_doc r2] noncomputable def r2pp : ℂ := c.r22 * 2 / (c.pt * c.pt)

/-- `g0`, `g0p`, `g0pp` (767-772), likewise. -/
noncomputable def g0 (P : ℝ) : ℝ :=
  c.v0 P * (c.v0 P * (c.v0 P * (c.g04 * c.v0 P + c.g03) + c.g02) + c.g01) + c.g00
@[inherit_doc g0] noncomputable def g0p (P : ℝ) : ℝ :=
  c.v0 P * (c.v0 P * (4 * c.g04 / c.pt * c.v0 P + 3 * c.g03 / c.pt) + 2 * c.g02 / c.pt) + c.g01 / c.pt
@[inherit_doc g0] noncomputable def g0pp (P : ℝ) : ℝ :=
  (12 * c.g04 / (c.pt * c.pt) * c.v0 P + 6 * c.g03 / (c.pt * c.pt)) * c.v0 P + 2 * c.g02 / (c.pt * c.pt)

/-- The bracket with logarithms that occurs in `g_real_sum` (790-791) and as `x0` (802). -/
noncomputable def br (t : ℂ) (u : ℝ) : ℂ :=
  (t - u) * Complex.log (t - u) + (t + u) * Complex.log (t + u) - 2 * t * Complex.log t - u * u * (1 / t)

/-- The bracket of `g_T_real_sum` (795) and `g_TP_real_sum` (809), and that of `g_TT_real_sum` (798-799). -/
noncomputable def br1 (t : ℂ) (u : ℝ) : ℂ := -Complex.log (t - u) + Complex.log (t + u) - 2 * u * (1 / t)
@[inherit_doc br1] noncomputable def br2 (t : ℂ) (u : ℝ) : ℂ := 1 / (t - u) + 1 / (t + u) - 1 / t - 1 / t

/-- `g` (792), `g_T` (796), `g_TT` (800), `g_P` (805), `g_PP` (807), `g_TP` (810). -/
noncomputable def g : ℝ :=
  c.g0 P - c.s0 * c.Tt * c.tau T + c.Tt * (c.r1 * br c.t1 (c.tau T) + c.r2 P * br c.t2 (c.tau T)).re
@[inherit_doc g] noncomputable def g_T : ℝ := -c.s0 + (c.r1 * br1 c.t1 (c.tau T) + c.r2 P * br1 c.t2 (c.tau T)).re
@[inherit_doc g] noncomputable def g_TT : ℝ := 1 / c.Tt * (c.r1 * br2 c.t1 (c.tau T) + c.r2 P * br2 c.t2 (c.tau T)).re
@[inherit_doc g] noncomputable def g_P : ℝ := c.g0p P + c.Tt * (c.r2p P * br c.t2 (c.tau T)).re
@[inherit_doc g] noncomputable def g_PP : ℝ := c.g0pp P + c.Tt * (c.r2pp * br c.t2 (c.tau T)).re
@[inherit_doc g] noncomputable def g_TP : ℝ := (c.r2p P * br1 c.t2 (c.tau T)).re

/-- What `IAPWS06` supplies (821-844). It has no third derivatives; these entries are not used. -/
noncomputable def supply : Supply where
  G T P := c.g T P * c.MW_kg
  dG_dT T P := c.g_T T P * c.MW_kg
  dG_dP T P := c.g_P T P * c.MW_kg
  d2G_dT2 T P := c.g_TT T P * c.MW_kg
  d2G_dTdP T P := c.g_TP T P * c.MW_kg
  d2G_dP2 T P := c.g_PP T P * c.MW_kg
  d3G_dT3 := 0
  d3G_dT2dP := 0
  d3G_dTdP2 := 0
  d3G_dP3 := 0

/-- The stored volume `_V` (814-815): `rho_to_Vm(1/g_P, MW)`. -/
noncomputable def _V : ℝ := c.MW_kg / (1 / c.g_P T P)

end IceConst

section
open IceConst

variable {c : IceConst} {T P : ℝ}

theorem slit_sub {t : ℂ} (h : t.im ≠ 0) (u : ℝ) : t - u ∈ Complex.slitPlane := by
  refine .inr ?_
  simpa using h

theorem slit_add {t : ℂ} (h : t.im ≠ 0) (u : ℝ) : t + u ∈ Complex.slitPlane := by
  refine .inr ?_
  simpa using h

theorem der_sub (t : ℂ) (u : ℝ) : HasDerivAt (fun u : ℝ => t - (u : ℂ)) (-1) u :=
  (Complex.ofRealCLM.hasDerivAt (x := u)).const_sub t |>.congr_deriv (by simp)

theorem der_add (t : ℂ) (u : ℝ) : HasDerivAt (fun u : ℝ => t + (u : ℂ)) 1 u :=
  (Complex.ofRealCLM.hasDerivAt (x := u)).const_add t |>.congr_deriv (by simp)

theorem der_br {t : ℂ} (h : t.im ≠ 0) (u : ℝ) : HasDerivAt (br t) (br1 t u) u := by
  have a := der_sub t u
  have b := der_add t u
  have la := a.clog_real (slit_sub h u)
  have lb := b.clog_real (slit_add h u)
  have hu : HasDerivAt (fun u : ℝ => (u : ℂ)) 1 u := by simpa using der_add 0 u
  refine ((((a.fun_mul la).fun_add (b.fun_mul lb)).sub_const (2 * t * Complex.log t)).fun_sub
    ((hu.fun_mul hu).mul_const (1 / t))).congr_deriv ?_
  have n1 := Complex.slitPlane_ne_zero (slit_sub h u)
  have n2 := Complex.slitPlane_ne_zero (slit_add h u)
  simp only [br1]
  field_simp
  ring

theorem der_br1 {t : ℂ} (h : t.im ≠ 0) (u : ℝ) : HasDerivAt (br1 t) (br2 t u) u := by
  have a := der_sub t u
  have b := der_add t u
  have la := a.clog_real (slit_sub h u)
  have lb := b.clog_real (slit_add h u)
  have hu : HasDerivAt (fun u : ℝ => (u : ℂ)) 1 u := by simpa using der_add 0 u
  refine ((la.fun_neg.fun_add lb).fun_sub ((hu.const_mul 2).mul_const (1 / t))).congr_deriv ?_
  simp only [br2]
  ring

/-- The real part of a product of a function of the pressure and a function of the reduced temperature. -/
theorem tot_re {A B : ℝ → ℂ} {A' B' : ℂ} (hA : HasDerivAt A A' P) (hB : HasDerivAt B B' (c.tau T)) :
    Total (fun T P => (A P * B (c.tau T)).re) ((A P * B').re / c.Tt) ((A' * B (c.tau T)).re) T P := by
  intro T' P' τ ν h1 h2 h3 h4
  have kA : HasDerivAt (fun t => A (ν t)) (P' • A') 0 := HasDerivAt.scomp 0 (h2 ▸ hA) h4
  have kt : HasDerivAt (fun t => c.tau (τ t)) (T' / c.Tt) 0 := h3.div_const _
  have hB' : HasDerivAt B B' (c.tau (τ 0)) := by rw [h1]; exact hB
  have kB : HasDerivAt (fun t => B (c.tau (τ t))) ((T' / c.Tt) • B') 0 := HasDerivAt.scomp 0 hB' kt
  have k := Complex.reCLM.hasFDerivAt.comp_hasDerivAt 0 (kA.fun_mul kB)
  refine HasDerivAt.congr_deriv k ?_
  simp only [Complex.reCLM_apply, h1, h2, Complex.add_re, Complex.mul_re, Complex.real_smul, Complex.ofReal_re,
    Complex.ofReal_im, Complex.mul_im]
  ring

theorem der_v0 (c : IceConst) (P : ℝ) : HasDerivAt (fun P => c.v0 P) (1 / c.pt) P :=
  ((hasDerivAt_id P).div_const c.pt).sub_const _

theorem der_v0c (c : IceConst) (P : ℝ) : HasDerivAt (fun P => (c.v0 P : ℂ)) (1 / c.pt) P := by
  have := (der_v0 c P).ofReal_comp
  simpa using this

theorem der_r2 (c : IceConst) (P : ℝ) : HasDerivAt c.r2 (c.r2p P) P := by
  have k := der_v0c c P
  refine ((k.fun_mul ((k.mul_const c.r22).add_const c.r21)).add_const c.r20).congr_deriv ?_
  simp only [IceConst.r2p]
  ring

theorem der_r2p (c : IceConst) (P : ℝ) : HasDerivAt c.r2p c.r2pp P := by
  have k := der_v0c c P
  refine ((k.mul_const (2 * c.r22 / c.pt)).add_const (c.r21 / c.pt)).congr_deriv ?_
  simp only [IceConst.r2pp]
  ring

theorem der_g0 (c : IceConst) (P : ℝ) : HasDerivAt c.g0 (c.g0p P) P := by
  have k := der_v0 c P
  refine ((k.fun_mul ((k.fun_mul ((k.fun_mul ((k.const_mul c.g04).add_const c.g03)).add_const c.g02)).add_const
    c.g01)).add_const c.g00).congr_deriv ?_
  simp only [IceConst.g0p]
  ring

theorem der_g0p (c : IceConst) (P : ℝ) : HasDerivAt c.g0p (c.g0pp P) P := by
  have k := der_v0 c P
  refine ((k.fun_mul ((k.fun_mul ((k.const_mul (4 * c.g04 / c.pt)).add_const (3 * c.g03 / c.pt))).add_const
    (2 * c.g02 / c.pt))).add_const (c.g01 / c.pt)).congr_deriv ?_
  simp only [IceConst.g0pp]
  ring

/-! ## C79 -/

/-- **C79.** At every temperature and pressure the derivatives the ice model stores are derivatives of its Gibbs
energy, and its stored volume is the derivative by pressure. With C78 all its state properties are exact. -/
theorem C79_ice (c : IceConst) (hTt : c.Tt ≠ 0) (h1 : c.t1.im ≠ 0) (h2 : c.t2.im ≠ 0) (T P : ℝ) :
    Deriv2 c.supply T P ∧ c._V T P = c.supply.V T P := by
  have kM := Total.const c.MW_kg T P
  have kTt := Total.const c.Tt T P
  have kr1 := hasDerivAt_const P c.r1
  have k11 := tot_re (c := c) kr1 (der_br h1 (c.tau T))
  have k12 := tot_re (c := c) (der_r2 c P) (der_br h2 (c.tau T))
  have k21 := tot_re (c := c) kr1 (der_br1 h1 (c.tau T))
  have k22 := tot_re (c := c) (der_r2 c P) (der_br1 h2 (c.tau T))
  have k3 := tot_re (c := c) (der_r2p c P) (der_br h2 (c.tau T))
  refine ⟨⟨?_, ?_, ?_⟩, ?_⟩
  · have kg := Total.of_V (V := P) T (der_g0 c P)
    have ks : Total (fun T _ => c.s0 * c.Tt * c.tau T) c.s0 0 T P :=
      ((Total.const (c.s0 * c.Tt) T P).mul ((Total.fst T P).div kTt hTt)).congr (by field_simp; ring) (by field_simp; ring)
    refine ((((kg.sub ks).add (kTt.mul (k11.add k12))).mul kM).congr_fun fun T P => ?_).congr ?_ ?_
    · simp only [IceConst.supply, IceConst.g, Complex.add_re]
    · simp only [IceConst.supply, IceConst.g_T, Complex.add_re]; field_simp; ring
    · simp only [IceConst.supply, IceConst.g_P, zero_mul, Complex.zero_re]; ring
  · refine ((((Total.const (-c.s0) T P).add (k21.add k22)).mul kM).congr_fun fun T P => ?_).congr ?_ ?_
    · simp only [IceConst.supply, IceConst.g_T, Complex.add_re]
    · simp only [IceConst.supply, IceConst.g_TT, Complex.add_re]; field_simp; ring
    · simp only [IceConst.supply, IceConst.g_TP, zero_mul, Complex.zero_re]; ring
  · have kg := Total.of_V (V := P) T (der_g0p c P)
    refine ((kg.add (kTt.mul k3)).mul kM).congr ?_ ?_
    · simp only [IceConst.supply, IceConst.g_TP]; field_simp; ring
    · simp only [IceConst.supply, IceConst.g_PP]; ring
  · simp only [IceConst._V, Supply.V, IceConst.supply]
    rw [div_div_eq_mul_div, div_one, mul_comm]

/-- The constants of the code (663, 666, 674-691). -/
noncomputable def iapws06 : IceConst where
  MW_kg := 18015268 / 10 ^ 9
  Tt := 27316 / 100
  pt := 611657 / 1000
  p0 := 101325
  g00 := -632020233335886 / 10 ^ 9
  g01 := 655022213658955 / 10 ^ 15
  g02 := -189369929326131 / 10 ^ 22
  g03 := 339746123271053 / 10 ^ 29
  g04 := -556464869058991 / 10 ^ 36
  s0 := -332733756492168 / 10 ^ 11
  t1 := ⟨368017112855051 / 10 ^ 16, 510878114959572 / 10 ^ 16⟩
  r1 := ⟨447050716285388 / 10 ^ 13, 656876847463481 / 10 ^ 13⟩
  t2 := ⟨337315741065416 / 10 ^ 15, 335449415919309 / 10 ^ 15⟩
  r20 := ⟨-725974574329220 / 10 ^ 13, -781008427112870 / 10 ^ 13⟩
  r21 := ⟨-557107698030123 / 10 ^ 19, 464578634580806 / 10 ^ 19⟩
  r22 := ⟨234801409215913 / 10 ^ 25, -285651142904972 / 10 ^ 25⟩

example : iapws06.Tt ≠ 0 ∧ iapws06.t1.im ≠ 0 ∧ iapws06.t2.im ≠ 0 := by norm_num [iapws06]

/-- **C79.** At absolute zero the entropy is the same at every pressure, and at the reference pressure the Gibbs energy is its constant; with the constants of the code they are 3327.33756492168 J/(kg K) below zero and
-632020.233335886 J/kg. The reference pressure is the normal atmosphere. -/
theorem C79_zero (c : IceConst) (P : ℝ) : c.g_T 0 P = -c.s0 ∧ c.g 0 c.p0 = c.g00 ∧ iapws06.g_T 0 P = 3327.33756492168 ∧ iapws06.g 0 101325 = -632020.233335886 := by
  have h1 : ∀ c : IceConst, c.g_T 0 P = -c.s0 := by
    intro c
    simp [IceConst.g_T, IceConst.br1, IceConst.tau]
  have h2 : ∀ c : IceConst, c.g 0 c.p0 = c.g00 := by
    intro c
    have hb : ∀ t : ℂ, IceConst.br t 0 = 0 := by
      intro t
      simp only [IceConst.br, Complex.ofReal_zero, sub_zero, add_zero]
      ring
    simp [IceConst.g, IceConst.g0, IceConst.v0, IceConst.tau, hb]
  refine ⟨h1 c, h2 c, ?_, ?_⟩
  · rw [h1]; norm_num [iapws06]
  · have := h2 iapws06
    have e : iapws06.p0 = 101325 := rfl
    rw [e] at this
    rw [this]; norm_num [iapws06]

/-- **C79.** The pressure enters through its distance from the reference pressure in units of the triple point pressure, as in the published formula. -/
theorem C79_pressure (c : IceConst) (P : ℝ) : c.g0 P = c.g00 + c.g01 * ((P - c.p0) / c.pt) + c.g02 * ((P - c.p0) / c.pt) ^ 2 + c.g03 * ((P - c.p0) / c.pt) ^ 3 + c.g04 * ((P - c.p0) / c.pt) ^ 4 ∧
    c.r2 P = c.r20 + c.r21 * (((P - c.p0) / c.pt : ℝ) : ℂ) + c.r22 * (((P - c.p0) / c.pt : ℝ) : ℂ) ^ 2 := by
  have e : c.v0 P = (P - c.p0) / c.pt := by unfold IceConst.v0; ring
  simp only [IceConst.g0, IceConst.r2, e]
  constructor <;> ring

/-- Two numbers agree to fifteen digits. -/
def Near (x y : ℝ) : Prop := |x - y| ≤ |y| / 10 ^ 15

/-- **C79.** The coefficients written as literals in `_set_core` are, to fifteen digits, the products the formulas
need: `r2p` (765-766), `g0p` (769-770), `g0pp` (771-772), `1/Tt` (800). -/
theorem C79_literals :
    (Near (7.677551608692879e-14) (2 * iapws06.r22.re / iapws06.pt) ∧
      Near (-9.340239477516712e-14) (2 * iapws06.r22.im / iapws06.pt) ∧
      Near (-9.108171704568459e-08) (iapws06.r21.re / iapws06.pt) ∧
      Near (7.595411065038183e-08) (iapws06.r21.im / iapws06.pt)) ∧
    (Near (-3.6390648292032365e-24) (4 * iapws06.g04 / iapws06.pt) ∧
      Near (1.666356094695489e-17) (3 * iapws06.g03 / iapws06.pt) ∧
      Near (-6.192030151739651e-11) (2 * iapws06.g02 / iapws06.pt) ∧
      Near (0.0010708979275295713) (iapws06.g01 / iapws06.pt)) ∧
    (Near (-1.7848556441943294e-26) (12 * iapws06.g04 / (iapws06.pt * iapws06.pt)) ∧
      Near (5.44866189611331e-20) (6 * iapws06.g03 / (iapws06.pt * iapws06.pt)) ∧
      Near (-1.0123370045204503e-13) (2 * iapws06.g02 / (iapws06.pt * iapws06.pt))) ∧
    Near (0.0036608581051398447) (1 / iapws06.Tt) := by
  refine ⟨⟨?_, ?_, ?_, ?_⟩, ⟨?_, ?_, ?_, ?_⟩, ⟨?_, ?_, ?_⟩, ?_⟩
  all_goals
    simp only [Near, iapws06]
    norm_num [abs_le, abs_of_nonneg, abs_of_neg]

end

end Verif.Gibbs
