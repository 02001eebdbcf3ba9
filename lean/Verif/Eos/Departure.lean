import Verif.Eos.CubicRoots
import Mathlib.Analysis.SpecialFunctions.Log.Deriv
import Mathlib.Analysis.Calculus.Deriv.Pow
import Mathlib.Analysis.Calculus.Deriv.Inv
import Mathlib.Analysis.Calculus.Deriv.Mul
import Mathlib.Analysis.Calculus.Deriv.Add
import Mathlib.Topology.Algebra.Order.Field

/-!
# Pressure derivatives and departure functions (`thermo/eos.py`)

* C31: the five pressure derivatives of `main_derivatives_and_departures` (306-354), of its van der Waals
  variant (357-394), and the reciprocal and cyclic derivatives of `set_properties_from_solution` (1436-1443).
* C32: departure enthalpy, entropy, isochoric heat capacity (346-353, 391-393), Gibbs energy (1447), the
  fugacity function `eos_lnphi` (397-446).

The attraction term is a function of temperature with its derivatives; volume and temperature are real
numbers. `catanh(z).real` is `½ log |(1 + z)/(1 - z)|`.
-/

namespace Verif.Departure

open Verif.Cubic Filter Topology

/-- Real part of the complex inverse hyperbolic tangent at a real argument. -/
noncomputable def reAtanh (z : ℝ) : ℝ := 1 / 2 * Real.log |(1 + z) / (1 - z)|

/-- Result of `main_derivatives_and_departures`. -/
structure Main where
  /-- pressure by temperature -/
  dP_dT : ℝ
  /-- pressure by volume -/
  dP_dV : ℝ
  /-- second by temperature -/
  d2P_dT2 : ℝ
  /-- second by volume -/
  d2P_dV2 : ℝ
  /-- mixed -/
  d2P_dTdV : ℝ
  /-- enthalpy departure -/
  H_dep : ℝ
  /-- entropy departure -/
  S_dep : ℝ
  /-- heat capacity departure -/
  Cv_dep : ℝ

/-- `x11` (319-323): the square root raises for negative arguments and the division for zero, and both are
replaced by zero. -/
noncomputable def x11of (delta epsilon : ℝ) : ℝ :=
  open Classical in
  if 0 < delta * delta - 2 * epsilon - 2 * epsilon then 1 / √(delta * delta - 2 * epsilon - 2 * epsilon) else 0

/-- `main_derivatives_and_departures` (306-354). -/
noncomputable def main (R T P V b delta epsilon a a1 a2 : ℝ) : Main :=
  let x0 := 1 / (V - b)
  let x1 := 1 / (V * (V + delta) + epsilon)
  let x3 := R * T
  let x4 := x0 * x0
  let x5 := V + V + delta
  let x6 := x1 * x1
  let x7 := a * x6
  let x8 := P * V
  let x9 := delta * delta
  let x11 := x11of delta epsilon
  let hard_term := reAtanh (x11 * x5)
  let x12 := 2 * x11 * hard_term
  let x14 := 1 / 2 * x5
  let x15 := (epsilon + epsilon) * x11
  let x16 := 1 / 2 * x11 * x9
  let x17 := x5 * x6
  let d2P_dV2 := x7 + x3 * x4 * x0 - a * x5 * x17 * x1
  let x18 := x16 - x15
  let x19 := (x14 + x18) / (x14 - x18)
  { dP_dT := R * x0 - a1 * x1
    dP_dV := x5 * x7 - x3 * x4
    d2P_dT2 := (-a2) * x1
    d2P_dV2 := d2P_dV2 + d2P_dV2
    d2P_dTdV := a1 * x17 - R * x4
    H_dep := x12 * (T * a1 - a) - x3 + x8
    S_dep := (-R) * Real.log (x3 * x0 / P) + a1 * x12
    Cv_dep := T * a2 * x11 * Real.log x19 }

/-- `main_derivatives_and_departures_VDW` (357-394). -/
noncomputable def mainVDW (R T P V b a : ℝ) : Main :=
  let V_inv := 1 / V
  let V_inv2 := V_inv * V_inv
  let Vmb := V - b
  let Vmb_inv := 1 / Vmb
  { dP_dT := R * Vmb_inv
    dP_dV := (-R) * T * Vmb_inv * Vmb_inv + 2 * a * V_inv * V_inv2
    d2P_dT2 := 0
    d2P_dV2 := 2 * (R * T * Vmb_inv * Vmb_inv * Vmb_inv - 3 * a * V_inv2 * V_inv2)
    d2P_dTdV := (-R) * Vmb_inv * Vmb_inv
    H_dep := P * V - R * T - a * V_inv
    S_dep := R * (-Real.log V + Real.log Vmb) + R * Real.log (P * V / (R * T))
    Cv_dep := 0 }

/-- `eos_lnphi` (436-446). -/
noncomputable def eosLnphi (R T P V b delta epsilon a : ℝ) : ℝ :=
  let RT := R * T
  let RT_inv := 1 / RT
  let x0 := 1 / √(delta * delta - 4 * epsilon)
  let arg := 2 * V * x0 + delta * x0
  let fancy := 1 / 4 * Real.log (1 + 4 * arg / ((1 - arg) * (1 - arg)))
  P * V * RT_inv + Real.log (RT / (P * (V - b))) - 1 - 2 * a * fancy * RT_inv * x0

/-- A fluid: constants and the attraction as a function of temperature with its derivatives. -/
structure Fluid where
  /-- gas constant -/
  R : ℝ
  /-- covolume -/
  b : ℝ
  /-- linear coefficient -/
  delta : ℝ
  /-- constant coefficient -/
  epsilon : ℝ
  /-- attraction -/
  a : ℝ → ℝ
  /-- its first derivative -/
  a1 : ℝ → ℝ
  /-- its second derivative -/
  a2 : ℝ → ℝ
  /-- its third derivative -/
  a3 : ℝ → ℝ

namespace Fluid

/-- The pressure (specification). -/
noncomputable def p (f : Fluid) (T V : ℝ) : ℝ := pressure f.R T f.b f.delta f.epsilon (f.a T) V

/-- What the code computes at temperature, pressure and volume. -/
noncomputable def main (f : Fluid) (T P V : ℝ) : Main :=
  Departure.main f.R T P V f.b f.delta f.epsilon (f.a T) (f.a1 T) (f.a2 T)

/-- The derivatives of the attraction are its derivatives. -/
structure Smooth (f : Fluid) : Prop where
  R : 0 < f.R
  d1 : ∀ T, 0 < T → HasDerivAt f.a (f.a1 T) T
  d2 : ∀ T, 0 < T → HasDerivAt f.a1 (f.a2 T) T
  d3 : ∀ T, 0 < T → HasDerivAt f.a2 (f.a3 T) T

/-- A volume off the poles. -/
structure Off (f : Fluid) (V : ℝ) : Prop where
  b : V - f.b ≠ 0
  q : V ^ 2 + f.delta * V + f.epsilon ≠ 0

/-- A physical volume: above the covolume and above both (real, distinct) poles of the attraction. -/
structure Phys (f : Fluid) (V : ℝ) : Prop where
  b : f.b < V
  disc : 0 < f.delta ^ 2 - 4 * f.epsilon
  q : √(f.delta ^ 2 - 4 * f.epsilon) < 2 * V + f.delta

end Fluid

/-- Hypotheses of the module: a Soave-like fluid `a(T) = (2 - T)²` with `δ = b = 1`, `ε = 0`. -/
noncomputable def demo : Fluid where
  R := 1
  b := 1
  delta := 1
  epsilon := 0
  a := fun T => (2 - T) ^ 2
  a1 := fun T => -2 * (2 - T)
  a2 := fun _ => 2
  a3 := fun _ => 0

theorem demo_smooth : demo.Smooth := by
  have h : ∀ T : ℝ, HasDerivAt (fun T : ℝ => 2 - T) (-1) T := fun T => by
    simpa using (hasDerivAt_id T).const_sub 2
  refine ⟨one_pos, fun T _ => ?_, fun T _ => ?_, fun T _ => hasDerivAt_const T _⟩
  · refine HasDerivAt.congr_deriv ((h T).fun_pow 2) ?_
    simp [demo]
  · refine HasDerivAt.congr_deriv ((h T).const_mul (-2)) ?_
    simp [demo]

theorem demo_phys : demo.Phys 3 := by
  refine ⟨by norm_num [demo], by norm_num [demo], ?_⟩
  have : √(demo.delta ^ 2 - 4 * demo.epsilon) = 1 := by norm_num [demo]
  rw [this]; norm_num [demo]

theorem demo_off : demo.Off 3 := ⟨by norm_num [demo], by norm_num [demo]⟩

section

variable {f : Fluid} {T V : ℝ}

/-- The quadratic of the poles as the code writes it. -/
theorem q_eq (f : Fluid) (V : ℝ) : V * (V + f.delta) + f.epsilon = V ^ 2 + f.delta * V + f.epsilon := by ring

/-- The quadratic is positive at physical volumes. -/
theorem Fluid.Phys.qpos (h : f.Phys V) : 0 < V ^ 2 + f.delta * V + f.epsilon := by
  have h1 := Real.sq_sqrt h.disc.le
  have h2 := Real.sqrt_nonneg (f.delta ^ 2 - 4 * f.epsilon)
  nlinarith [h.q]

theorem Fluid.Phys.off (h : f.Phys V) : f.Off V := ⟨sub_ne_zero.mpr h.b.ne', h.qpos.ne'⟩

theorem p_eq (f : Fluid) (T V : ℝ) :
    f.p T V = f.R * T / (V - f.b) - f.a T / (V ^ 2 + f.delta * V + f.epsilon) := rfl

/-! ## C31 -/

theorem hp_T (hs : f.Smooth) (hT : 0 < T) (V P : ℝ) :
    HasDerivAt (fun T => f.p T V) (f.main T P V).dP_dT T := by
  have h := (((hasDerivAt_id T).const_mul f.R).div_const (V - f.b)).sub
    ((hs.d1 T hT).div_const (V ^ 2 + f.delta * V + f.epsilon))
  refine HasDerivAt.congr_deriv h ?_
  simp only [Fluid.main, main, q_eq]
  ring

theorem hq (f : Fluid) (V : ℝ) : HasDerivAt (fun V : ℝ => V ^ 2 + f.delta * V + f.epsilon) (2 * V + f.delta) V := by
  refine HasDerivAt.congr_deriv ((((hasDerivAt_id V).fun_pow 2).add ((hasDerivAt_id V).const_mul f.delta)).add_const
    f.epsilon) ?_
  simp only [id]; push_cast; ring

theorem hp_V (ho : f.Off V) (T P : ℝ) : HasDerivAt (fun V => f.p T V) (f.main T P V).dP_dV V := by
  have h0 : HasDerivAt (fun V : ℝ => V - f.b) 1 V := (hasDerivAt_id V).sub_const f.b
  have h := ((hasDerivAt_const V (f.R * T)).fun_div h0 ho.b).sub ((hasDerivAt_const V (f.a T)).fun_div (hq f V) ho.q)
  refine HasDerivAt.congr_deriv h ?_
  simp only [Fluid.main, main, q_eq]
  have h1 := ho.b; have h2 := ho.q
  generalize V ^ 2 + f.delta * V + f.epsilon = Q at *
  generalize V - f.b = B at *
  field_simp
  ring

/-- **C31.** The five pressure derivatives stored by `main_derivatives_and_departures` are the partial
derivatives of the pressure (the second ones as derivatives of the first ones). The result does not depend
on the pressure argument. -/
theorem C31_pressure (hs : f.Smooth) (hT : 0 < T) (ho : f.Off V) (P P' : ℝ) :
    HasDerivAt (fun T => f.p T V) (f.main T P V).dP_dT T ∧
    HasDerivAt (fun V => f.p T V) (f.main T P V).dP_dV V ∧
    HasDerivAt (fun T => (f.main T P' V).dP_dT) (f.main T P V).d2P_dT2 T ∧
    HasDerivAt (fun V => (f.main T P' V).dP_dV) (f.main T P V).d2P_dV2 V ∧
    HasDerivAt (fun V => (f.main T P' V).dP_dT) (f.main T P V).d2P_dTdV V ∧
    HasDerivAt (fun T => (f.main T P' V).dP_dV) (f.main T P V).d2P_dTdV T := by
  have h1 := ho.b; have h2 := ho.q
  have h0 : HasDerivAt (fun V : ℝ => V - f.b) 1 V := (hasDerivAt_id V).sub_const f.b
  have i0 : HasDerivAt (fun V : ℝ => 1 / (V - f.b)) (-(1 / (V - f.b) * (1 / (V - f.b)))) V := by
    simp only [one_div]
    refine HasDerivAt.congr_deriv (h0.fun_inv h1) ?_
    field_simp
  have hq' : HasDerivAt (fun V : ℝ => V * (V + f.delta) + f.epsilon) (2 * V + f.delta) V := by
    simp only [q_eq]; exact hq f V
  have h2' : V * (V + f.delta) + f.epsilon ≠ 0 := by rw [q_eq]; exact h2
  have i1 : HasDerivAt (fun V : ℝ => 1 / (V * (V + f.delta) + f.epsilon))
      (-((2 * V + f.delta) * (1 / (V * (V + f.delta) + f.epsilon) * (1 / (V * (V + f.delta) + f.epsilon))))) V := by
    simp only [one_div]
    refine HasDerivAt.congr_deriv (hq'.fun_inv h2') ?_
    generalize V * (V + f.delta) + f.epsilon = Q at *
    field_simp
  have i5 : HasDerivAt (fun V : ℝ => V + V + f.delta) 2 V := by
    refine HasDerivAt.congr_deriv (((hasDerivAt_id V).add (hasDerivAt_id V)).add_const f.delta) ?_
    norm_num
  refine ⟨hp_T hs hT V P, hp_V ho T P, ?_, ?_, ?_, ?_⟩
  · refine HasDerivAt.congr_deriv (((hasDerivAt_const T (f.R * (1 / (V - f.b)))).sub
      ((hs.d2 T hT).mul_const (1 / (V * (V + f.delta) + f.epsilon))))) ?_
    simp only [Fluid.main, main]
    ring
  · refine HasDerivAt.congr_deriv ((i5.fun_mul ((i1.fun_mul i1).const_mul (f.a T))).sub
      ((i0.fun_mul i0).const_mul (f.R * T))) ?_
    simp only [Fluid.main, main]
    ring
  · refine HasDerivAt.congr_deriv ((i0.const_mul f.R).sub (i1.const_mul (f.a1 T))) ?_
    simp only [Fluid.main, main]
    ring
  · refine HasDerivAt.congr_deriv ((((hs.d1 T hT).mul_const
      (1 / (V * (V + f.delta) + f.epsilon) * (1 / (V * (V + f.delta) + f.epsilon)))).const_mul (V + V + f.delta)).sub
      (((hasDerivAt_id T).const_mul f.R).mul_const (1 / (V - f.b) * (1 / (V - f.b))))) ?_
    simp only [Fluid.main, main]
    ring

example := C31_pressure demo_smooth (T := 1) one_pos demo_off 0 0

/-- The partial derivatives of the pressure in both variables jointly: the chain rule along any curve. -/
theorem p_chain (hs : f.Smooth) {t₀ T' V' : ℝ} {τ ν : ℝ → ℝ} (hT : 0 < τ t₀) (ho : f.Off (ν t₀))
    (hτ : HasDerivAt τ T' t₀) (hν : HasDerivAt ν V' t₀) (P : ℝ) :
    HasDerivAt (fun t => f.p (τ t) (ν t))
      ((f.main (τ t₀) P (ν t₀)).dP_dT * T' + (f.main (τ t₀) P (ν t₀)).dP_dV * V') t₀ := by
  have ha : HasDerivAt (fun t => f.a (τ t)) (f.a1 (τ t₀) * T') t₀ := (hs.d1 _ hT).comp t₀ hτ
  have hQ : HasDerivAt (fun t => (ν t) ^ 2 + f.delta * ν t + f.epsilon) ((2 * ν t₀ + f.delta) * V') t₀ :=
    (hq f (ν t₀)).comp t₀ hν
  have h := ((hτ.const_mul f.R).fun_div (hν.sub_const f.b) ho.b).sub (ha.fun_div hQ ho.q)
  refine HasDerivAt.congr_deriv h ?_
  simp only [Fluid.main, main, q_eq]
  have h1 := ho.b; have h2 := ho.q
  generalize ν t₀ ^ 2 + f.delta * ν t₀ + f.epsilon = Q at *
  generalize ν t₀ - f.b = B at *
  field_simp
  ring

/-- Reciprocal and cyclic derivatives (1436-1443); infinite values (a zero derivative) are not modelled. -/
structure Recip where
  /-- volume by pressure at constant temperature -/
  dV_dP : ℝ
  /-- temperature by pressure at constant volume -/
  dT_dP : ℝ
  /-- volume by temperature at constant pressure -/
  dV_dT : ℝ
  /-- temperature by volume at constant pressure -/
  dT_dV : ℝ

/-- 1436-1443. -/
noncomputable def recip (m : Main) : Recip :=
  let dV_dP := 1 / m.dP_dV
  let dT_dP := 1 / m.dP_dT
  let dV_dT := (-m.dP_dT) * dV_dP
  { dV_dP := dV_dP, dT_dP := dT_dP, dV_dT := dV_dT, dT_dV := 1 / dV_dT }

/-- **C31.** The reciprocal and cyclic derivatives are what they say: for every differentiable branch of
states on an isotherm, an isochore or an isobar through the state, the derivative along the branch is the
stored value. -/
theorem C31_reciprocal (hs : f.Smooth) (hT : 0 < T) (ho : f.Off V) (P : ℝ)
    (hV0 : (f.main T P V).dP_dV ≠ 0) (hT0 : (f.main T P V).dP_dT ≠ 0) :
    -- isotherm
    (∀ (ν : ℝ → ℝ) (P₀ d : ℝ), ν P₀ = V → HasDerivAt ν d P₀ → (∀ᶠ p in 𝓝 P₀, f.p T (ν p) = p) →
      d = (recip (f.main T P V)).dV_dP) ∧
    -- isochore
    (∀ (τ : ℝ → ℝ) (P₀ d : ℝ), τ P₀ = T → HasDerivAt τ d P₀ → (∀ᶠ p in 𝓝 P₀, f.p (τ p) V = p) →
      d = (recip (f.main T P V)).dT_dP) ∧
    -- isobar
    (∀ (ν : ℝ → ℝ) (P₀ d : ℝ), ν T = V → HasDerivAt ν d T → (∀ᶠ t in 𝓝 T, f.p t (ν t) = P₀) →
      d = (recip (f.main T P V)).dV_dT) ∧
    (∀ (τ : ℝ → ℝ) (P₀ d : ℝ), τ V = T → HasDerivAt τ d V → (∀ᶠ v in 𝓝 V, f.p (τ v) v = P₀) →
      d = (recip (f.main T P V)).dT_dV) := by
  refine ⟨fun ν P₀ d h0 hd he => ?_, fun τ P₀ d h0 hd he => ?_, fun ν P₀ d h0 hd he => ?_, fun τ P₀ d h0 hd he => ?_⟩
  · have h := p_chain hs (τ := fun _ => T) hT (by rw [h0]; exact ho) (hasDerivAt_const P₀ T) hd P
    have h' := (hasDerivAt_id P₀).congr_of_eventuallyEq he
    have := h.unique h'
    rw [h0] at this
    simp only [recip]
    rw [eq_div_iff hV0]
    linarith
  · have h := p_chain hs (ν := fun _ => V) (by rw [h0]; exact hT) ho hd (hasDerivAt_const P₀ V) P
    have h' := (hasDerivAt_id P₀).congr_of_eventuallyEq he
    have := h.unique h'
    rw [h0] at this
    simp only [recip]
    rw [eq_div_iff hT0]
    linarith
  · have h := p_chain hs (τ := fun t => t) hT (by rw [h0]; exact ho) (hasDerivAt_id T) hd P
    have h' := (hasDerivAt_const T P₀).congr_of_eventuallyEq he
    have := h.unique h'
    rw [h0] at this
    simp only [recip]
    field_simp
    linarith
  · have h := p_chain hs (ν := fun v => v) (by rw [h0]; exact hT) ho hd (hasDerivAt_id V) P
    have h' := (hasDerivAt_const V P₀).congr_of_eventuallyEq he
    have := h.unique h'
    rw [h0] at this
    simp only [recip]
    field_simp
    linarith

/-- The demonstration fluid has non-zero derivatives at `T = 1`, `V = 3`. -/
example := C31_reciprocal demo_smooth (T := 1) one_pos demo_off 0 (by norm_num [Fluid.main, main, demo])
  (by norm_num [Fluid.main, main, demo])

/-- **C31.** The van der Waals variant agrees with the general one at `δ = ε = 0` and constant attraction in
all pressure derivatives. -/
theorem C31_vdw {R T P P' V b a : ℝ} (hV : V ≠ 0) :
    (mainVDW R T P V b a).dP_dT = (main R T P' V b 0 0 a 0 0).dP_dT ∧
    (mainVDW R T P V b a).dP_dV = (main R T P' V b 0 0 a 0 0).dP_dV ∧
    (mainVDW R T P V b a).d2P_dT2 = (main R T P' V b 0 0 a 0 0).d2P_dT2 ∧
    (mainVDW R T P V b a).d2P_dV2 = (main R T P' V b 0 0 a 0 0).d2P_dV2 ∧
    (mainVDW R T P V b a).d2P_dTdV = (main R T P' V b 0 0 a 0 0).d2P_dTdV := by
  simp only [mainVDW, main]
  refine ⟨by ring, ?_, by ring, ?_, by ring⟩
  · have : V * (V + 0) + 0 = V * V := by ring
    rw [this]
    generalize 1 / (V - b) = x
    field_simp
    ring
  · have : V * (V + 0) + 0 = V * V := by ring
    rw [this]
    generalize 1 / (V - b) = x
    field_simp
    ring

example := C31_vdw (R := 8) (T := 300) (P := 1) (P' := 2) (V := 3) (b := 1) (a := 5) (by norm_num)

/-! ## C32 -/

/-- `x12` (333): `2 x11 Re atanh(x11 (2V + δ))`. -/
noncomputable def hard (f : Fluid) (V : ℝ) : ℝ :=
  2 * x11of f.delta f.epsilon * reAtanh (x11of f.delta f.epsilon * (V + V + f.delta))

theorem x11_eq (hd : 0 < f.delta ^ 2 - 4 * f.epsilon) :
    x11of f.delta f.epsilon = 1 / √(f.delta ^ 2 - 4 * f.epsilon) := by
  have e : f.delta * f.delta - 2 * f.epsilon - 2 * f.epsilon = f.delta ^ 2 - 4 * f.epsilon := by ring
  simp only [x11of, e, if_pos hd]

/-- Closed form above the poles. -/
theorem hard_eq (h : f.Phys V) : hard f V = 1 / √(f.delta ^ 2 - 4 * f.epsilon) *
    Real.log ((2 * V + f.delta + √(f.delta ^ 2 - 4 * f.epsilon)) / (2 * V + f.delta - √(f.delta ^ 2 - 4 * f.epsilon))) := by
  have hr : 0 < √(f.delta ^ 2 - 4 * f.epsilon) := Real.sqrt_pos.mpr h.disc
  have hq := h.q
  unfold hard reAtanh
  rw [x11_eq h.disc]
  generalize √(f.delta ^ 2 - 4 * f.epsilon) = r at *
  have e1 : V + V + f.delta = 2 * V + f.delta := by ring
  rw [e1]
  generalize 2 * V + f.delta = z at *
  have e2 : (1 + 1 / r * z) / (1 - 1 / r * z) = -((z + r) / (z - r)) := by
    have : z - r ≠ 0 := (sub_pos.mpr hq).ne'
    have h3 : r - z ≠ 0 := (sub_neg.mpr hq).ne
    have h4 : (1 - 1 / r * z) = (r - z) / r := by field_simp
    have h5 : (1 + 1 / r * z) = (r + z) / r := by field_simp
    rw [h4, h5, div_div_div_cancel_right₀ hr.ne', ← neg_sub z r, div_neg, add_comm r z]
  rw [e2, abs_neg, Real.log_abs]
  ring

theorem hard_deriv (h : f.Phys V) : HasDerivAt (hard f) (-(1 / (V ^ 2 + f.delta * V + f.epsilon))) V := by
  have hr : 0 < √(f.delta ^ 2 - 4 * f.epsilon) := Real.sqrt_pos.mpr h.disc
  have hsq := Real.sq_sqrt h.disc.le
  have hq := h.q
  have hQ := h.qpos
  have hev : ∀ᶠ v in 𝓝 V, f.Phys v := by
    have c1 : ∀ᶠ v in 𝓝 V, f.b < v := eventually_gt_nhds h.b
    have c2 : ∀ᶠ v in 𝓝 V, √(f.delta ^ 2 - 4 * f.epsilon) < 2 * v + f.delta := by
      have : ContinuousAt (fun v : ℝ => 2 * v + f.delta) V := by fun_prop
      exact this.eventually (eventually_gt_nhds hq)
    filter_upwards [c1, c2] with v h1 h2 using ⟨h1, h.disc, h2⟩
  obtain ⟨r, hr'⟩ : ∃ r, r = √(f.delta ^ 2 - 4 * f.epsilon) := ⟨_, rfl⟩
  rw [← hr'] at hr hsq hq
  have hz : HasDerivAt (fun v : ℝ => 2 * v + f.delta) 2 V := by
    simpa using ((hasDerivAt_id V).const_mul 2).add_const f.delta
  have hn : 2 * V + f.delta + r ≠ 0 := by linarith
  have hm : 2 * V + f.delta - r ≠ 0 := by linarith
  have hlog := (((hz.add_const r).fun_div (hz.sub_const r) hm).log (div_ne_zero hn hm)).const_mul (1 / r)
  refine (hlog.congr_of_eventuallyEq ?_).congr_deriv ?_
  · filter_upwards [hev] with v hv
    rw [hr']; exact hard_eq hv
  · have hQ' : (2 * V + f.delta + r) * (2 * V + f.delta - r) = 4 * (V ^ 2 + f.delta * V + f.epsilon) := by
      nlinarith
    generalize V ^ 2 + f.delta * V + f.epsilon = Q at *
    generalize 2 * V + f.delta = z at *
    have : Q = (z + r) * (z - r) / 4 := by linarith
    rw [this]
    field_simp
    ring

theorem hard_tendsto (hd : 0 < f.delta ^ 2 - 4 * f.epsilon) : Tendsto (hard f) atTop (𝓝 0) := by
  have hr : 0 < √(f.delta ^ 2 - 4 * f.epsilon) := Real.sqrt_pos.mpr hd
  obtain ⟨r, hr'⟩ : ∃ r, r = √(f.delta ^ 2 - 4 * f.epsilon) := ⟨_, rfl⟩
  have hz : Tendsto (fun v : ℝ => 2 * v + f.delta - r) atTop atTop := by
    have : Tendsto (fun v : ℝ => 2 * v) atTop atTop := tendsto_id.const_mul_atTop (by norm_num)
    have := tendsto_atTop_add_const_right atTop (f.delta - r) this
    refine this.congr fun v => by ring
  have h1 : Tendsto (fun v : ℝ => 1 + 2 * r / (2 * v + f.delta - r)) atTop (𝓝 (1 + 0)) :=
    tendsto_const_nhds.add (hz.const_div_atTop _)
  have h2 : Tendsto (fun v : ℝ => 1 / r * Real.log (1 + 2 * r / (2 * v + f.delta - r))) atTop (𝓝 (1 / r * Real.log (1 + 0))) :=
    (h1.log (by norm_num)).const_mul _
  simp only [add_zero, Real.log_one, mul_zero] at h2
  refine h2.congr' ?_
  filter_upwards [eventually_gt_atTop f.b, eventually_gt_atTop ((r - f.delta) / 2)] with v hb hv
  have hp : f.Phys v := ⟨hb, hd, by rw [← hr']; linarith⟩
  rw [hard_eq hp, ← hr']
  have : 2 * v + f.delta - r ≠ 0 := by
    have : r - f.delta < 2 * v := by linarith
    intro h0; linarith
  congr 2
  rw [eq_div_iff this, add_mul, div_mul_cancel₀ _ this]
  ring

theorem main_H (f : Fluid) (T P V : ℝ) :
    (f.main T P V).H_dep = hard f V * (T * f.a1 T - f.a T) - f.R * T + P * V := rfl

theorem main_S (f : Fluid) (T P V : ℝ) :
    (f.main T P V).S_dep = -f.R * Real.log (f.R * T * (1 / (V - f.b)) / P) + f.a1 T * hard f V := rfl

theorem main_Cv (h : f.Phys V) (T P : ℝ) : (f.main T P V).Cv_dep = T * f.a2 T * hard f V := by
  have hr : 0 < √(f.delta ^ 2 - 4 * f.epsilon) := Real.sqrt_pos.mpr h.disc
  have hsq := Real.sq_sqrt h.disc.le
  rw [hard_eq h]
  simp only [Fluid.main, main]
  rw [x11_eq h.disc]
  obtain ⟨r, hr'⟩ : ∃ r, r = √(f.delta ^ 2 - 4 * f.epsilon) := ⟨_, rfl⟩
  rw [← hr'] at hr hsq ⊢
  have e : 1 / 2 * (1 / r) * (f.delta * f.delta) - (f.epsilon + f.epsilon) * (1 / r) = r / 2 := by
    field_simp
    linarith
  rw [e]
  have e2 : (1 / 2 * (V + V + f.delta) + r / 2) / (1 / 2 * (V + V + f.delta) - r / 2)
      = (2 * V + f.delta + r) / (2 * V + f.delta - r) := by
    rw [← mul_div_mul_left _ _ (two_ne_zero (α := ℝ))]
    congr 1 <;> ring
  rw [e2]
  ring

/-- Departure of the internal energy as the code derives it from `H_dep` (4757). -/
noncomputable def U_dep (f : Fluid) (T P V : ℝ) : ℝ := (f.main T P V).H_dep - P * (V - T * f.R / P)
/-- Departure of the Gibbs energy (1447). -/
noncomputable def G_dep (f : Fluid) (T P V : ℝ) : ℝ := (f.main T P V).H_dep - T * (f.main T P V).S_dep

/-! Limits of the pressure at large volume. -/

theorem tendsto_quad (f : Fluid) : Tendsto (fun v : ℝ => v / (v ^ 2 + f.delta * v + f.epsilon)) atTop (𝓝 0) := by
  have h1 : Tendsto (fun v : ℝ => v + f.delta + f.epsilon / v) atTop atTop :=
    (tendsto_atTop_add_const_right atTop f.delta tendsto_id).atTop_add (tendsto_id.const_div_atTop f.epsilon)
  refine (h1.const_div_atTop 1).congr' ?_
  filter_upwards [eventually_gt_atTop 0] with v hv
  have : v ^ 2 + f.delta * v + f.epsilon = v * (v + f.delta + f.epsilon / v) := by
    field_simp
  rw [this, div_mul_eq_div_div, div_self hv.ne']

theorem tendsto_quad_inv (f : Fluid) : Tendsto (fun v : ℝ => 1 / (v ^ 2 + f.delta * v + f.epsilon)) atTop (𝓝 0) := by
  have h := (tendsto_quad f).mul (tendsto_id.const_div_atTop (1 : ℝ))
  simp only [zero_mul] at h
  refine h.congr' ?_
  filter_upwards [eventually_gt_atTop 0] with v hv
  simp only [id]
  field_simp

theorem tendsto_PV (f : Fluid) (T : ℝ) : Tendsto (fun v => f.p T v * v) atTop (𝓝 (f.R * T)) := by
  have h1 : Tendsto (fun v : ℝ => v - f.b) atTop atTop := by
    simpa [sub_eq_add_neg] using tendsto_atTop_add_const_right atTop (-f.b) tendsto_id
  have h2 : Tendsto (fun v : ℝ => f.R * T * (1 + f.b / (v - f.b)) - f.a T * (v / (v ^ 2 + f.delta * v + f.epsilon)))
      atTop (𝓝 (f.R * T * (1 + 0) - f.a T * 0)) :=
    ((tendsto_const_nhds.add (h1.const_div_atTop _)).const_mul _).sub ((tendsto_quad f).const_mul _)
  simp only [add_zero, mul_one, mul_zero, sub_zero] at h2
  refine h2.congr' ?_
  filter_upwards [eventually_gt_atTop f.b] with v hv
  have : v - f.b ≠ 0 := (sub_pos.mpr hv).ne'
  rw [p_eq]
  generalize v ^ 2 + f.delta * v + f.epsilon = Q at *
  field_simp
  ring

theorem tendsto_PVb (f : Fluid) (T : ℝ) : Tendsto (fun v => f.p T v * (v - f.b)) atTop (𝓝 (f.R * T)) := by
  have h2 : Tendsto (fun v : ℝ => f.R * T - f.a T * (v / (v ^ 2 + f.delta * v + f.epsilon)
      - f.b * (1 / (v ^ 2 + f.delta * v + f.epsilon)))) atTop (𝓝 (f.R * T - f.a T * (0 - f.b * 0))) :=
    tendsto_const_nhds.sub (((tendsto_quad f).sub ((tendsto_quad_inv f).const_mul _)).const_mul _)
  simp only [mul_zero, sub_zero] at h2
  refine h2.congr' ?_
  filter_upwards [eventually_gt_atTop f.b] with v hv
  have : v - f.b ≠ 0 := (sub_pos.mpr hv).ne'
  rw [p_eq]
  generalize v ^ 2 + f.delta * v + f.epsilon = Q at *
  field_simp

theorem tendsto_log_term (hs : f.Smooth) (hT : 0 < T) :
    Tendsto (fun v => Real.log (f.R * T * (1 / (v - f.b)) / f.p T v)) atTop (𝓝 0) := by
  have hRT : 0 < f.R * T := mul_pos hs.R hT
  have h := ((tendsto_const_nhds (x := f.R * T)).div (tendsto_PVb f T) hRT.ne').log (by rw [div_self hRT.ne']; norm_num)
  rw [div_self hRT.ne', Real.log_one] at h
  refine h.congr fun v => ?_
  dsimp only [Pi.div_apply]
  congr 1
  rw [mul_one_div, div_div, mul_comm (f.p T v)]

/-- **C32.** The departure enthalpy: with `U_dep = H_dep - P V + R T` on an isotherm, `U_dep` vanishes as the
volume goes to infinity and its volume derivative is `T ∂P/∂T - P` at every physical volume. These two facts
determine it: `U_dep = ∫_∞^V (T ∂P/∂T - P) dV`. The entropy departure (at the same pressure) vanishes in the
same limit and has the derivative `∂P/∂T + (R/P) ∂P/∂V` (Maxwell's relation minus the ideal gas part), the
heat capacity departure has `T ∂²P/∂T²`, and the Gibbs energy departure has `(V - R T/P) ∂P/∂V`. -/
theorem C32_departures (hs : f.Smooth) (hT : 0 < T) (hV : f.Phys V) {pT pV pTT : ℝ}
    (hpT : HasDerivAt (fun T => f.p T V) pT T) (hpV : HasDerivAt (fun V => f.p T V) pV V)
    (hpTT : HasDerivAt (fun T => deriv (fun T => f.p T V) T) pTT T) :
    (0 < f.p T V → HasDerivAt (fun V => U_dep f T (f.p T V) V) (T * pT - f.p T V) V) ∧
    Tendsto (fun V => U_dep f T (f.p T V) V) atTop (𝓝 0) ∧
    (0 < f.p T V → HasDerivAt (fun V => (f.main T (f.p T V) V).S_dep) (pT + f.R / f.p T V * pV) V) ∧
    Tendsto (fun V => (f.main T (f.p T V) V).S_dep) atTop (𝓝 0) ∧
    HasDerivAt (fun V => (f.main T (f.p T V) V).Cv_dep) (T * pTT) V ∧
    Tendsto (fun V => (f.main T (f.p T V) V).Cv_dep) atTop (𝓝 0) ∧
    (0 < f.p T V → HasDerivAt (fun V => G_dep f T (f.p T V) V) ((V - f.R * T / f.p T V) * pV) V) ∧
    Tendsto (fun V => G_dep f T (f.p T V) V) atTop (𝓝 0) := by
  have hev : ∀ᶠ v in 𝓝 V, f.Phys v := by
    have c1 : ∀ᶠ v in 𝓝 V, f.b < v := eventually_gt_nhds hV.b
    have c2 : ∀ᶠ v in 𝓝 V, √(f.delta ^ 2 - 4 * f.epsilon) < 2 * v + f.delta := by
      have : ContinuousAt (fun v : ℝ => 2 * v + f.delta) V := by fun_prop
      exact this.eventually (eventually_gt_nhds hV.q)
    filter_upwards [c1, c2] with v h1 h2 using ⟨h1, hV.disc, h2⟩
  have hevT : ∀ᶠ v in atTop, f.Phys v := by
    filter_upwards [eventually_gt_atTop f.b, eventually_gt_atTop ((√(f.delta ^ 2 - 4 * f.epsilon) - f.delta) / 2)]
      with v h1 h2 using ⟨h1, hV.disc, by linarith⟩
  have ePT : pT = f.R / (V - f.b) - f.a1 T / (V ^ 2 + f.delta * V + f.epsilon) := by
    rw [hpT.unique (hp_T hs hT V 0)]
    simp only [Fluid.main, main, q_eq]
    ring
  have ePTT : pTT = -f.a2 T / (V ^ 2 + f.delta * V + f.epsilon) := by
    have e : (fun T => deriv (fun T => f.p T V) T) =ᶠ[𝓝 T] fun T => (f.main T 0 V).dP_dT := by
      filter_upwards [eventually_gt_nhds hT] with t ht using (hp_T hs ht V 0).deriv
    have := (hpTT.congr_of_eventuallyEq e.symm).unique (C31_pressure hs hT hV.off 0 0).2.2.1
    rw [this]
    simp only [Fluid.main, main, q_eq]
    ring
  have hQ := hV.qpos
  have hb : 0 < V - f.b := sub_pos.mpr hV.b
  have hRT : 0 < f.R * T := mul_pos hs.R hT
  have hcV : ContinuousAt (fun V => f.p T V) V := hpV.continuousAt
  have kU : 0 < f.p T V → HasDerivAt (fun V => U_dep f T (f.p T V) V) (T * pT - f.p T V) V := by
    intro hP
    refine (((hard_deriv hV).mul_const (T * f.a1 T - f.a T)).congr_of_eventuallyEq ?_).congr_deriv ?_
    · filter_upwards [hcV.eventually (eventually_gt_nhds hP)] with v hv
      simp only [U_dep, main_H]
      field_simp
      ring
    · rw [ePT, p_eq]
      generalize V ^ 2 + f.delta * V + f.epsilon = Q at *
      generalize V - f.b = B at *
      field_simp
      ring
  have kS : 0 < f.p T V → HasDerivAt (fun V => (f.main T (f.p T V) V).S_dep) (pT + f.R / f.p T V * pV) V := by
    intro hP
    have h0 : HasDerivAt (fun v : ℝ => f.R * T * (1 / (v - f.b))) (f.R * T * (-(1 / (V - f.b) ^ 2))) V := by
      simp only [one_div]
      refine HasDerivAt.congr_deriv ((((hasDerivAt_id V).sub_const f.b).fun_inv hb.ne').const_mul _) ?_
      simp only [id]
      field_simp
    have hne : f.R * T * (1 / (V - f.b)) / f.p T V ≠ 0 := by positivity
    have h := (((h0.fun_div hpV hP.ne').log hne).const_mul (-f.R)).add ((hard_deriv hV).const_mul (f.a1 T))
    refine HasDerivAt.congr_deriv h ?_
    rw [ePT]
    generalize f.p T V = P at *
    generalize V ^ 2 + f.delta * V + f.epsilon = Q at *
    generalize V - f.b = B at *
    have hR := hs.R
    field_simp
    ring
  have tU : Tendsto (fun V => U_dep f T (f.p T V) V) atTop (𝓝 0) := by
    have h := (hard_tendsto hV.disc).mul_const (T * f.a1 T - f.a T)
    rw [zero_mul] at h
    have hPpos : ∀ᶠ v in atTop, f.p T v ≠ 0 := by
      have := (tendsto_PV f T).eventually (eventually_gt_nhds hRT)
      filter_upwards [this] with v hv h0
      rw [h0, zero_mul] at hv
      exact lt_irrefl _ hv
    refine h.congr' ?_
    filter_upwards [hPpos] with v hv
    simp only [U_dep, main_H]
    field_simp
    ring
  have tS : Tendsto (fun V => (f.main T (f.p T V) V).S_dep) atTop (𝓝 0) := by
    have h := ((tendsto_log_term hs hT).const_mul (-f.R)).add ((hard_tendsto hV.disc).const_mul (f.a1 T))
    simp only [mul_zero, add_zero] at h
    exact h
  have tH : Tendsto (fun V => (f.main T (f.p T V) V).H_dep) atTop (𝓝 0) := by
    have h := (((hard_tendsto hV.disc).mul_const (T * f.a1 T - f.a T)).sub_const (f.R * T)).add (tendsto_PV f T)
    simp only [zero_mul, zero_sub, neg_add_cancel] at h
    exact h
  refine ⟨kU, tU, kS, tS, ?_, ?_, fun hP => ?_, ?_⟩
  · refine (((hard_deriv hV).const_mul (T * f.a2 T)).congr_of_eventuallyEq ?_).congr_deriv ?_
    · filter_upwards [hev] with v hv using main_Cv hv T _
    · rw [ePTT]; ring
  · have h := (hard_tendsto hV.disc).const_mul (T * f.a2 T)
    rw [mul_zero] at h
    refine h.congr' ?_
    filter_upwards [hevT] with v hv using (main_Cv hv T _).symm
  · have hH : HasDerivAt (fun V => (f.main T (f.p T V) V).H_dep) (T * pT - f.p T V + (pV * V + f.p T V * 1)) V := by
      refine HasDerivAt.congr_deriv ((((hard_deriv hV).mul_const (T * f.a1 T - f.a T)).sub_const (f.R * T)).add
        (hpV.fun_mul (hasDerivAt_id V))) ?_
      rw [ePT, p_eq]
      generalize V ^ 2 + f.delta * V + f.epsilon = Q at *
      generalize V - f.b = B at *
      field_simp
      ring
    refine HasDerivAt.congr_deriv (hH.sub ((kS hP).const_mul T)) ?_
    field_simp
    ring
  · have h := tH.sub (tS.const_mul T)
    simp only [mul_zero, sub_zero] at h
    exact h

example (h : 0 < demo.p 1 3) := C32_departures demo_smooth (T := 1) one_pos demo_phys
  (hp_T demo_smooth one_pos 3 0) (hp_V demo_off 1 0)
  (((C31_pressure demo_smooth one_pos demo_off 0 0).2.2.1).congr_of_eventuallyEq (by
    filter_upwards [eventually_gt_nhds (one_pos : (0 : ℝ) < 1)] with t ht using (hp_T demo_smooth ht 3 0).deriv))

/-- The pressure of the demonstration state is positive. -/
example : 0 < demo.p 1 3 := by norm_num [demo, Fluid.p, pressure]

/-- **C32.** `eos_lnphi` is the Gibbs energy departure over `R T`. -/
theorem C32_lnphi (hs : f.Smooth) (hT : 0 < T) (hV : f.Phys V) {P : ℝ} (hP : 0 < P) :
    eosLnphi f.R T P V f.b f.delta f.epsilon (f.a T) = G_dep f T P V / (f.R * T) := by
  have hr : 0 < √(f.delta ^ 2 - 4 * f.epsilon) := Real.sqrt_pos.mpr hV.disc
  have hq := hV.q
  have hb : 0 < V - f.b := sub_pos.mpr hV.b
  have hR := hs.R
  have e : f.delta * f.delta - 4 * f.epsilon = f.delta ^ 2 - 4 * f.epsilon := by ring
  simp only [G_dep, main_H, main_S, eosLnphi, e]
  rw [hard_eq hV]
  generalize √(f.delta ^ 2 - 4 * f.epsilon) = r at *
  have ez : 2 * V * (1 / r) + f.delta * (1 / r) = (2 * V + f.delta) / r := by ring
  rw [ez]
  have hz0 : 0 < 2 * V + f.delta := hr.trans hq
  generalize 2 * V + f.delta = z at *
  have hm : 0 < z - r := sub_pos.mpr hq
  have e1 : 1 + 4 * (z / r) / ((1 - z / r) * (1 - z / r)) = ((z + r) / (z - r)) ^ 2 := by
    have : 1 - z / r = -(z - r) / r := by field_simp; ring
    rw [this]
    field_simp
    ring
  rw [e1, Real.log_pow]
  have e2 : f.R * T / (P * (V - f.b)) = f.R * T * (1 / (V - f.b)) / P := by field_simp
  rw [e2]
  generalize Real.log ((z + r) / (z - r)) = l1
  generalize Real.log (f.R * T * (1 / (V - f.b)) / P) = l2
  push_cast
  field_simp
  ring

example := C32_lnphi demo_smooth (T := 1) one_pos demo_phys (P := 1) one_pos

/-- **C32.** The van der Waals variant: the same characterisation of its departures for a constant
attraction and `δ = ε = 0`. -/
theorem C32_vdw {R T b a V : ℝ} (hR : 0 < R) (hT : 0 < T) (hb : 0 ≤ b) (hV : b < V)
    (hP : 0 < pressure R T b 0 0 a V) :
    (∀ P, HasDerivAt (fun V => (mainVDW R T P V b a).H_dep - P * V + R * T) (T * (R / (V - b))
      - pressure R T b 0 0 a V) V) ∧
    HasDerivAt (fun V => (mainVDW R T (pressure R T b 0 0 a V) V b a).S_dep)
      (R / (V - b) + R / pressure R T b 0 0 a V * (mainVDW R T (pressure R T b 0 0 a V) V b a).dP_dV) V ∧
    (mainVDW R T (pressure R T b 0 0 a V) V b a).Cv_dep = T * 0 ∧
    (∀ P : ℝ → ℝ, Tendsto (fun V => (mainVDW R T (P V) V b a).H_dep - P V * V + R * T) atTop (𝓝 0)) ∧
    Tendsto (fun V => (mainVDW R T (pressure R T b 0 0 a V) V b a).S_dep) atTop (𝓝 0) := by
  have hV0 : 0 < V := lt_of_le_of_lt hb hV
  have hB : 0 < V - b := sub_pos.mpr hV
  have hi : HasDerivAt (fun v : ℝ => 1 / v) (-(1 / V ^ 2)) V := by
    simp only [one_div]; exact hasDerivAt_inv hV0.ne'
  refine ⟨fun P => ?_, ?_, by simp [mainVDW], fun P => ?_, ?_⟩
  · refine ((hi.const_mul (-a)).congr_of_eventuallyEq ?_).congr_deriv ?_
    · filter_upwards with v
      simp only [mainVDW]; ring
    · simp only [pressure]
      field_simp
      ring
  · let g : Fluid := ⟨R, b, 0, 0, fun _ => a, fun _ => 0, fun _ => 0, fun _ => 0⟩
    have ho : g.Off V := ⟨hB.ne', by simp only [g]; positivity⟩
    have hpV : HasDerivAt (fun V => pressure R T b 0 0 a V) (main R T 0 V b 0 0 a 0 0).dP_dV V := hp_V ho T 0
    have e := (C31_vdw (R := R) (T := T) (P := pressure R T b 0 0 a V) (P' := 0) (b := b) (a := a) hV0.ne').2.1
    rw [← e] at hpV
    have hne : pressure R T b 0 0 a V * V / (R * T) ≠ 0 := by positivity
    have h := ((((hasDerivAt_id V).log hV0.ne').neg.add (((hasDerivAt_id V).sub_const b).log hB.ne')).const_mul R).add
      ((((hpV.fun_mul (hasDerivAt_id V)).div_const (R * T)).log hne).const_mul R)
    refine HasDerivAt.congr_deriv h ?_
    simp only [id]
    generalize pressure R T b 0 0 a V = P at *
    generalize (mainVDW R T P V b a).dP_dV = D at *
    generalize V - b = B at *
    field_simp
    ring
  · have h := (tendsto_id.const_div_atTop (-a) : Tendsto (fun v : ℝ => -a / v) atTop (𝓝 0))
    refine h.congr fun v => ?_
    simp only [mainVDW, id]
    ring
  · let g : Fluid := ⟨R, b, 0, 0, fun _ => a, fun _ => 0, fun _ => 0, fun _ => 0⟩
    have hRT : 0 < R * T := mul_pos hR hT
    have h1 : Tendsto (fun v : ℝ => 1 - b / v) atTop (𝓝 1) := by
      simpa using tendsto_const_nhds.sub (tendsto_id.const_div_atTop b)
    have h2 := h1.log one_ne_zero
    rw [Real.log_one] at h2
    have h3 : Tendsto (fun v => pressure R T b 0 0 a v * v) atTop (𝓝 (R * T)) := tendsto_PV g T
    have h4 := (h3.div_const (R * T)).log (by rw [div_self hRT.ne']; norm_num)
    rw [div_self hRT.ne', Real.log_one] at h4
    have h5 := (h2.const_mul R).add (h4.const_mul R)
    simp only [mul_zero, add_zero] at h5
    refine h5.congr' ?_
    filter_upwards [eventually_gt_atTop 0, eventually_gt_atTop b] with v hv hv'
    simp only [mainVDW]
    rw [show (1 : ℝ) - b / v = (v - b) / v by field_simp, Real.log_div (sub_pos.mpr hv').ne' hv.ne']
    ring

example := C32_vdw (R := 8) (T := 300) (b := 1) (a := 5) (V := 3) (by norm_num) (by norm_num) (by norm_num)
  (by norm_num) (by norm_num [pressure])

/-- **C32, disagreement.** When the two poles of the attraction coincide or are not real (`δ² ≤ 4ε`), the
general function silently drops the attraction from the enthalpy departure: its volume derivative is zero
although `T ∂P/∂T - P` is not. -/
theorem C32_poles_fails (hs : f.Smooth) (hT : 0 < T) (ho : f.Off V) (hd : f.delta ^ 2 - 4 * f.epsilon ≤ 0)
    (ha : f.a T ≠ T * f.a1 T) {P : ℝ} (hP : f.p T V = P) :
    (f.main T P V).H_dep = P * V - f.R * T ∧ (∀ V', hard f V' = 0) ∧ T * (f.main T P V).dP_dT - P ≠ 0 := by
  have hx : x11of f.delta f.epsilon = 0 := by
    unfold x11of
    rw [if_neg]
    intro h
    nlinarith
  have hh : ∀ V', hard f V' = 0 := fun V' => by simp [hard, hx]
  refine ⟨?_, hh, ?_⟩
  · rw [main_H, hh]; ring
  · have h1 := ho.b; have h2 := ho.q
    rw [← hP, p_eq]
    simp only [Fluid.main, main, q_eq]
    generalize V ^ 2 + f.delta * V + f.epsilon = Q at *
    have e : T * (f.R * (1 / (V - f.b)) - f.a1 T * (1 / Q)) - (f.R * T / (V - f.b) - f.a T / Q)
        = (f.a T - T * f.a1 T) / Q := by ring
    rw [e]
    exact div_ne_zero (sub_ne_zero.mpr ha) h2

/-- Coinciding poles with a non-zero attraction. -/
example : ∃ f : Fluid, f.Smooth ∧ f.Off 3 ∧ f.delta ^ 2 - 4 * f.epsilon ≤ 0 ∧ f.a 1 ≠ 1 * f.a1 1 :=
  ⟨⟨1, 1, 2, 1, fun _ => 1, fun _ => 0, fun _ => 0, fun _ => 0⟩,
    ⟨one_pos, fun T _ => hasDerivAt_const T _, fun T _ => hasDerivAt_const T _, fun T _ => hasDerivAt_const T _⟩,
    ⟨by norm_num, by norm_num⟩, by norm_num, by norm_num⟩

end

end Verif.Departure
