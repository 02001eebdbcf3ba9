import Verif.Eos.CubicRoots
import Verif.Flash.Substitution
import Verif.Package.Ideal
import Mathlib.Analysis.SpecialFunctions.Log.Deriv
import Mathlib.Analysis.SpecialFunctions.Pow.Real
import Mathlib.Analysis.Calculus.Deriv.Pow
import Mathlib.Analysis.Complex.ExponentialBounds
import Mathlib.Algebra.BigOperators.Field
import Mathlib.Algebra.Order.BigOperators.Ring.Finset

/-!
# C107: critical point, stability and two phase calculations of a mixture equation of state

`thermo/eos_mix.py`: `_mechanical_critical_point_f_jac` (1243-1350), the guesses of `mechanical_critical_point` (1404-1407),
`sequential_substitution_VL` (1957-2168), `stabiliy_iteration_Michelsen` (2170-2241), `stability_Michelsen` (2243-2328),
`_V_over_F_bubble_T_inner` (2331-2356), `_V_over_F_dew_T_inner` (2359-2386).

The fugacities of the equation of state at the given temperature and pressure are functions of composition, given as parameters, and so is
`flash_inner_loop` (by its contract). The equations and the matrix of `_err_VL_jacobian` (1715-1853) are those of `flash_utils` and
are treated in C91. Convergence of the Newton iteration for the critical point is not modelled.
-/

namespace Verif.MixEquil

open Verif.Cubic Finset

/-! ### Mechanical critical point -/

/-- Values returned by `_mechanical_critical_point_f_jac`. -/
structure Crit where
  /-- `F1` -/
  F1 : ℝ
  /-- `F2` -/
  F2 : ℝ
  /-- `dF1_dT` -/
  F1T : ℝ
  /-- `dF1_dP` -/
  F1P : ℝ
  /-- `dF2_dT` -/
  F2T : ℝ
  /-- `dF2_dP` -/
  F2P : ℝ

/-- `_mechanical_critical_point_f_jac` (1302-1350). -/
noncomputable def crit (R T P b delta epsilon a a1 : ℝ) : Crit :=
  let x6 := 1 / R
  let x7 := 1 / T
  let x0 := a
  let x1 := x6 * x6
  let x2 := x7 * x7
  let x3 := x1 * x2
  let x4 := P * P
  let x5 := epsilon * x3 * x4
  let x8 := P * x6 * x7
  let x9 := delta * x8
  let x10 := b * x8
  let x11 := x10 + 1
  let x12 := x11 - x9
  let x13 := x12 * x12
  let x14 := P * x2 * x6
  let x15 := a1
  let x16 := x6 * x7
  let x17 := x0 * x16
  let x18 := 2 * epsilon * x8
  let x19 := delta * x10
  let x20 := delta * x11
  let x21 := b - delta
  let x22 := 2 / 3 * x12 * x21
  let x23 := P * b * x0 * x1 * x2
  let x24 := b * x5
  let x25 := x11 * x18
  let x26 := x13 * x21 / 9
  { F1 := P * x0 * x3 - x11 * x9 - x13 * (1 / 3) + x5
    F2 := (-x11) * x5 + x13 * x12 * (1 / 27) - b * x0 * x4 * x6 * x1 * x7 * x2
    F1T := x14 * (x15 * x6 - 2 * x17 - x18 + x19 + x20 + x22)
    F1P := x16 * (x17 + x18 - x19 - x20 - x22)
    F2T := x14 * ((-P) * b * x1 * x15 * x7 + 3 * x23 + x24 + x25 - x26)
    F2P := x16 * (-2 * x23 - x24 - x25 + x26) }

/-- The two errors in terms of the coefficients of the cubic. -/
theorem crit_coef {R T P b delta epsilon a : ℝ} (a1 : ℝ) (hR : R ≠ 0) (hT : T ≠ 0) :
    (crit R T P b delta epsilon a a1).F1 = coefC R T P b delta epsilon a - coefB R T P b delta ^ 2 / 3 ∧
    (crit R T P b delta epsilon a a1).F2 = coefD R T P b epsilon a - coefB R T P b delta ^ 3 / 27 := by
  constructor <;> simp only [crit, coefB, coefC, coefD] <;> field_simp <;> ring

/-- **C107.** The two errors vanish together exactly if the three volumes are equal. -/
theorem C107_triple_root {R T P b delta epsilon a : ℝ} (a1 : ℝ) (hR : R ≠ 0) (hT : T ≠ 0) :
    (crit R T P b delta epsilon a a1).F1 = 0 ∧ (crit R T P b delta epsilon a a1).F2 = 0 ↔
      ∃ z, ∀ Z, poly (coefB R T P b delta) (coefC R T P b delta epsilon a) (coefD R T P b epsilon a) Z = (Z - z) ^ 3 := by
  obtain ⟨e1, e2⟩ := crit_coef (P := P) (b := b) (delta := delta) (epsilon := epsilon) (a := a) a1 hR hT
  rw [e1, e2]
  generalize coefB R T P b delta = B
  generalize coefC R T P b delta epsilon a = C
  generalize coefD R T P b epsilon a = D
  constructor
  · rintro ⟨h1, h2⟩
    refine ⟨-B / 3, fun Z => ?_⟩
    simp only [poly]
    linear_combination Z * h1 + h2
  · rintro ⟨z, h⟩
    have h0 := h 0
    have h1 := h 1
    have h2 := h (-1)
    simp only [poly] at h0 h1 h2
    have eB : B = -3 * z := by linear_combination (1 / 2 : ℝ) * h1 + 1 / 2 * h2 - h0
    have eC : C = 3 * z ^ 2 := by linear_combination (1 / 2 : ℝ) * h1 - 1 / 2 * h2
    have eD : D = -z ^ 3 := by linear_combination h0
    rw [eB, eC, eD]
    constructor <;> ring

/-- Pressure times denominators is a cubic polynomial, and so for the slopes. -/
theorem products {R T P b delta epsilon a V : ℝ} (hb : V - b ≠ 0) (hq : V * (V + delta) + epsilon ≠ 0) :
    fval R T P b delta epsilon a V * ((V - b) * (V * (V + delta) + epsilon)) =
      R * T * (V * (V + delta) + epsilon) - P * ((V - b) * (V * (V + delta) + epsilon)) - a * (V - b) ∧
    fder R T b delta epsilon a V * ((V - b) * (V * (V + delta) + epsilon))
      + fval R T P b delta epsilon a V * (V * (V + delta) + epsilon + (V - b) * (V + V + delta)) =
      R * T * (V + V + delta) - P * (V * (V + delta) + epsilon + (V - b) * (V + V + delta)) - a ∧
    fder2 R T b delta epsilon a V * ((V - b) * (V * (V + delta) + epsilon))
      + 2 * fder R T b delta epsilon a V * (V * (V + delta) + epsilon + (V - b) * (V + V + delta))
      + fval R T P b delta epsilon a V * (2 * (V + V + delta) + 2 * (V - b)) =
      R * T * 2 - P * (2 * (V + V + delta) + 2 * (V - b)) := by
  refine ⟨?_, ?_, ?_⟩ <;> simp only [fval, fder, fder2] <;> generalize hs : V - b = s at * <;>
    generalize hr : V * (V + delta) + epsilon = q at * <;> field_simp <;> ring

/-- **C107.** The two errors vanish at a temperature and pressure exactly if there is a mechanical critical point there: a volume at which the
pressure is the given one and its first and second derivatives by volume are zero. That volume is a third of the sum of the three equal ones. -/
theorem C107_critical {R T P b delta epsilon a V : ℝ} (a1 : ℝ) (hR : R ≠ 0) (hT : T ≠ 0) (hP : P ≠ 0) (hb : V - b ≠ 0)
    (hq : V ^ 2 + delta * V + epsilon ≠ 0) :
    (pressure R T b delta epsilon a V = P ∧ deriv (pressure R T b delta epsilon a) V = 0 ∧
      deriv (deriv (pressure R T b delta epsilon a)) V = 0) ↔
    ((crit R T P b delta epsilon a a1).F1 = 0 ∧ (crit R T P b delta epsilon a a1).F2 = 0 ∧
      V = -coefB R T P b delta / 3 * (R * T / P)) := by
  have hq' : V * (V + delta) + epsilon ≠ 0 := by convert hq using 1; ring
  have ep : pressure R T b delta epsilon a = fval R T 0 b delta epsilon a := by
    funext v; rw [fval_eq, sub_zero]
  have hev : ∀ᶠ v in nhds V, v - b ≠ 0 ∧ v * (v + delta) + epsilon ≠ 0 := by
    have c1 : ContinuousAt (fun v : ℝ => v - b) V := by fun_prop
    have c2 : ContinuousAt (fun v : ℝ => v * (v + delta) + epsilon) V := by fun_prop
    exact (c1.eventually_ne hb).and (c2.eventually_ne hq')
  have d1 : deriv (pressure R T b delta epsilon a) V = fder R T b delta epsilon a V := by
    rw [ep]; exact (C27_slopes hb hq').1.deriv
  have d2 : deriv (deriv (pressure R T b delta epsilon a)) V = fder2 R T b delta epsilon a V := by
    have : deriv (pressure R T b delta epsilon a) =ᶠ[nhds V] fder R T b delta epsilon a := by
      filter_upwards [hev] with v hv
      rw [ep]; exact (C27_slopes hv.1 hv.2).1.deriv
    rw [this.deriv_eq]
    exact (C27_slopes (P := 0) hb hq').2.deriv
  have d0 : pressure R T b delta epsilon a V = P ↔ fval R T P b delta epsilon a V = 0 := by
    rw [fval_eq, sub_eq_zero]
  rw [d0, d1, d2]
  obtain ⟨p0, p1, p2⟩ := products (R := R) (T := T) (P := P) (a := a) hb hq'
  set D := (V - b) * (V * (V + delta) + epsilon) with hD
  have hD0 : D ≠ 0 := mul_ne_zero hb hq'
  obtain ⟨e1, e2⟩ := crit_coef (P := P) (b := b) (delta := delta) (epsilon := epsilon) (a := a) a1 hR hT
  -- conditions on the cubic
  have key : (fval R T P b delta epsilon a V = 0 ∧ fder R T b delta epsilon a V = 0 ∧ fder2 R T b delta epsilon a V = 0) ↔
      (R * T * (V * (V + delta) + epsilon) - P * D - a * (V - b) = 0 ∧
        R * T * (V + V + delta) - P * (V * (V + delta) + epsilon + (V - b) * (V + V + delta)) - a = 0 ∧
        R * T * 2 - P * (2 * (V + V + delta) + 2 * (V - b)) = 0) := by
    constructor
    · rintro ⟨h0, h1, h2⟩
      rw [h0] at p0 p1 p2
      rw [h1] at p1 p2
      rw [h2] at p2
      exact ⟨by linarith, by linarith, by linarith⟩
    · rintro ⟨h0, h1, h2⟩
      rw [h0] at p0
      have g0 := (mul_eq_zero.1 p0).resolve_right hD0
      rw [h1, g0] at p1
      have g1 : fder R T b delta epsilon a V = 0 := by
        have : fder R T b delta epsilon a V * D = 0 := by linarith
        exact (mul_eq_zero.1 this).resolve_right hD0
      rw [h2, g0, g1] at p2
      have : fder2 R T b delta epsilon a V * D = 0 := by linarith
      exact ⟨g0, g1, (mul_eq_zero.1 this).resolve_right hD0⟩
  rw [key, e1, e2]
  have hRT : R * T ≠ 0 := mul_ne_zero hR hT
  set k := R * T / P with hk
  have hk0 : k ≠ 0 := div_ne_zero hRT hP
  have rB : coefB R T P b delta * k = delta - b - k := by
    simp only [coefB, hk]; field_simp; try ring
  have rC : coefC R T P b delta epsilon a * k ^ 2 = a / P + epsilon - delta * b - delta * k := by
    simp only [coefC, hk]; field_simp; try ring
  have rD : coefD R T P b epsilon a * k ^ 3 = -(epsilon * b + epsilon * k + a / P * b) := by
    simp only [coefD, hk]; field_simp; try ring
  generalize coefB R T P b delta = B at *
  generalize coefC R T P b delta epsilon a = C at *
  generalize coefD R T P b epsilon a = E at *
  have hRTk : R * T = k * P := by rw [hk]; field_simp
  have haP : a = a / P * P := by field_simp
  clear_value k
  generalize a / P = w at *
  subst haP
  constructor
  · rintro ⟨h0, h1, h2⟩
    rw [hRTk] at h0 h1 h2
    have s2 : 3 * V = -(B * k) := by
      have : P * (3 * V + B * k) = 0 := by rw [rB]; linear_combination (-1 / 2 : ℝ) * h2
      have := (mul_eq_zero.1 this).resolve_left hP
      linarith
    have s1 : C * k ^ 2 = 3 * V ^ 2 := by
      have : P * (C * k ^ 2 - 3 * V ^ 2) = 0 := by
        rw [rC]; linear_combination (-1 : ℝ) * h1 + V * h2
      have := (mul_eq_zero.1 this).resolve_left hP
      linarith
    have s0 : E * k ^ 3 = -V ^ 3 := by
      have : P * (E * k ^ 3 + V ^ 3) = 0 := by
        rw [rD]; rw [hD] at h0; linear_combination (-1 : ℝ) * h0 + V * h1 - 1 / 2 * V ^ 2 * h2
      have := (mul_eq_zero.1 this).resolve_left hP
      linarith
    refine ⟨?_, ?_, by linarith⟩
    · have : (C - B ^ 2 / 3) * k ^ 2 = 0 := by
        linear_combination s1 + (1 / 3 : ℝ) * (3 * V - B * k) * s2
      exact (mul_eq_zero.1 this).resolve_right (pow_ne_zero _ hk0)
    · have : (E - B ^ 3 / 27) * k ^ 3 = 0 := by
        linear_combination s0 - (1 / 27 : ℝ) * (9 * V ^ 2 - 3 * V * (B * k) + (B * k) ^ 2) * s2
      exact (mul_eq_zero.1 this).resolve_right (pow_ne_zero _ hk0)
  · rintro ⟨h1, h2, hV⟩
    have s2 : 3 * V = -(B * k) := by rw [hV]; ring
    have s1 : C * k ^ 2 = 3 * V ^ 2 := by
      linear_combination k ^ 2 * h1 - (1 / 3 : ℝ) * (3 * V - B * k) * s2
    have s0 : E * k ^ 3 = -V ^ 3 := by
      linear_combination k ^ 3 * h2 + (1 / 27 : ℝ) * (9 * V ^ 2 - 3 * V * (B * k) + (B * k) ^ 2) * s2
    rw [hRTk]
    rw [rB] at s2
    rw [rC] at s1
    rw [rD] at s0
    refine ⟨?_, ?_, ?_⟩
    · rw [hD]; linear_combination (-P) * s0 - P * V * s1 - P * V ^ 2 * s2
    · linear_combination (-P) * s1 - 2 * P * V * s2
    · linear_combination (-2 * P) * s2

/-- **C107.** The entries of the matrix of the iteration are the derivatives of the two errors by temperature (the attraction being a function of
it) and by pressure. -/
theorem C107_critical_jacobian {R T P b delta epsilon a1 : ℝ} {a a' : ℝ → ℝ} (hR : R ≠ 0) (hT : T ≠ 0) (ha : HasDerivAt a a1 T) :
    HasDerivAt (fun t => (crit R t P b delta epsilon (a t) (a' t)).F1) (crit R T P b delta epsilon (a T) a1).F1T T ∧
    HasDerivAt (fun p => (crit R T p b delta epsilon (a T) a1).F1) (crit R T P b delta epsilon (a T) a1).F1P P ∧
    HasDerivAt (fun t => (crit R t P b delta epsilon (a t) (a' t)).F2) (crit R T P b delta epsilon (a T) a1).F2T T ∧
    HasDerivAt (fun p => (crit R T p b delta epsilon (a T) a1).F2) (crit R T P b delta epsilon (a T) a1).F2P P := by
  have hi : HasDerivAt (fun t : ℝ => 1 / t) (-(1 / T ^ 2)) T := by
    simp only [one_div]
    exact hasDerivAt_inv hT
  have hx8 : HasDerivAt (fun t : ℝ => P * (1 / R) * (1 / t)) (P * (1 / R) * (-(1 / T ^ 2))) T := hi.const_mul _
  have h2 := hi.fun_mul hi
  have h12 := ((hx8.const_mul b).add_const 1).fun_sub (hx8.const_mul delta)
  have hp8 : HasDerivAt (fun p : ℝ => p * (1 / R) * (1 / T)) (1 * (1 / R) * (1 / T)) P := ((hasDerivAt_id P).mul_const _).mul_const _
  have p12 := ((hp8.const_mul b).add_const 1).fun_sub (hp8.const_mul delta)
  have hpp : HasDerivAt (fun p : ℝ => p * p) (P + P) P := by
    refine ((hasDerivAt_id P).fun_mul (hasDerivAt_id P)).congr_deriv ?_
    simp only [id]; ring
  refine ⟨?_, ?_, ?_, ?_⟩
  · refine (((((ha.const_mul P).fun_mul (h2.const_mul (1 / R * (1 / R)))).fun_sub
      (((hx8.const_mul b).add_const 1).fun_mul (hx8.const_mul delta))).fun_sub ((h12.fun_mul h12).mul_const (1 / 3))).fun_add
      (((h2.const_mul (1 / R * (1 / R))).const_mul epsilon).mul_const (P * P))).congr_deriv ?_
    simp only [crit]
    field_simp
    ring
  · refine ((((((hasDerivAt_id P).mul_const (a T)).mul_const (1 / R * (1 / R) * (1 / T * (1 / T)))).fun_sub
      (((hp8.const_mul b).add_const 1).fun_mul (hp8.const_mul delta))).fun_sub ((p12.fun_mul p12).mul_const (1 / 3))).fun_add
      (hpp.const_mul (epsilon * (1 / R * (1 / R) * (1 / T * (1 / T)))))).congr_deriv ?_
    simp only [crit]
    field_simp
    ring
  · refine (((((hx8.const_mul b).add_const 1).fun_neg).fun_mul
      (((h2.const_mul (1 / R * (1 / R))).const_mul epsilon).mul_const (P * P))).fun_add
      (((h12.fun_mul h12).fun_mul h12).mul_const (1 / 27))).fun_sub
      (((((ha.const_mul b).mul_const (P * P)).mul_const (1 / R)).mul_const (1 / R * (1 / R))).fun_mul hi |>.fun_mul h2) |>.congr_deriv ?_
    simp only [crit]
    field_simp
    ring
  · refine (((((hp8.const_mul b).add_const 1).fun_neg).fun_mul
      (hpp.const_mul (epsilon * (1 / R * (1 / R) * (1 / T * (1 / T)))))).fun_add
      (((p12.fun_mul p12).fun_mul p12).mul_const (1 / 27))).fun_sub
      (((((hpp.const_mul (b * a T)).mul_const (1 / R)).mul_const (1 / R * (1 / R))).mul_const (1 / T)).mul_const (1 / T * (1 / T)))
      |>.congr_deriv ?_
    simp only [crit]
    field_simp
    ring

/-- The critical point of a van der Waals fluid with `a = 27`, `b = 1`, `R = 1`: `T = 8`, `P = 1`, `V = 3`. -/
example : (crit 1 8 1 1 0 0 27 0).F1 = 0 ∧ (crit 1 8 1 1 0 0 27 0).F2 = 0 ∧ (3 : ℝ) = -coefB 1 8 1 1 0 / 3 * (1 * 8 / 1) := by
  norm_num [crit, coefB]

example : pressure 1 8 1 0 0 27 (3 : ℝ) = 1 ∧ deriv (pressure 1 8 1 0 0 27) (3 : ℝ) = 0 ∧ deriv (deriv (pressure 1 8 1 0 0 27)) (3 : ℝ) = 0 :=
  (C107_critical 0 (by norm_num) (by norm_num) (by norm_num) (by norm_num) (by norm_num)).2 (by norm_num [crit, coefB])

example := C107_critical_jacobian (R := 1) (T := 8) (P := 1) (b := 1) (delta := 2) (epsilon := -1) (a := fun t => 27 * t) (a' := fun _ => 27)
  one_ne_zero (by norm_num) ((hasDerivAt_id (8 : ℝ)).const_mul 27)

variable {N : ℕ}

/-- A composition. -/
abbrev Comp (n : ℕ) := Fin n → ℝ

/-- The guesses (1404-1407). -/
noncomputable def guessP (z Pc : Comp N) : ℝ := ∑ i, Pc i * z i

@[inherit_doc guessP] noncomputable def guessT (z Tc : Comp N) : ℝ := ∑ i, ∑ j, √(Tc i * Tc j) * z j * z i

/-- **C107.** The guesses lie between the critical constants of the components. -/
theorem C107_guess (z Tc Pc : Comp N) (hz : ∀ i, 0 ≤ z i) (hs : ∑ i, z i = 1) (hT : ∀ i, 0 ≤ Tc i) (t t' p p' : ℝ) (h0 : 0 ≤ t)
    (ht : ∀ i, t ≤ Tc i ∧ Tc i ≤ t') (hp : ∀ i, p ≤ Pc i ∧ Pc i ≤ p') :
    (t ≤ guessT z Tc ∧ guessT z Tc ≤ t') ∧ (p ≤ guessP z Pc ∧ guessP z Pc ≤ p') := by
  have e : guessT z Tc = (∑ i, √(Tc i) * z i) ^ 2 := by
    unfold guessT
    rw [sq, sum_mul_sum]
    refine sum_congr rfl fun i _ => sum_congr rfl fun j _ => ?_
    rw [Real.sqrt_mul (hT i)]; ring
  have w1 : ∀ c : ℝ, ∑ i, c * z i = c := fun c => by rw [← mul_sum, hs, mul_one]
  have ht0 : 0 ≤ t' := by
    by_contra hc
    have : ∀ i : Fin N, False := fun i => by linarith [hT i, (ht i).2]
    have he : ∑ i, z i = 0 := sum_eq_zero fun i _ => (this i).elim
    rw [hs] at he; norm_num at he
  have l : √t ≤ ∑ i, √(Tc i) * z i := by
    rw [← w1 (√t)]
    exact sum_le_sum fun i _ => mul_le_mul_of_nonneg_right (Real.sqrt_le_sqrt (ht i).1) (hz i)
  have u : ∑ i, √(Tc i) * z i ≤ √t' := by
    rw [← w1 (√t')]
    exact sum_le_sum fun i _ => mul_le_mul_of_nonneg_right (Real.sqrt_le_sqrt (ht i).2) (hz i)
  have h1 := Real.sq_sqrt h0
  have h2 := Real.sq_sqrt ht0
  have h3 := Real.sqrt_nonneg t
  refine ⟨⟨?_, ?_⟩, ?_, ?_⟩
  · rw [e, ← h1]; exact pow_le_pow_left₀ h3 l 2
  · rw [e, ← h2]; exact pow_le_pow_left₀ (h3.trans l) u 2
  · rw [← w1 p]; exact sum_le_sum fun i _ => mul_le_mul_of_nonneg_right (hp i).1 (hz i)
  · rw [← w1 p']; exact sum_le_sum fun i _ => mul_le_mul_of_nonneg_right (hp i).2 (hz i)

example : guessT (![1 / 2, 1 / 2] : Comp 2) ![4, 16] = 9 := by
  have h : ∀ x : ℝ, √(4 * x) = 2 * √x := fun x => by
    rw [Real.sqrt_mul (by norm_num), show (4 : ℝ) = 2 ^ 2 by norm_num, Real.sqrt_sq (by norm_num)]
  have h16 : √(16 : ℝ) = 4 := by rw [show (16 : ℝ) = 4 ^ 2 by norm_num, Real.sqrt_sq (by norm_num)]
  have h4 : √(4 : ℝ) = 2 := by rw [show (4 : ℝ) = 2 ^ 2 by norm_num, Real.sqrt_sq (by norm_num)]
  have h256 : √(16 * 16 : ℝ) = 16 := Real.sqrt_mul_self (by norm_num)
  have h64 : √(16 * 4 : ℝ) = 8 := by rw [mul_comm, h, h16]; norm_num
  simp only [guessT, Fin.sum_univ_two, Matrix.cons_val_zero, Matrix.cons_val_one, h, h4, h16, h256, h64]
  norm_num

/-! ### Stability -/

/-- An equation of state at a temperature and pressure: fugacities of the phase with the lowest Gibbs energy and its label. -/
structure Fluid (N : ℕ) where
  /-- fugacities -/
  fug : Comp N → Comp N
  /-- `'g'` (`true`) or `'l'` -/
  label : Comp N → Bool

/-- `zs_test` (2192-2195). -/
noncomputable def testY (liq : Bool) (z K : Comp N) : Comp N := fun i => if liq then z i / K i else z i * K i

/-- `sum_zs_test` (2197). -/
noncomputable def total (liq : Bool) (z K : Comp N) : ℝ := ∑ i, testY liq z K i

/-- `zs_test_normalized` (2198). -/
noncomputable def testComp (liq : Bool) (z K : Comp N) : Comp N := fun i => testY liq z K i / total liq z K

/-- `corrections` (2216-2219). -/
noncomputable def corr (liq : Bool) (fref f : Comp N) (S : ℝ) : Comp N := fun i => if liq then f i / fref i * S else fref i / (f i * S)

/-- `err` (2222-2223). -/
noncomputable def errC (c : Comp N) : ℝ := ∑ i, (c i - 1) * (c i - 1)

/-- One pass of the loop: total, corrections, new `Ks`, label equal to that of the reference. -/
noncomputable def pass (m : Fluid N) (fref : Comp N) (pref liq : Bool) (z K : Comp N) : ℝ × Comp N × Comp N × Bool :=
  let S := total liq z K
  let c := corr liq fref (m.fug (testComp liq z K)) S
  (S, c, fun i => K i * c i, pref == m.label (testComp liq z K))

/-- `stabiliy_iteration_Michelsen` (2188-2241) from the reference on; `none` is `UnconvergedError` (or, without iterations, a variable
without value). -/
noncomputable def trial (m : Fluid N) (fref : Comp N) (pref liq : Bool) (z : Comp N) (xtol : ℝ) : ℕ → Comp N → Option (ℝ × Comp N × Bool)
  | 0, _ => none
  | n + 1, K =>
    let r := pass m fref pref liq z K
    open Classical in
    if errC r.2.1 < xtol then some (r.1, r.2.2.1, r.2.2.2)
    else if n = 0 then (if r.2.2.2 then some (r.1, r.2.2.1, r.2.2.2) else none)
    else trial m fref pref liq z xtol n r.2.2.1

/-- Tangent plane distance of a composition `y` from the reference composition, divided by `R T`. -/
noncomputable def tpd (m : Fluid N) (ref y : Comp N) : ℝ := ∑ i, y i * (Real.log (m.fug y i) - Real.log (m.fug ref i))

/-- What a trial returns belongs to a last `K`. -/
theorem trial_last (m : Fluid N) (fref : Comp N) (pref liq : Bool) (z : Comp N) (xtol : ℝ) (n : ℕ) (K : Comp N) (S : ℝ) (K' : Comp N) (same : Bool)
    (hf : ∀ y i, 0 < m.fug y i) (hr : ∀ i, 0 < fref i) (hz : ∀ i, 0 < z i) (hK : ∀ i, 0 < K i)
    (h : trial m fref pref liq z xtol n K = some (S, K', same)) :
    ∃ L : Comp N, (∀ i, 0 < L i) ∧ pass m fref pref liq z L = (S, (pass m fref pref liq z L).2.1, K', same) ∧
      (errC (pass m fref pref liq z L).2.1 < xtol ∨ same = true) := by
  induction n generalizing K with
  | zero => cases h
  | succ n ih =>
    unfold trial at h
    dsimp only at h
    by_cases h1 : errC (pass m fref pref liq z K).2.1 < xtol
    · rw [if_pos h1] at h
      cases h
      exact ⟨K, hK, rfl, Or.inl h1⟩
    · rw [if_neg h1] at h
      by_cases h2 : n = 0
      · rw [if_pos h2] at h
        by_cases h3 : (pass m fref pref liq z K).2.2.2 = true
        · rw [if_pos h3] at h
          cases h
          exact ⟨K, hK, rfl, Or.inr h3⟩
        · rw [if_neg h3] at h; cases h
      · rw [if_neg h2] at h
        refine ih _ (fun i => ?_) h
        have hy : ∀ j, 0 < testY liq z K j := fun j => by
          unfold testY; split
          · exact div_pos (hz j) (hK j)
          · exact mul_pos (hz j) (hK j)
        have hS : 0 < total liq z K := sum_pos (fun j _ => hy j) ⟨i, mem_univ i⟩
        refine mul_pos (hK i) ?_
        simp only [corr]
        split
        · exact mul_pos (div_pos (hf _ _) (hr _)) hS
        · exact div_pos (hr _) (mul_pos (hf _ _) hS)

theorem abs_log_le {t e : ℝ} (he : e < 1) (h : |t| ≤ e) : |Real.log (1 + t)| ≤ e / (1 - e) := by
  obtain ⟨h1, h2⟩ := abs_le.1 h
  have h0 : 0 ≤ e := (abs_nonneg t).trans h
  have hp : 0 < 1 + t := by linarith
  have u : Real.log (1 + t) ≤ t := by have := Real.log_le_sub_one_of_pos hp; linarith
  have l : -(Real.log (1 + t)) ≤ -t / (1 + t) := by
    have := Real.log_le_sub_one_of_pos (inv_pos.2 hp)
    rw [Real.log_inv] at this
    refine this.trans (le_of_eq ?_)
    field_simp; ring
  have h3 : e ≤ e / (1 - e) := by
    rw [le_div_iff₀ (by linarith)]; nlinarith
  have h4 : -t / (1 + t) ≤ e / (1 - e) := by
    rw [div_le_div_iff₀ hp (by linarith)]; nlinarith
  rw [abs_le]
  constructor <;> linarith

/-- **C107.** A trial that returns with another label than the reference has found a stationary point of the tangent plane distance, to the
tolerance: the logarithm of the total returned is minus the distance at the trial composition, up to `e / (1 - e)` with `e` the root of
the tolerance. With a tolerance reached exactly they are equal. -/
theorem C107_trial (m : Fluid N) (ref : Comp N) (pref liq : Bool) (z : Comp N) (e : ℝ) (n : ℕ) (K : Comp N) (S : ℝ) (K' : Comp N)
    (hf : ∀ y i, 0 < m.fug y i) (hz : ∀ i, 0 < z i) (hK : ∀ i, 0 < K i) (hN : 0 < N) (h0 : 0 ≤ e) (h1 : e < 1)
    (h : trial m (m.fug ref) pref liq z (e ^ 2) n K = some (S, K', false)) :
    ∃ y : Comp N, (∀ i, 0 < y i) ∧ ∑ i, y i = 1 ∧ m.label y ≠ pref ∧ 0 < S ∧
      (∀ i, |Real.log (m.fug y i) - Real.log (m.fug ref i) + Real.log S| ≤ e / (1 - e)) ∧
      |tpd m ref y + Real.log S| ≤ e / (1 - e) := by
  obtain ⟨L, hL, hp, hc⟩ := trial_last m (m.fug ref) pref liq z (e ^ 2) n K S K' false hf (hf ref) hz hK h
  have hc := hc.resolve_right (by simp)
  have hS' : S = total liq z L := by have := congrArg Prod.fst hp; exact this.symm
  have hlab : (pref == m.label (testComp liq z L)) = false := by
    have := congrArg (fun r : ℝ × Comp N × Comp N × Bool => r.2.2.2) hp; exact this
  have hy : ∀ j, 0 < testY liq z L j := fun j => by
    unfold testY; split
    · exact div_pos (hz j) (hL j)
    · exact mul_pos (hz j) (hL j)
  have hS : 0 < total liq z L := sum_pos (fun j _ => hy j) ⟨⟨0, hN⟩, mem_univ _⟩
  set y := testComp liq z L with hyd
  have hy0 : ∀ i, 0 < y i := fun i => div_pos (hy i) hS
  have hy1 : ∑ i, y i = 1 := by
    have : ∑ i, y i = (∑ i, testY liq z L i) / total liq z L := (sum_div _ _ _).symm
    rw [this]; exact div_self hS.ne'
  have hci : ∀ i, |(pass m (m.fug ref) pref liq z L).2.1 i - 1| ≤ e := fun i => by
    have hle : ((pass m (m.fug ref) pref liq z L).2.1 i - 1) * ((pass m (m.fug ref) pref liq z L).2.1 i - 1) ≤ e ^ 2 :=
      (single_le_sum (f := fun i => ((pass m (m.fug ref) pref liq z L).2.1 i - 1) * ((pass m (m.fug ref) pref liq z L).2.1 i - 1))
        (fun j _ => mul_self_nonneg _) (mem_univ i)).trans hc.le
    rw [← sq] at hle
    exact abs_le_of_sq_le_sq hle h0
  have main : ∀ i, |Real.log (m.fug y i) - Real.log (m.fug ref i) + Real.log S| ≤ e / (1 - e) := fun i => by
    have hb := abs_log_le h1 (hci i)
    rw [add_sub_cancel] at hb
    have f1 := (hf y i).ne'
    have f2 := (hf ref i).ne'
    rw [hS']
    have hv : (pass m (m.fug ref) pref liq z L).2.1 i = corr liq (m.fug ref) (m.fug y) (total liq z L) i := rfl
    rw [hv] at hb
    simp only [corr] at hb
    rcases liq with _ | _
    · rw [if_neg (by simp), Real.log_div f2 (mul_ne_zero f1 hS.ne'), Real.log_mul f1 hS.ne', abs_sub_comm] at hb
      convert hb using 2; ring
    · rw [if_pos rfl, Real.log_mul (div_ne_zero f1 f2) hS.ne', Real.log_div f1 f2] at hb
      exact hb
  refine ⟨y, hy0, hy1, ?_, by rw [hS']; exact hS, main, ?_⟩
  · intro hcon; rw [hcon] at hlab; simp at hlab
  · have : tpd m ref y + Real.log S = ∑ i, y i * (Real.log (m.fug y i) - Real.log (m.fug ref i) + Real.log S) := by
      simp only [tpd, mul_add, sum_add_distrib, ← sum_mul, hy1, one_mul]
    rw [this]
    refine (abs_sum_le_sum_abs _ _).trans ?_
    have hb : ∀ i ∈ univ, |y i * (Real.log (m.fug y i) - Real.log (m.fug ref i) + Real.log S)| ≤ y i * (e / (1 - e)) := fun i _ => by
      rw [abs_mul, abs_of_pos (hy0 i)]
      exact mul_le_mul_of_nonneg_left (main i) (hy0 i).le
    refine (sum_le_sum hb).trans (le_of_eq ?_)
    rw [← sum_mul, hy1, one_mul]

/-- A total greater than one by more than the tolerance shows that the reference is unstable. -/
theorem unstable_of_total {t S e : ℝ} (h : |t + Real.log S| ≤ e / (1 - e)) (hS : Real.exp (e / (1 - e)) < S) : t < 0 := by
  have h1 : e / (1 - e) < Real.log S := by
    have := Real.log_lt_log (Real.exp_pos _) hS
    rwa [Real.log_exp] at this
  have := (abs_le.1 h).2
  linarith

/-- Decision (2278-2313) from phase failures, trivial results and totals that are not greater than one. -/
def decision (pg pl tg tl sg sl : Bool) : Bool :=
  if pg && pl then true
  else if tg && tl then true
  else if sg && tl then true
  else if tg && sl then true
  else if sg && sl then true
  else false

/-- `g_pass`, `l_pass` (2285-2296): no second phase found by a trial. -/
def passes (p t s : Bool) : Bool := p || t || s

/-- **C107.** If a mixture is declared stable, neither trial has found a second phase. The converse holds if the trials agree in whether
they ended in the phase they started from. -/
theorem C107_decision (pg pl tg tl sg sl : Bool) :
    (decision pg pl tg tl sg sl = true → passes pg tg sg = true ∧ passes pl tl sl = true) ∧
    (pg = pl → passes pg tg sg = true → passes pl tl sl = true → decision pg pl tg tl sg sl = true) := by
  revert pg pl tg tl sg sl; decide

example : decision false false true false false true = true := by decide

/-- **C107.** A vapor trial that ends in the liquid and a trivial liquid trial find no second phase, but the mixture is declared unstable; the
variables of the code made for that are not used. -/
theorem C107_decision_fails : ∃ pg pl tg tl sg sl : Bool, passes pg tg sg = true ∧ passes pl tl sl = true ∧ decision pg pl tg tl sg sl = false :=
  ⟨true, false, false, true, false, false, by decide⟩

/-- Result of a stability test. -/
structure Stab (N : ℕ) where
  /-- declared stable -/
  stable : Bool
  /-- returned `Ks` -/
  K : Comp N
  /-- those of the vapor trial -/
  Kg : Comp N
  /-- those of the liquid trial -/
  Kl : Comp N

/-- `stability_Michelsen` (2243-2328) for an object of composition `ref`. -/
noncomputable def stability (m : Fluid N) (ref z K : Comp N) (maxiter : ℕ) (xtol triv stab : ℝ) : Option (Stab N) :=
  match trial m (m.fug ref) (m.label ref) false z xtol maxiter K, trial m (m.fug ref) (m.label ref) true z xtol maxiter K with
  | some (Sg, Kg, pg), some (Sl, Kl, pl) =>
    open Classical in
    let tg := decide (∑ i, Real.log (Kg i) * Real.log (Kg i) < triv)
    let tl := decide (∑ i, Real.log (Kl i) * Real.log (Kl i) < triv)
    let st := decision pg pl tg tl (decide (Sg - 1 < stab)) (decide (Sl - 1 < stab))
    some ⟨st, if st then K else fun i => Kg i * Kl i, Kg, Kl⟩
  | _, _ => none

/-- **C107.** A mixture declared unstable is unstable, if both trials ended with another label than the reference and the limit of the
totals is not finer than the tolerance of the trials: there is a composition with negative tangent plane distance. (The default
limit `1e-7` is finer than the default tolerance `1e-12`, the root of which is `1e-6`.) -/
theorem C107_unstable_partial (m : Fluid N) (ref z K : Comp N) (maxiter : ℕ) (e triv stab : ℝ) (r : Stab N)
    (hf : ∀ y i, 0 < m.fug y i) (hz : ∀ i, 0 < z i) (hK : ∀ i, 0 < K i) (hN : 0 < N) (h0 : 0 ≤ e) (h1 : e < 1)
    (h : stability m ref z K maxiter (e ^ 2) triv stab = some r) (hu : r.stable = false) (hs : Real.exp (e / (1 - e)) < 1 + stab)
    (hp : ∀ liq S K', trial m (m.fug ref) (m.label ref) liq z (e ^ 2) maxiter K ≠ some (S, K', true)) :
    ∃ y : Comp N, (∀ i, 0 < y i) ∧ ∑ i, y i = 1 ∧ tpd m ref y < 0 := by
  classical
  have key : ∀ liq S K', trial m (m.fug ref) (m.label ref) liq z (e ^ 2) maxiter K = some (S, K', false) → ¬ S - 1 < stab →
      ∃ y : Comp N, (∀ i, 0 < y i) ∧ ∑ i, y i = 1 ∧ tpd m ref y < 0 := by
    intro liq S K' ht hS
    obtain ⟨y, y0, y1, -, -, -, hb⟩ := C107_trial m ref (m.label ref) liq z e maxiter K S K' hf hz hK hN h0 h1 ht
    exact ⟨y, y0, y1, unstable_of_total hb (by linarith)⟩
  unfold stability at h
  rcases eg : trial m (m.fug ref) (m.label ref) false z (e ^ 2) maxiter K with _ | ⟨Sg, Kg, pg⟩
  · rw [eg] at h; simp at h
  rcases el : trial m (m.fug ref) (m.label ref) true z (e ^ 2) maxiter K with _ | ⟨Sl, Kl, pl⟩
  · rw [eg, el] at h; simp at h
  rcases pg with _ | _
  swap
  · exact (hp _ _ _ eg).elim
  rcases pl with _ | _
  swap
  · exact (hp _ _ _ el).elim
  rw [eg, el] at h
  simp only [Option.some.injEq] at h
  by_cases c1 : Sg - 1 < stab
  · by_cases c2 : Sl - 1 < stab
    · subst h
      have : decision false false
          (decide (∑ i, Real.log (Kg i) * Real.log (Kg i) < triv)) (decide (∑ i, Real.log (Kl i) * Real.log (Kl i) < triv))
          (decide (Sg - 1 < stab)) (decide (Sl - 1 < stab)) = true := by
        rw [decide_eq_true c1, decide_eq_true c2]
        generalize decide (∑ i, Real.log (Kg i) * Real.log (Kg i) < triv) = u
        generalize decide (∑ i, Real.log (Kl i) * Real.log (Kl i) < triv) = v
        revert u v; decide
      dsimp only at hu
      rw [this] at hu
      cases hu
    · exact key _ _ _ el c2
  · exact key _ _ _ eg c1

/-- **C107.** The `Ks` returned for an unstable mixture are the ratios of the trial phases. -/
theorem C107_ratios (z Kg Kl : Comp N) (i : Fin N) (hz : z i ≠ 0) :
    Kg i * Kl i = testY false z Kg i / testY true z Kl i := by
  simp only [testY, if_true, Bool.false_eq_true, if_false]
  by_cases h : Kl i = 0
  · simp [h]
  · field_simp

example : testY false (![1 / 2, 1 / 2] : Comp 2) ![4, 1 / 4] 0 / testY true ![1 / 2, 1 / 2] ![2, 1 / 2] 0 = 8 := by
  norm_num [testY]

theorem trial_same (m : Fluid N) (fref : Comp N) (pref liq : Bool) (z : Comp N) (xtol : ℝ) (n : ℕ) (K : Comp N) (hl : ∀ y, m.label y = pref) :
    ∃ S K', trial m fref pref liq z xtol (n + 1) K = some (S, K', true) := by
  induction n generalizing K with
  | zero =>
    unfold trial
    have : (pass m fref pref liq z K).2.2.2 = true := by simp [pass, hl]
    dsimp only
    rw [this]
    by_cases h1 : errC (pass m fref pref liq z K).2.1 < xtol
    · exact ⟨_, _, by rw [if_pos h1]⟩
    · exact ⟨_, _, by rw [if_neg h1, if_pos rfl, if_pos rfl]⟩
  | succ n ih =>
    unfold trial
    have : (pass m fref pref liq z K).2.2.2 = true := by simp [pass, hl]
    dsimp only
    rw [this]
    by_cases h1 : errC (pass m fref pref liq z K).2.1 < xtol
    · exact ⟨_, _, by rw [if_pos h1]⟩
    · rw [if_neg h1, if_neg (Nat.succ_ne_zero n)]
      exact ih _

/-- A liquid of two components with the activity coefficients `ln γ₁ = A x₂²`, `ln γ₂ = A x₁²`, `A = 2 ln 3`. -/
noncomputable def splitting : Fluid 2 where
  fug := fun y => ![y 0 * Real.exp (2 * Real.log 3 * y 1 ^ 2), y 1 * Real.exp (2 * Real.log 3 * y 0 ^ 2)]
  label := fun _ => false

/-- **C107.** If the equation of state labels all compositions as the same phase, every mixture is declared stable, also one whose tangent plane
distance is negative for another composition: splits into two liquids are not found. -/
theorem C107_label_fails :
    (∀ (m : Fluid N) (ref z K : Comp N) (maxiter : ℕ) (xtol triv stab : ℝ), (∀ y, m.label y = m.label ref) →
      ∃ r, stability m ref z K (maxiter + 1) xtol triv stab = some r ∧ r.stable = true) ∧
    ∃ (m : Fluid 2) (ref y : Comp 2), (∀ x, m.label x = m.label ref) ∧ (∀ i, 0 < ref i) ∧ ∑ i, ref i = 1 ∧ (∀ i, 0 < y i) ∧ ∑ i, y i = 1
      ∧ tpd m ref y < 0 := by
  constructor
  · intro m ref z K maxiter xtol triv stab hl
    obtain ⟨Sg, Kg, hg⟩ := trial_same m (m.fug ref) (m.label ref) false z xtol maxiter K hl
    obtain ⟨Sl, Kl, hl'⟩ := trial_same m (m.fug ref) (m.label ref) true z xtol maxiter K hl
    refine ⟨⟨true, K, Kg, Kl⟩, ?_, rfl⟩
    unfold stability
    rw [hg, hl']
    simp [decision]
  · refine ⟨splitting, ![1 / 2, 1 / 2], ![3 / 4, 1 / 4], fun _ => rfl, ?_, ?_, ?_, ?_, ?_⟩
    · intro i; fin_cases i <;> norm_num
    · norm_num [Fin.sum_univ_two]
    · intro i; fin_cases i <;> norm_num
    · norm_num [Fin.sum_univ_two]
    · have l34 : Real.log (3 / 4) = Real.log 3 - 2 * Real.log 2 := by
        rw [Real.log_div (by norm_num) (by norm_num), show (4 : ℝ) = 2 ^ 2 by norm_num, Real.log_pow]; norm_num
      have l14 : Real.log (1 / 4) = -(2 * Real.log 2) := by
        rw [one_div, Real.log_inv, show (4 : ℝ) = 2 ^ 2 by norm_num, Real.log_pow]; norm_num
      have l12 : Real.log (1 / 2) = -Real.log 2 := by rw [one_div, Real.log_inv]
      have e : tpd splitting ![1 / 2, 1 / 2] ![3 / 4, 1 / 4] = 5 / 8 * Real.log 3 - Real.log 2 := by
        simp only [tpd, splitting, Fin.sum_univ_two, Matrix.cons_val_zero, Matrix.cons_val_one]
        rw [Real.log_mul (by norm_num) (Real.exp_pos _).ne', Real.log_mul (by norm_num) (Real.exp_pos _).ne',
          Real.log_mul (by norm_num) (Real.exp_pos _).ne', Real.log_exp, Real.log_exp, Real.log_exp, l34, l14, l12]
        ring
      rw [e]
      have : 5 * Real.log 3 < 8 * Real.log 2 := by
        have := Real.log_lt_log (x := 3 ^ 5) (y := 2 ^ 8) (by norm_num) (by norm_num)
        rw [Real.log_pow, Real.log_pow] at this
        exact_mod_cast this
      linarith

/-- **C107.** A trial that has not converged is not reported if its last label is that of the reference. -/
theorem C107_unconverged_fails : ∃ (m : Fluid 1) (z K : Comp 1) (S : ℝ) (K' : Comp 1),
    trial m (m.fug z) (m.label z) false z (1 / 10 ^ 12) 1 K = some (S, K', true) ∧
      1 < errC (corr false (m.fug z) (m.fug (testComp false z K)) S) := by
  obtain ⟨S, K', h⟩ := trial_same (N := 1) ⟨fun y => y, fun _ => true⟩ (fun _ => 1) true false (fun _ => 1) (1 / 10 ^ 12) 0 (fun _ => 1 / 3) (fun _ => rfl)
  refine ⟨⟨fun y => y, fun _ => true⟩, fun _ => 1, fun _ => 1 / 3, S, K', h, ?_⟩
  have hS : S = 1 / 3 := by
    unfold trial at h
    dsimp only at h
    have e : errC (pass (⟨fun y => y, fun _ => true⟩ : Fluid 1) (fun _ => 1) true false (fun _ => 1) fun _ => 1 / 3).2.1 = 4 := by
      norm_num [errC, pass, corr, testComp, testY, total]
    rw [e, if_neg (by norm_num), if_pos rfl] at h
    simp only [pass, beq_self_eq_true, if_true, Option.some.injEq, Prod.mk.injEq] at h
    rw [← h.1]
    norm_num [total, testY]
  rw [hS]
  norm_num [errC, corr, testComp, testY, total]

/-- A liquid of equal parts with vapor pressures three and one, under a vapor at pressure one. -/
noncomputable def boiling : Fluid 2 where
  fug := fun y i => open Classical in if y 0 = 1 / 2 then ![3 / 2, 1 / 2] i else if y i ≤ 0 then 1 else y i
  label := fun y => open Classical in decide (y 0 ≠ 1 / 2)

theorem boiling_pos (y : Comp 2) (i : Fin 2) : 0 < boiling.fug y i := by
  classical
  simp only [boiling]
  split_ifs with h1 h2
  · fin_cases i <;> norm_num
  · exact one_pos
  · exact not_le.1 h2

theorem boiling_trial (n : ℕ) : trial boiling (boiling.fug ![1 / 2, 1 / 2]) (boiling.label ![1 / 2, 1 / 2]) false ![1 / 2, 1 / 2] ((1 / 10) ^ 2) (n + 1)
    ![3, 1] = some (2, ![3, 1], false) := by
  classical
  have hY : testComp false (![1 / 2, 1 / 2] : Comp 2) ![3, 1] = ![3 / 4, 1 / 4] := by
    funext i; fin_cases i <;> norm_num [testComp, testY, total, Fin.sum_univ_two]
  have hS : total false (![1 / 2, 1 / 2] : Comp 2) ![3, 1] = 2 := by norm_num [testY, total, Fin.sum_univ_two]
  have f1 : boiling.fug ![1 / 2, 1 / 2] = ![3 / 2, 1 / 2] := by funext i; simp [boiling]
  have f2 : boiling.fug ![3 / 4, 1 / 4] = ![3 / 4, 1 / 4] := by
    funext i; fin_cases i <;> norm_num [boiling]
  have l1 : boiling.label ![1 / 2, 1 / 2] = false := by simp [boiling]
  have l2 : boiling.label ![3 / 4, 1 / 4] = true := by norm_num [boiling]
  have hc : corr false (![3 / 2, 1 / 2] : Comp 2) ![3 / 4, 1 / 4] 2 = fun _ => 1 := by
    funext i; fin_cases i <;> norm_num [corr]
  unfold trial
  simp only [pass, hY, hS, f1, f2, l1, l2, hc]
  rw [if_pos (by norm_num [errC])]
  simp

example : ∃ y : Comp 2, (∀ i, 0 < y i) ∧ ∑ i, y i = 1 ∧ tpd boiling ![1 / 2, 1 / 2] y < 0 := by
  obtain ⟨y, y0, y1, -, -, -, hb⟩ := C107_trial boiling ![1 / 2, 1 / 2] (boiling.label ![1 / 2, 1 / 2]) false ![1 / 2, 1 / 2] (1 / 10) 20 ![3, 1] 2 ![3, 1]
    boiling_pos (by intro i; fin_cases i <;> norm_num) (by intro i; fin_cases i <;> norm_num) (by norm_num) (by norm_num) (by norm_num)
    (boiling_trial 19)
  refine ⟨y, y0, y1, unstable_of_total hb ?_⟩
  have := Real.exp_one_lt_d9
  have h1 : Real.exp (1 / 10 / (1 - 1 / 10)) ≤ Real.exp (1 / 2) := Real.exp_le_exp.2 (by norm_num)
  have h2 : Real.exp (1 / 2) ^ 2 = Real.exp 1 := by rw [← Real.exp_nat_mul]; norm_num
  have h3 : Real.exp (1 / 2) < 2 := by nlinarith [Real.exp_pos (1 / 2 : ℝ)]
  linarith

theorem boiling_liquid (n : ℕ) : trial boiling (boiling.fug ![1 / 2, 1 / 2]) (boiling.label ![1 / 2, 1 / 2]) true ![1 / 2, 1 / 2] ((1 / 10) ^ 2) (n + 2)
    ![3, 1] = some (2, ![1 / 3, 1], false) := by
  classical
  have hY : testComp true (![1 / 2, 1 / 2] : Comp 2) ![3, 1] = ![1 / 4, 3 / 4] := by
    funext i; fin_cases i <;> norm_num [testComp, testY, total, Fin.sum_univ_two]
  have hS : total true (![1 / 2, 1 / 2] : Comp 2) ![3, 1] = 2 / 3 := by norm_num [testY, total, Fin.sum_univ_two]
  have hY' : testComp true (![1 / 2, 1 / 2] : Comp 2) ![1 / 3, 1] = ![3 / 4, 1 / 4] := by
    funext i; fin_cases i <;> norm_num [testComp, testY, total, Fin.sum_univ_two]
  have hS' : total true (![1 / 2, 1 / 2] : Comp 2) ![1 / 3, 1] = 2 := by norm_num [testY, total, Fin.sum_univ_two]
  have f1 : boiling.fug ![1 / 2, 1 / 2] = ![3 / 2, 1 / 2] := by funext i; simp [boiling]
  have f2 : boiling.fug ![3 / 4, 1 / 4] = ![3 / 4, 1 / 4] := by
    funext i; fin_cases i <;> norm_num [boiling]
  have f3 : boiling.fug ![1 / 4, 3 / 4] = ![1 / 4, 3 / 4] := by
    funext i; fin_cases i <;> norm_num [boiling]
  have l1 : boiling.label ![1 / 2, 1 / 2] = false := by simp [boiling]
  have l2 : boiling.label ![3 / 4, 1 / 4] = true := by norm_num [boiling]
  have hc : corr true (![3 / 2, 1 / 2] : Comp 2) ![1 / 4, 3 / 4] (2 / 3) = ![1 / 9, 1] := by
    funext i; fin_cases i <;> norm_num [corr]
  have hc' : corr true (![3 / 2, 1 / 2] : Comp 2) ![3 / 4, 1 / 4] 2 = fun _ => 1 := by
    funext i; fin_cases i <;> norm_num [corr]
  have hK : (fun i => (![3, 1] : Comp 2) i * (![1 / 9, 1] : Comp 2) i) = ![1 / 3, 1] := by
    funext i; fin_cases i <;> norm_num
  unfold trial
  simp only [pass, hY, hS, f1, f3, l1, hc]
  rw [if_neg (by norm_num [errC, Fin.sum_univ_two]), if_neg (by omega), hK]
  unfold trial
  simp only [pass, hY', hS', f2, l2, hc']
  rw [if_pos (by norm_num [errC])]
  simp

/-- The premises of the theorem on instability are met by the boiling liquid. -/
example : ∃ r, stability boiling ![1 / 2, 1 / 2] ![1 / 2, 1 / 2] ![3, 1] 20 ((1 / 10) ^ 2) (1 / 10 ^ 4) (1 / 2) = some r ∧ r.stable = false ∧
    (∀ liq S K', trial boiling (boiling.fug ![1 / 2, 1 / 2]) (boiling.label ![1 / 2, 1 / 2]) liq ![1 / 2, 1 / 2] ((1 / 10) ^ 2) 20 ![3, 1] ≠
      some (S, K', true)) ∧ Real.exp (1 / 10 / (1 - 1 / 10)) < 1 + 1 / 2 := by
  refine ⟨_, by unfold stability; rw [boiling_trial 19, boiling_liquid 18], ?_, ?_, ?_⟩
  · have hl3 : 1 ≤ Real.log 3 := by
      rw [Real.le_log_iff_exp_le (by norm_num)]
      linarith [Real.exp_one_lt_d9]
    have t1 : ¬ ∑ i : Fin 2, Real.log ((![3, 1] : Comp 2) i) * Real.log ((![3, 1] : Comp 2) i) < 1 / 10 ^ 4 := by
      simp only [Fin.sum_univ_two, Matrix.cons_val_zero, Matrix.cons_val_one, Real.log_one]
      nlinarith
    simp only [t1, decide_false]
    norm_num [decision]
  · intro liq S K'
    rcases liq with _ | _
    · rw [boiling_trial 19]; simp
    · rw [boiling_liquid 18]; simp
  · have h2 : Real.exp (1 / 10 / (1 - 1 / 10)) ^ 9 = Real.exp 1 := by rw [← Real.exp_nat_mul]; norm_num
    by_contra hc
    have := pow_le_pow_left₀ (by norm_num) (not_lt.1 hc) 9
    rw [h2] at this
    have h3 := Real.exp_one_lt_d9
    norm_num at this h3
    linarith

/-! ### Vapor fractions for bubble and dew points -/

open Verif.IdealPackage (IsFlash rr)

/-- `K_value` of chemicals: ratio of fugacity coefficients. -/
noncomputable def ratio (phiL phiG : Comp N) : Comp N := fun i => phiL i / phiG i

/-- `flash_inner_loop`: vapor fraction, liquid, vapor. -/
abbrev Inner (N : ℕ) := Comp N → ℝ × Comp N × Comp N

/-- The loop of `_V_over_F_bubble_T_inner` (2339-2352): fraction and the vapor composition at which the last `Ks` were evaluated. -/
noncomputable def bubble (phiL : Comp N) (phiG : Comp N → Comp N) (P : ℝ) (z : Comp N) (flash : Inner N) (xtol : ℝ) : ℕ → ℝ → Comp N → ℝ × Comp N
  | 0, V, y => (V, y)
  | n + 1, _, y =>
    let r := flash (ratio phiL (phiG y))
    open Classical in
    if n = 0 ∨ ∑ i, |z i * phiL i * P - y i * phiG y i * P| < xtol then (r.1, y) else bubble phiL phiG P z flash xtol n r.1 r.2.2

/-- The result is the flash with the `Ks` of some vapor, which has the fugacities of the liquid to the tolerance, or all iterations are used up. -/
theorem bubble_last (phiL : Comp N) (phiG : Comp N → Comp N) (P : ℝ) (z : Comp N) (flash : Inner N) (xtol : ℝ) (n : ℕ) (V : ℝ) (y : Comp N)
    (hy : ∑ i, y i = 1) (hfl : ∀ K, ∑ i, (flash K).2.2 i = 1) :
    (bubble phiL phiG P z flash xtol (n + 1) V y).1 = (flash (ratio phiL (phiG (bubble phiL phiG P z flash xtol (n + 1) V y).2))).1 ∧
      ∑ i, (bubble phiL phiG P z flash xtol (n + 1) V y).2 i = 1 := by
  induction n generalizing V y with
  | zero =>
    unfold bubble
    rw [if_pos (Or.inl rfl)]
    exact ⟨rfl, hy⟩
  | succ n ih =>
    unfold bubble
    by_cases h : ∑ i, |z i * phiL i * P - y i * phiG y i * P| < xtol
    · rw [if_pos (Or.inr h)]; exact ⟨rfl, hy⟩
    · rw [if_neg (by rintro (h' | h'); exacts [Nat.succ_ne_zero _ h', h h'])]
      exact ih _ _ (hfl _)

/-- **C107.** If the vapor reached has the fugacities of the liquid, the fraction returned is zero: zeros of `_V_over_F_bubble_T_inner` are bubble
points. More generally the sum of the Rachford-Rice equation at no vapor is bounded by the difference of the fugacities. -/
theorem C107_bubble (phiL : Comp N) (phiG : Comp N → Comp N) (P : ℝ) (z y : Comp N) (hP : 0 < P) (hz : ∑ i, z i = 1) (hy : ∑ i, y i = 1)
    (m : ℝ) (hm : 0 < m) (hg : ∀ i, m ≤ phiG y i) :
    |rr z (ratio phiL (phiG y)) 0| ≤ (∑ i, |z i * phiL i * P - y i * phiG y i * P|) / (m * P) ∧
    ((∀ i, z i * phiL i * P = y i * phiG y i * P) → ∀ (V : ℝ) (k : Fin N), (∀ i, 0 ≤ z i) → 0 < z k → phiL k ≠ phiG y k →
      IsFlash z (ratio phiL (phiG y)) V → V = 0) := by
  have hg0 : ∀ i, 0 < phiG y i := fun i => hm.trans_le (hg i)
  have e : rr z (ratio phiL (phiG y)) 0 = ∑ i, (z i * phiL i * P - y i * phiG y i * P) / (phiG y i * P) := by
    have : ∑ i, (z i * phiL i * P - y i * phiG y i * P) / (phiG y i * P) = ∑ i, (z i * (phiL i / phiG y i) - y i) :=
      sum_congr rfl fun i _ => by have := (hg0 i).ne'; field_simp
    rw [this, sum_sub_distrib, hy, ← hz, ← sum_sub_distrib]
    unfold rr ratio
    exact sum_congr rfl fun i _ => by rw [zero_mul, add_zero, div_one]; ring
  constructor
  · rw [e, sum_div]
    refine (abs_sum_le_sum_abs _ _).trans (sum_le_sum fun i _ => ?_)
    rw [abs_div, abs_of_pos (mul_pos (hg0 i) hP)]
    exact div_le_div_of_nonneg_left (abs_nonneg _) (mul_pos hm hP) (mul_le_mul_of_nonneg_right (hg i) hP.le)
  · intro hf V k hz0 hk hne hV
    have h0 : IsFlash z (ratio phiL (phiG y)) 0 := by
      refine ⟨fun i => by simp, ?_⟩
      rw [e]
      exact sum_eq_zero fun i _ => by rw [hf i, sub_self, zero_div]
    refine Verif.IdealPackage.C103_unique z _ V 0 hV h0 hz0 k hk ?_
    unfold ratio
    rw [ne_eq, div_eq_one_iff_eq (hg0 k).ne']
    exact hne

example : ∀ V : ℝ, IsFlash (![1 / 2, 1 / 2] : Comp 2) (ratio ![3 / 2, 1 / 2] ((fun _ _ => 1) (![3 / 4, 1 / 4] : Comp 2))) V → V = 0 := by
  intro V hV
  refine (C107_bubble (N := 2) ![3 / 2, 1 / 2] (fun _ _ => 1) 1 ![1 / 2, 1 / 2] ![3 / 4, 1 / 4] one_pos (by norm_num [Fin.sum_univ_two])
    (by norm_num [Fin.sum_univ_two]) 1 one_pos fun _ => le_refl _).2 ?_ V 0 ?_ (by norm_num) (by norm_num) hV
  · intro i; fin_cases i <;> norm_num
  · intro i; fin_cases i <;> norm_num

/-- The loop of `_V_over_F_dew_T_inner` (2366-2382) for a step of the iteration: the tolerance is compared to a constant, not to the error. -/
noncomputable def dew {S : Type} (step : S → S) (xtol : ℝ) : ℕ → S → S
  | 0, s => s
  | n + 1, s => open Classical in if xtol < 1 / 10 ^ 10 then step s else dew step xtol n (step s)

/-- **C107.** The number of iterations does not depend on the error: one if the tolerance is below `1e-10`, all otherwise. -/
theorem C107_dew_iterations {S : Type} (step : S → S) (xtol : ℝ) (n : ℕ) (s : S) :
    dew step xtol (n + 1) s = if xtol < 1 / 10 ^ 10 then step s else step^[n + 1] s := by
  by_cases h : xtol < 1 / 10 ^ 10
  · unfold dew; rw [if_pos h, if_pos h]
  · rw [if_neg h]
    have : ∀ k s, dew step xtol k s = step^[k] s := by
      intro k
      induction k with
      | zero => intro s; rfl
      | succ k ih => intro s; unfold dew; rw [if_neg h, ih]; rfl
    exact this _ _

example : dew (fun x : ℝ => x / 2) (1 / 10 ^ 10) 3 1 = 1 / 8 := by
  rw [C107_dew_iterations, if_neg (lt_irrefl _)]; norm_num

/-- **C107.** A smaller tolerance gives a larger error: with the default tolerance the iteration halving the error is within `1e-5` of its limit
after the 20 iterations, with a tolerance of `1e-11` its error is a half. -/
theorem C107_dew_tolerance_fails : ∃ step : ℝ → ℝ, (∀ x, step x = x / 2) ∧ |dew step (1 / 10 ^ 10) 20 1| < 1 / 10 ^ 5 ∧
    |dew step (1 / 10 ^ 11) 20 1| = 1 / 2 := by
  refine ⟨fun x => x / 2, fun _ => rfl, ?_, ?_⟩
  · rw [C107_dew_iterations, if_neg (lt_irrefl _)]; norm_num
  · rw [C107_dew_iterations, if_pos (by norm_num)]; norm_num

/-! ### Sequential substitution -/

/-- How the start of `sequential_substitution_VL` ends. -/
inductive Start (α : Type) where
  | ok (a : α)
  | valueError
  | unbound
  deriving DecidableEq

/-- First success in `Ks_extra`; `true` if an exception was handled before (which unbinds the name `e`, 1978-1983). -/
def extras {K α : Type} (flash : K → Option α) : List K → Bool → Option α × Bool
  | [], u => (none, u)
  | k :: r, u => match flash k with
    | some a => (some a, u)
    | none => extras flash r true

/-- Lines 1972-1985. -/
def ssStart {K α : Type} (flash : K → Option α) (k : K) (extra : Option (List K)) : Start α :=
  match flash k with
  | some a => .ok a
  | none => match extra with
    | none => .valueError
    | some l => match extras flash l false with
      | (some a, _) => .ok a
      | (none, true) => .unbound
      | (none, false) => .valueError

theorem extras_spec {K α : Type} (flash : K → Option α) (l : List K) (u : Bool) :
    (extras flash l u).1 = l.findSome? flash ∧ (l.findSome? flash = none → (extras flash l u).2 = (u || !l.isEmpty)) := by
  induction l generalizing u with
  | nil => simp [extras]
  | cons k r ih =>
    rcases h : flash k with _ | a
    · simp only [extras, h, List.findSome?_cons]
      obtain ⟨h1, h2⟩ := ih true
      exact ⟨h1, fun h' => by rw [h2 h']; simp⟩
    · simp [extras, h]

/-- **C107.** The start is the first success among the guesses, in order; without further guesses failure is a `ValueError`. -/
theorem C107_start {K α : Type} (flash : K → Option α) (k : K) (l : List K) (a : α) :
    (ssStart flash k (some l) = .ok a ↔ (k :: l).findSome? flash = some a) ∧
    (flash k = none → ssStart flash k none = .valueError ∧ ssStart flash k (some []) = .valueError) := by
  constructor
  · rcases h : flash k with _ | b
    · have e := extras_spec flash l false
      rcases hx : extras flash l false with ⟨o, u⟩
      rw [hx] at e
      simp only [ssStart, h, hx, List.findSome?_cons, ← e.1]
      rcases o with _ | b
      · rcases u with _ | _ <;> simp
      · simp
    · simp [ssStart, h]
  · intro h
    simp [ssStart, h, extras]

example : ssStart (fun k : ℕ => if k = 2 then some k else none) 0 (some [1, 2, 3]) = .ok 2 := by decide

/-- **C107.** If further guesses are given and all fail, the exception to be raised has lost its name: an `UnboundLocalError` (not the `ValueError`
the callers handle). -/
theorem C107_start_fails {K α : Type} (flash : K → Option α) (k k' : K) (l : List K) (h : ∀ x ∈ k :: k' :: l, flash x = none) :
    ssStart flash k (some (k' :: l)) = .unbound := by
  have h0 := h k (by simp)
  have hn : (k' :: l).findSome? flash = none := List.findSome?_eq_none_iff.2 fun x hx => h x (List.mem_cons_of_mem _ hx)
  obtain ⟨e1, e2⟩ := extras_spec flash (k' :: l) false
  rcases hx : extras flash (k' :: l) false with ⟨o, u⟩
  rw [hx] at e1 e2
  have hu := e2 hn
  dsimp only at e1 hu
  rw [hn] at e1
  subst e1
  simp at hu
  subst hu
  simp only [ssStart, h0, hx]

example : ssStart (fun _ : ℕ => (none : Option ℕ)) 0 (some [1]) = .unbound := C107_start_fails _ 0 1 [] (by simp)

open Verif.FlashSS (Prob Ks renorm compDiff InnerOk Balanced IsComp inner_balanced Ks_pos renorm_of_nonneg)

/-- Exceptions of the loop. -/
inductive Err where
  | trivialSolution | unconverged | rachfordRice | zeroDivision
  deriving DecidableEq

/-- Results: fraction, compositions, compositions of the equation of state objects, error. -/
structure Out (n : ℕ) where
  /-- `V_over_F` -/
  V : ℝ
  /-- `xs` -/
  xs : Comp n
  /-- `ys` -/
  ys : Comp n
  /-- composition of `eos_l` -/
  lComp : Comp n
  /-- composition of `eos_g` -/
  gComp : Comp n
  /-- `err3` -/
  err : ℝ

/-- `err3` (2121-2129). -/
noncomputable def err3 (K x y : Comp N) : ℝ := ∑ i, (K i * x i / y i - 1) * (K i * x i / y i - 1)

/-- The loop (1991-2164); `near` is `near_critical`. -/
noncomputable def ssRun (p : Prob N) (near : Bool) : ℕ → ℝ → Comp N → Comp N → Except Err (Out N)
  | 0, _, _, _ => .error .unconverged
  | n + 1, V, x, y =>
    match p.inner (Ks p x y) V with
    | none => .error .rachfordRice
    | some (V', x', y') =>
      open Classical in
      if ∃ i, y i = 0 then .error .zeroDivision
      else if near = true ∧ compDiff (renorm x') (renorm y') < p.trivialTol then .error .trivialSolution
      else if err3 (Ks p x y) x y < p.tol then .ok ⟨V', renorm x', renorm y', x, y, err3 (Ks p x y) x y⟩
      else ssRun p near n V' (renorm x') (renorm y')

/-- What the loop returns is a flash with the `Ks` of the compositions of the objects. -/
theorem ssRun_last (p : Prob N) (near : Bool) (hin : InnerOk p.zs p.inner) (hz : IsComp p.zs) (n : ℕ) (V : ℝ) (x y : Comp N) (o : Out N)
    (h : ssRun p near n V x y = .ok o) :
    (∃ g, p.inner (Ks p o.lComp o.gComp) g = some (o.V, o.xs, o.ys)) ∧ (∀ i, o.gComp i ≠ 0) ∧ o.err = err3 (Ks p o.lComp o.gComp) o.lComp o.gComp ∧
      o.err < p.tol ∧ (near = true → p.trivialTol ≤ compDiff o.xs o.ys) := by
  induction n generalizing V x y with
  | zero => cases h
  | succ n ih =>
    unfold ssRun at h
    split at h
    · cases h
    · rename_i V' x' y' he
      obtain ⟨-, hx, hy⟩ := inner_balanced hin hz (Ks_pos p x y) he
      rw [renorm_of_nonneg x' hx.1, renorm_of_nonneg y' hy.1] at h
      by_cases h0 : ∃ i, y i = 0
      · rw [if_pos h0] at h; cases h
      rw [if_neg h0] at h
      by_cases h1 : near = true ∧ compDiff x' y' < p.trivialTol
      · rw [if_pos h1] at h; cases h
      rw [if_neg h1] at h
      by_cases h2 : err3 (Ks p x y) x y < p.tol
      · rw [if_pos h2] at h
        cases h
        push Not at h0 h1
        exact ⟨⟨V, he⟩, h0, rfl, h2, h1⟩
      · rw [if_neg h2] at h
        exact ih _ _ _ h

/-- **C107.** What sequential substitution returns are two compositions that make up the feed and (near the critical point) differ; the fugacities
of the returned objects agree to the tolerance. -/
theorem C107_substitution (p : Prob N) (near : Bool) (hin : InnerOk p.zs p.inner) (hz : IsComp p.zs) (n : ℕ) (V : ℝ) (x y : Comp N) (o : Out N)
    (h : ssRun p near n V x y = .ok o) (P : ℝ) (hP : 0 < P) :
    (∀ i, (1 - o.V) * o.xs i + o.V * o.ys i = p.zs i) ∧ ((∀ i, 0 ≤ o.xs i) ∧ ∑ i, o.xs i = 1) ∧ ((∀ i, 0 ≤ o.ys i) ∧ ∑ i, o.ys i = 1) ∧
    (near = true → p.trivialTol ≤ ∑ i, |o.xs i - o.ys i|) ∧
    ∀ i, ((Real.exp (p.lnphiL o.lComp i) * o.lComp i * P) / (Real.exp (p.lnphiG o.gComp i) * o.gComp i * P) - 1) ^ 2 < p.tol := by
  obtain ⟨⟨g, he⟩, h0, h1, h2, h3⟩ := ssRun_last p near hin hz n V x y o h
  obtain ⟨hb, hx, hy⟩ := inner_balanced hin hz (Ks_pos p o.lComp o.gComp) he
  refine ⟨hb, hx, hy, h3, fun i => ?_⟩
  rw [h1] at h2
  refine lt_of_le_of_lt ?_ h2
  refine le_trans (le_of_eq ?_) (single_le_sum
    (f := fun i => (Ks p o.lComp o.gComp i * o.lComp i / o.gComp i - 1) * (Ks p o.lComp o.gComp i * o.lComp i / o.gComp i - 1))
    (fun j _ => mul_self_nonneg _) (mem_univ i))
  have := Real.exp_pos (p.lnphiG o.gComp i)
  have := h0 i
  rw [← sq]
  unfold Ks
  rw [Real.exp_sub]
  field_simp

/-- **C107.** If the error is exactly zero and the objects are those of a flash, their compositions are the ones returned. -/
theorem C107_substitution_exact (p : Prob N) (near : Bool) (hin : InnerOk p.zs p.inner) (hz : IsComp p.zs) (n : ℕ) (V : ℝ) (x y : Comp N) (o : Out N)
    (h : ssRun p near n V x y = .ok o) (he : o.err = 0) (K0 : Comp N) (V0 : ℝ) (hf : IsFlash p.zs K0 V0)
    (hl : o.lComp = Verif.IdealPackage.xs p.zs K0 V0) (hg : o.gComp = Verif.IdealPackage.ys p.zs K0 V0) (k : Fin N) (hk : K0 k ≠ 1) :
    o.xs = o.lComp ∧ o.ys = o.gComp ∧ o.V = V0 := by
  obtain ⟨⟨g, hi⟩, h0, h1, -, -⟩ := ssRun_last p near hin hz n V x y o h
  have hz0 : ∀ i, 0 < p.zs i := fun i => by
    refine lt_of_le_of_ne (hz.1 i) fun h' => h0 i ?_
    rw [hg]; simp [Verif.IdealPackage.ys, Verif.IdealPackage.xs, ← h']
  have hK : Ks p o.lComp o.gComp = K0 := by
    funext i
    rw [h1] at he
    have hi0 := (sum_eq_zero_iff_of_nonneg (fun j _ => mul_self_nonneg _)).1 he i (mem_univ i)
    have h2 : Ks p o.lComp o.gComp i * o.lComp i / o.gComp i = 1 := by
      have := mul_self_eq_zero.1 hi0; linarith
    rw [div_eq_one_iff_eq (h0 i)] at h2
    have hx : o.lComp i ≠ 0 := by
      rw [hl]; exact div_ne_zero (hz0 i).ne' (hf.1 i).ne'
    have h3 : o.gComp i = K0 i * o.lComp i := by rw [hl, hg]; rfl
    rw [h3] at h2
    exact mul_right_cancel₀ hx h2
  rw [hK] at hi
  obtain ⟨hd, hx, hy, hr⟩ := hin K0 g o.V o.xs o.ys hi
  have hV : o.V = V0 := Verif.IdealPackage.C103_unique p.zs K0 o.V V0 ⟨hd, hr⟩ hf hz.1 k (hz0 k) hk
  have ex : o.xs = o.lComp := by
    funext i; rw [hx i, hl, hV]; rfl
  exact ⟨ex, by funext i; rw [hy i, ex, hl, hg]; rfl, hV⟩

/-- The parts of the example of C90: an inner loop and a problem with constant `Ks`. -/
theorem ideal_run (near : Bool) (n : ℕ) (V : ℝ) (x y : Comp 3) (hy : ∀ i, y i ≠ 0) (he : err3 Verif.FlashSS.kDemo x y = 0) :
    ssRun Verif.FlashSS.ideal near (n + 1) V x y = .ok ⟨1 / 2, ![4 / 15, 8 / 15, 1 / 5], ![8 / 15, 4 / 15, 1 / 5], x, y, 0⟩ := by
  unfold ssRun
  rw [Verif.FlashSS.ideal_K]
  have : Verif.FlashSS.ideal.inner Verif.FlashSS.kDemo V = some (1 / 2, ![4 / 15, 8 / 15, 1 / 5], ![8 / 15, 4 / 15, 1 / 5]) :=
    Verif.FlashSS.innerDemo_k V
  rw [this]
  dsimp only
  rw [renorm_of_nonneg _ Verif.FlashSS.xDemo_nonneg, renorm_of_nonneg _ Verif.FlashSS.yDemo_nonneg, if_neg (by push Not; exact hy),
    Verif.FlashSS.demo_diff, if_neg (by norm_num [Verif.FlashSS.ideal]), he, if_pos (by norm_num [Verif.FlashSS.ideal])]

example : ∃ o, ssRun Verif.FlashSS.ideal true 1000 (1 / 2) ![4 / 15, 8 / 15, 1 / 5] ![8 / 15, 4 / 15, 1 / 5] = .ok o ∧ o.xs = o.lComp :=
  ⟨_, ideal_run true 999 _ _ _ (by intro i; fin_cases i <;> norm_num) (by simp [err3, Fin.sum_univ_three, Verif.FlashSS.kDemo]; try norm_num), rfl⟩

/-- **C107.** Given start compositions that happen to have equal fugacities, the objects returned have these compositions and not the ones
returned; they do not make up the feed with the fraction returned. -/
theorem C107_objects_fails : ∃ (p : Prob 3) (x y : Comp 3) (o : Out 3), InnerOk p.zs p.inner ∧ IsComp p.zs ∧ IsComp x ∧ IsComp y ∧
    ssRun p true 1000 (1 / 2) x y = .ok o ∧ o.err = 0 ∧ o.lComp ≠ o.xs ∧ ∃ i, (1 - o.V) * o.lComp i + o.V * o.gComp i ≠ p.zs i := by
  refine ⟨Verif.FlashSS.ideal, ![1 / 4, 1 / 2, 1 / 4], ![1 / 2, 1 / 4, 1 / 4], _, Verif.FlashSS.innerDemo_ok, Verif.FlashSS.zDemo_comp, ⟨?_, ?_⟩, ⟨?_, ?_⟩,
    ideal_run true 999 _ _ _ (by intro i; fin_cases i <;> norm_num) (by simp [err3, Fin.sum_univ_three, Verif.FlashSS.kDemo]; try norm_num), rfl, ?_, 2, ?_⟩
  · intro i; fin_cases i <;> norm_num
  · simp [Fin.sum_univ_three]; norm_num
  · intro i; fin_cases i <;> norm_num
  · simp [Fin.sum_univ_three]; norm_num
  · intro h
    have := congrFun h 0
    norm_num at this
  · simp [Verif.FlashSS.ideal, Verif.FlashSS.zDemo]; norm_num

end Verif.MixEquil
