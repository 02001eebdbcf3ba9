import Mathlib.Analysis.SpecialFunctions.Log.Deriv
import Mathlib.Analysis.SpecialFunctions.ExpDeriv
import Mathlib.Tactic.FieldSimp
import Mathlib.Tactic.Ring
import Mathlib.Tactic.NormNum

/-!
# Exponential interaction parameters (`thermo/activity.py` 144-260)

C21: the derivative functions are the derivatives of `interaction_exp`, entry by entry. The matrix loops
treat every entry alike, so a matrix is a function of two indexes and the model has one entry function.
-/

namespace Verif.InteractionExp

open Real

/-- Coefficient matrices `A` to `F`. -/
structure Coeffs (N : ℕ) where
  A : Fin N → Fin N → ℝ
  B : Fin N → Fin N → ℝ
  C : Fin N → Fin N → ℝ
  D : Fin N → Fin N → ℝ
  E : Fin N → Fin N → ℝ
  F : Fin N → Fin N → ℝ

variable {N : ℕ} (c : Coeffs N)

/-- `interaction_exp` (144-181). -/
noncomputable def lam (T : ℝ) (i j : Fin N) : ℝ :=
  let T2 := T * T
  let Tinv := 1 / T
  let T2inv := Tinv * Tinv
  let logT := log T
  exp (c.A i j + c.B i j * Tinv + c.C i j * logT + c.D i j * T + c.E i j * T2inv + c.F i j * T2)

/-- `dinteraction_exp_dT` (184-204) given the matrix of parameters. -/
noncomputable def dlam (T : ℝ) (lambdas : Fin N → Fin N → ℝ) (i j : Fin N) : ℝ :=
  let T2 := T + T
  let Tinv := 1 / T
  let nT2inv := -Tinv * Tinv
  let nT3inv2 := 2 * nT2inv * Tinv
  (T2 * c.F i j + c.D i j + c.C i j * Tinv + c.B i j * nT2inv + c.E i j * nT3inv2) * lambdas i j

/-- `d2interaction_exp_dT2` (206-227). -/
noncomputable def d2lam (T : ℝ) (lambdas dlambdas : Fin N → Fin N → ℝ) (i j : Fin N) : ℝ :=
  let Tinv := 1 / T
  let nT2inv := -Tinv * Tinv
  let T3inv2 := -2 * nT2inv * Tinv
  let T4inv6 := 3 * T3inv2 * Tinv
  (2 * c.F i j + nT2inv * c.C i j + T3inv2 * c.B i j + T4inv6 * c.E i j) * lambdas i j
    + dlambdas i j * dlambdas i j / lambdas i j

/-- `d3interaction_exp_dT3` (229-260). -/
noncomputable def d3lam (T : ℝ) (lambdas dlambdas : Fin N → Fin N → ℝ) (i j : Fin N) : ℝ :=
  let Tinv := 1 / T
  let Tinv3 := 3 * Tinv
  let nT2inv := -Tinv * Tinv
  let nT2inv05 := 0.5 * nT2inv
  let T3inv := -nT2inv * Tinv
  let T3inv2 := T3inv + T3inv
  let T4inv3 := 1.5 * T3inv2 * Tinv
  let T2_12 := -12 * nT2inv
  let term2 := c.F i j + nT2inv05 * c.C i j + T3inv * c.B i j + T4inv3 * c.E i j
  let term3 := dlambdas i j / lambdas i j
  let term4 := T3inv2 * (c.C i j - Tinv3 * c.B i j - T2_12 * c.E i j)
  (term3 * (6 * term2 + term3 * term3) + term4) * lambdas i j

theorem lam_pos (T : ℝ) (i j : Fin N) : 0 < lam c T i j := exp_pos _

/-- The first derivative of the exponent. -/
noncomputable def L1 (T : ℝ) (i j : Fin N) : ℝ :=
  2 * c.F i j * T + c.D i j + c.C i j / T - c.B i j / T ^ 2 - 2 * c.E i j / T ^ 3

noncomputable def L2 (T : ℝ) (i j : Fin N) : ℝ :=
  2 * c.F i j - c.C i j / T ^ 2 + 2 * c.B i j / T ^ 3 + 6 * c.E i j / T ^ 4

noncomputable def L3 (T : ℝ) (i j : Fin N) : ℝ :=
  2 * c.C i j / T ^ 3 - 6 * c.B i j / T ^ 4 - 24 * c.E i j / T ^ 5

theorem inv_pow_deriv (k : ℕ) {T : ℝ} (hT : T ≠ 0) :
    HasDerivAt (fun T : ℝ => (T ^ k)⁻¹) (-(k : ℝ) * (T ^ (k + 1))⁻¹) T := by
  have h := (hasDerivAt_pow k T).inv (pow_ne_zero k hT)
  refine HasDerivAt.congr_deriv h ?_
  cases k with
  | zero => simp
  | succ k =>
    simp only [Nat.add_sub_cancel]
    field_simp
    ring

theorem lam_deriv {T : ℝ} (hT : T ≠ 0) (i j : Fin N) :
    HasDerivAt (fun T => lam c T i j) (L1 c T i j * lam c T i j) T := by
  have h1 := (inv_pow_deriv 1 hT).const_mul (c.B i j)
  have h2 := (inv_pow_deriv 2 hT).const_mul (c.E i j)
  have h := ((((((hasDerivAt_const T (c.A i j)).add h1).add ((hasDerivAt_log hT).const_mul (c.C i j))).add
    ((hasDerivAt_id T).const_mul (c.D i j))).add h2).add
    ((hasDerivAt_pow 2 T).const_mul (c.F i j))).exp
  have he : (fun T => lam c T i j) = fun T => exp (c.A i j + c.B i j * (T ^ 1)⁻¹ + c.C i j * log T
      + c.D i j * T + c.E i j * (T ^ 2)⁻¹ + c.F i j * T ^ 2) := by
    funext T
    simp only [lam]
    congr 1
    simp only [pow_one, pow_two, mul_inv, one_div]
  have heT : lam c T i j = exp (c.A i j + c.B i j * (T ^ 1)⁻¹ + c.C i j * log T
      + c.D i j * T + c.E i j * (T ^ 2)⁻¹ + c.F i j * T ^ 2) := congrFun he T
  rw [heT, he]
  refine HasDerivAt.congr_deriv h ?_
  rw [mul_comm]
  simp only [L1, Pi.add_apply, id, Nat.cast_one, Nat.cast_ofNat]
  congr 1
  norm_num
  field_simp
  ring

theorem L1_deriv {T : ℝ} (hT : T ≠ 0) (i j : Fin N) :
    HasDerivAt (fun T => L1 c T i j) (L2 c T i j) T := by
  have h := (((((hasDerivAt_id T).const_mul (2 * c.F i j)).add_const (c.D i j)).add
    ((inv_pow_deriv 1 hT).const_mul (c.C i j))).sub ((inv_pow_deriv 2 hT).const_mul (c.B i j))).sub
    ((inv_pow_deriv 3 hT).const_mul (2 * c.E i j))
  have he : (fun T => L1 c T i j) = fun T => 2 * c.F i j * T + c.D i j + c.C i j * (T ^ 1)⁻¹
      - c.B i j * (T ^ 2)⁻¹ - 2 * c.E i j * (T ^ 3)⁻¹ := by
    funext T; simp only [L1, div_eq_mul_inv, pow_one]
  rw [he]
  refine HasDerivAt.congr_deriv h ?_
  simp only [L2, Nat.cast_one, Nat.cast_ofNat]
  norm_num
  field_simp
  ring

theorem L2_deriv {T : ℝ} (hT : T ≠ 0) (i j : Fin N) :
    HasDerivAt (fun T => L2 c T i j) (L3 c T i j) T := by
  have h := (((hasDerivAt_const T (2 * c.F i j)).sub ((inv_pow_deriv 2 hT).const_mul (c.C i j))).add
    ((inv_pow_deriv 3 hT).const_mul (2 * c.B i j))).add
    ((inv_pow_deriv 4 hT).const_mul (6 * c.E i j))
  have he : (fun T => L2 c T i j) = fun T => 2 * c.F i j - c.C i j * (T ^ 2)⁻¹
      + 2 * c.B i j * (T ^ 3)⁻¹ + 6 * c.E i j * (T ^ 4)⁻¹ := by
    funext T; simp only [L2, div_eq_mul_inv]
  rw [he]
  refine HasDerivAt.congr_deriv h ?_
  simp only [L3, Nat.cast_ofNat]
  norm_num
  field_simp
  ring

theorem dlam_eq {T : ℝ} (hT : T ≠ 0) (i j : Fin N) :
    dlam c T (lam c T) i j = L1 c T i j * lam c T i j := by
  simp only [dlam, L1]
  congr 1
  field_simp
  ring

theorem d2lam_eq {T : ℝ} (hT : T ≠ 0) (i j : Fin N) :
    d2lam c T (lam c T) (dlam c T (lam c T)) i j
      = (L2 c T i j + L1 c T i j ^ 2) * lam c T i j := by
  have hl := (lam_pos c T i j).ne'
  simp only [d2lam]
  rw [dlam_eq c hT, show L1 c T i j * lam c T i j * (L1 c T i j * lam c T i j) / lam c T i j
    = L1 c T i j ^ 2 * lam c T i j by field_simp, add_mul]
  congr 2
  simp only [L2]
  field_simp
  ring

theorem d3lam_eq {T : ℝ} (hT : T ≠ 0) (i j : Fin N) :
    d3lam c T (lam c T) (dlam c T (lam c T)) i j
      = (L3 c T i j + 3 * L1 c T i j * L2 c T i j + L1 c T i j ^ 3) * lam c T i j := by
  have hl := (lam_pos c T i j).ne'
  simp only [d3lam]
  rw [dlam_eq c hT, show L1 c T i j * lam c T i j / lam c T i j = L1 c T i j by field_simp]
  congr 1
  generalize hL : L1 c T i j = l
  simp only [L2, L3]
  norm_num
  field_simp
  ring

/-- **C21.** Each entry of the three derivative matrices is the derivative of the corresponding entry of
the previous matrix. -/
theorem C21_derivatives {T : ℝ} (hT : T ≠ 0) (i j : Fin N) :
    HasDerivAt (fun T => lam c T i j) (dlam c T (lam c T) i j) T ∧
    HasDerivAt (fun T => dlam c T (lam c T) i j) (d2lam c T (lam c T) (dlam c T (lam c T)) i j) T ∧
    HasDerivAt (fun T => d2lam c T (lam c T) (dlam c T (lam c T)) i j)
      (d3lam c T (lam c T) (dlam c T (lam c T)) i j) T := by
  refine ⟨by rw [dlam_eq c hT]; exact lam_deriv c hT i j, ?_, ?_⟩
  · rw [d2lam_eq c hT]
    have h := (L1_deriv c hT i j).mul (lam_deriv c hT i j)
    have he : (fun T => dlam c T (lam c T) i j) =ᶠ[nhds T] fun T => L1 c T i j * lam c T i j := by
      filter_upwards [isOpen_ne.mem_nhds hT] with S hS
      exact dlam_eq c hS i j
    refine (HasDerivAt.congr_of_eventuallyEq h he).congr_deriv ?_
    ring
  · rw [d3lam_eq c hT]
    have h := ((L2_deriv c hT i j).add ((L1_deriv c hT i j).pow 2)).mul (lam_deriv c hT i j)
    have he : (fun T => d2lam c T (lam c T) (dlam c T (lam c T)) i j) =ᶠ[nhds T]
        fun T => (L2 c T i j + L1 c T i j ^ 2) * lam c T i j := by
      filter_upwards [isOpen_ne.mem_nhds hT] with S hS
      exact d2lam_eq c hS i j
    refine (HasDerivAt.congr_of_eventuallyEq h he).congr_deriv ?_
    simp only [Pi.add_apply, Pi.pow_apply, Nat.cast_ofNat]
    ring

noncomputable def demo : Coeffs 2 :=
  ⟨fun _ _ => 1, fun _ _ => 2, fun _ _ => 3, fun _ _ => 4, fun _ _ => 5, fun _ _ => 6⟩

example : (300 : ℝ) ≠ 0 ∧
    HasDerivAt (fun T => lam demo T 0 1) (dlam demo 300 (lam demo 300) 0 1) 300 :=
  ⟨by norm_num, (C21_derivatives demo (by norm_num) 0 1).1⟩

end Verif.InteractionExp
