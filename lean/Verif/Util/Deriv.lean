import Mathlib.Analysis.SpecialFunctions.Sqrt
import Mathlib.Analysis.SpecialFunctions.Pow.Deriv
import Mathlib.Analysis.Calculus.Deriv.Inv
import Mathlib.Analysis.Calculus.Deriv.Mul
import Mathlib.Analysis.Calculus.Deriv.Add
import Mathlib.Analysis.Calculus.Deriv.Pow
import Mathlib.Analysis.SpecialFunctions.ExpDeriv
import Mathlib.Analysis.SpecialFunctions.Log.Deriv
import Mathlib.Tactic.Ring
import Mathlib.Tactic.FieldSimp
import Mathlib.Tactic.Linarith
import Mathlib.Tactic.Positivity
import Mathlib.Tactic.NormNum

/-!
# Derivatives of closed forms

`hd` proves `HasDerivAt f ?d x` for an explicit expression by the calculus rules, building `?d`;
hypotheses of the context serve as rules for the functions it does not know. Side conditions
(nonzero denominators) remain as goals.
-/

namespace Verif

/-- Calculus rules for explicit expressions, see the header. -/
macro "hd" : tactic => `(tactic|
  repeat' first
    | assumption
    | exact hasDerivAt_const _ _
    | exact hasDerivAt_id' _
    | eapply HasDerivAt.fun_sub
    | eapply HasDerivAt.fun_add
    | eapply HasDerivAt.fun_neg
    | eapply HasDerivAt.fun_pow
    | eapply HasDerivAt.fun_div
    | eapply HasDerivAt.fun_mul
    | eapply HasDerivAt.exp
    | eapply HasDerivAt.log)

/-- Reduce `HasDerivAt f d x` with `f` given by the listed definitions to the equality of `d` and the derivative
found by the calculus rules. -/
macro "derive" "[" ls:Lean.Parser.Tactic.simpLemma,* "]" : tactic => `(tactic|
  (eapply HasDerivAt.congr_deriv
   focus
    try simp only [$ls,*]
    hd <;> positivity
   try simp only [$ls,*]
   try simp only [Nat.add_one_sub_one, Nat.reduceSub, pow_one, Nat.cast_ofNat]))

/-- A value with its first and second derivatives as the code returns them. -/
structure V3 where
  /-- value -/
  v : ℝ
  /-- first derivative -/
  d : ℝ
  /-- second derivative -/
  d2 : ℝ

/-- `full T` holds the value of `f` at `T` and the true first and second derivatives of `f` there. -/
structure Exact (f : ℝ → ℝ) (full : ℝ → V3) (T : ℝ) : Prop where
  value : (full T).v = f T
  first : HasDerivAt f (full T).d T
  second : HasDerivAt (deriv f) (full T).d2 T

/-- If the returned first derivative is right near `T`, it is enough to differentiate it. -/
theorem Exact.of_near {f : ℝ → ℝ} {full : ℝ → V3} {T : ℝ} (h0 : (full T).v = f T)
    (h1 : ∀ᶠ t in nhds T, HasDerivAt f (full t).d t) (h2 : HasDerivAt (fun t => (full t).d) (full T).d2 T) :
    Exact f full T :=
  ⟨h0, h1.self_of_nhds, h2.congr_of_eventuallyEq (h1.mono fun _ h => h.deriv)⟩

/-- Version on the positive half line. -/
theorem Exact.of_pos {f : ℝ → ℝ} {full : ℝ → V3} (h0 : ∀ T, 0 < T → (full T).v = f T)
    (h1 : ∀ T, 0 < T → HasDerivAt f (full T).d T)
    (h2 : ∀ T, 0 < T → HasDerivAt (fun t => (full t).d) (full T).d2 T) {T : ℝ} (hT : 0 < T) : Exact f full T :=
  .of_near (h0 T hT) ((eventually_gt_nhds hT).mono h1) (h2 T hT)

/-- `√(T/Tc)` and its derivative in the form the code uses. -/
theorem hasDerivAt_sqrtTr {Tc T : ℝ} (hTc : 0 < Tc) (hT : 0 < T) :
    HasDerivAt (fun t => √(t / Tc)) (√(T / Tc) / (2 * T)) T := by
  have h := ((hasDerivAt_id' T).div_const Tc).sqrt (div_pos hT hTc).ne'
  refine h.congr_deriv ?_
  have hs : 0 < √(T / Tc) := Real.sqrt_pos.mpr (div_pos hT hTc)
  have hsq : T = √(T / Tc) ^ 2 * Tc := by
    rw [Real.sq_sqrt (div_pos hT hTc).le]; field_simp
  generalize √(T / Tc) = s at *
  subst hsq
  field_simp

/-- `(T/Tc)^c` and its derivative in the form the code uses. -/
theorem hasDerivAt_rpowTr {Tc T : ℝ} (hTc : 0 < Tc) (hT : 0 < T) (c : ℝ) :
    HasDerivAt (fun t => (t / Tc) ^ c) (c * (T / Tc) ^ c / T) T := by
  have h := ((hasDerivAt_id' T).div_const Tc).rpow_const (p := c) (.inl (div_pos hT hTc).ne')
  refine h.congr_deriv ?_
  rw [Real.rpow_sub_one (div_pos hT hTc).ne']
  field_simp

/-- The square root variable: `T = s² Tc`. -/
theorem sqrtTr {Tc T : ℝ} (hTc : 0 < Tc) (hT : 0 < T) : 0 < √(T / Tc) ∧ T = √(T / Tc) ^ 2 * Tc :=
  ⟨Real.sqrt_pos.mpr (div_pos hT hTc), by rw [Real.sq_sqrt (div_pos hT hTc).le]; field_simp⟩

end Verif
