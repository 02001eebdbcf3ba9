import Mathlib.Analysis.Calculus.FDeriv.Pi
import Mathlib.Analysis.Calculus.Deriv.Basic
import Mathlib.Analysis.Calculus.Deriv.Comp
import Mathlib.Analysis.Calculus.Deriv.Mul
import Mathlib.Analysis.Calculus.Deriv.Add
import Mathlib.Analysis.Calculus.Deriv.Inv
import Mathlib.Analysis.Calculus.Deriv.Prod
import Mathlib.Tactic.Ring
import Mathlib.Tactic.FieldSimp
import Mathlib.Tactic.Linarith

/-!
# Partial derivatives

`PD F j x d`: the partial derivative of `F` with respect to its `j`-th argument at `x` is `d`, all other
arguments being fixed. This is the meaning of the `_dxs` and `_dns` derivatives of the code, where mole
fractions are treated as independent variables.
-/

namespace Verif

variable {N : ℕ}

/-- `∂F/∂x_j (x) = d`. -/
def PD (F : (Fin N → ℝ) → ℝ) (j : Fin N) (x : Fin N → ℝ) (d : ℝ) : Prop :=
  HasDerivAt (fun t => F (Function.update x j t)) d (x j)

namespace PD

variable {F G : (Fin N → ℝ) → ℝ} {j : Fin N} {x : Fin N → ℝ} {d e : ℝ}

theorem congr_d (h : PD F j x d) (hd : d = e) : PD F j x e := hd ▸ h

theorem coord (i j : Fin N) (x : Fin N → ℝ) : PD (fun x => x i) j x (if i = j then 1 else 0) := by
  unfold PD
  by_cases h : i = j
  · subst h
    simp only [Function.update_self, if_true]
    exact hasDerivAt_id _
  · simp only [Function.update_of_ne h, if_neg h]
    exact hasDerivAt_const _ _

theorem const (c : ℝ) : PD (fun _ => c) j x 0 := hasDerivAt_const _ _

theorem add (h1 : PD F j x d) (h2 : PD G j x e) : PD (fun x => F x + G x) j x (d + e) :=
  HasDerivAt.add h1 h2

theorem sub (h1 : PD F j x d) (h2 : PD G j x e) : PD (fun x => F x - G x) j x (d - e) :=
  HasDerivAt.sub h1 h2

theorem neg (h1 : PD F j x d) : PD (fun x => -F x) j x (-d) := HasDerivAt.neg h1

theorem mul (h1 : PD F j x d) (h2 : PD G j x e) : PD (fun x => F x * G x) j x (d * G x + F x * e) := by
  have h := HasDerivAt.mul h1 h2
  unfold PD
  refine HasDerivAt.congr_deriv h ?_
  simp

theorem const_mul (c : ℝ) (h1 : PD F j x d) : PD (fun x => c * F x) j x (c * d) :=
  HasDerivAt.const_mul c h1

theorem mul_const (c : ℝ) (h1 : PD F j x d) : PD (fun x => F x * c) j x (d * c) :=
  HasDerivAt.mul_const h1 c

theorem inv (h1 : PD F j x d) (hx : F x ≠ 0) : PD (fun x => (F x)⁻¹) j x (-d / F x ^ 2) := by
  have h := HasDerivAt.inv h1 (by simpa using hx)
  unfold PD
  refine HasDerivAt.congr_deriv h ?_
  simp

theorem div (h1 : PD F j x d) (h2 : PD G j x e) (hx : G x ≠ 0) :
    PD (fun x => F x / G x) j x ((d * G x - F x * e) / G x ^ 2) := by
  have h := HasDerivAt.div h1 h2 (by simpa using hx)
  unfold PD
  refine HasDerivAt.congr_deriv h ?_
  simp

theorem sum {ι : Type*} {s : Finset ι} {F : ι → (Fin N → ℝ) → ℝ} {d : ι → ℝ}
    (h : ∀ i ∈ s, PD (F i) j x (d i)) : PD (fun x => ∑ i ∈ s, F i x) j x (∑ i ∈ s, d i) :=
  HasDerivAt.fun_sum h

/-- A function of one variable applied to a function with a partial derivative. -/
theorem comp {f : ℝ → ℝ} {f' : ℝ} (hf : HasDerivAt f f' (F x)) (h1 : PD F j x d) :
    PD (fun x => f (F x)) j x (f' * d) := by
  unfold PD
  have : HasDerivAt f f' (F (Function.update x j (x j))) := by simpa using hf
  exact this.comp (x j) h1

theorem unique (h1 : PD F j x d) (h2 : PD F j x e) : d = e := HasDerivAt.unique h1 h2

/-- A linear form. -/
theorem linear (a : Fin N → ℝ) (j : Fin N) (x : Fin N → ℝ) : PD (fun x => ∑ i, x i * a i) j x (a j) := by
  refine (sum fun i _ => (coord i j x).mul_const (a i)).congr_d ?_
  simp

end PD

/-- For a differentiable function the partial derivative is the value of the derivative on a basis
vector. -/
theorem pd_of_differentiable {F : (Fin N → ℝ) → ℝ} {x : Fin N → ℝ} (h : DifferentiableAt ℝ F x)
    (j : Fin N) : PD F j x (fderiv ℝ F x (Pi.single j 1)) := by
  unfold PD
  have hu : HasDerivAt (fun t => Function.update x j t) (Pi.single j 1) (x j) := by
    rw [hasDerivAt_pi]
    intro i
    have := PD.coord i j x
    unfold PD at this
    refine this.congr_deriv ?_
    by_cases h : i = j
    · subst h; simp
    · simp [h]
  have hf : HasFDerivAt F (fderiv ℝ F x) (Function.update x j (x j)) := by
    rw [Function.update_eq_self]; exact h.hasFDerivAt
  exact hf.comp_hasDerivAt (x j) hu

/-- Chain rule along a curve. -/
theorem curve_deriv {F : (Fin N → ℝ) → ℝ} {x : Fin N → ℝ} (h : DifferentiableAt ℝ F x)
    {g : Fin N → ℝ} (hg : ∀ j, PD F j x (g j)) {c : ℝ → Fin N → ℝ} {c' : Fin N → ℝ} {t : ℝ}
    (hx : c t = x) (hc : ∀ i, HasDerivAt (fun s => c s i) (c' i) t) :
    HasDerivAt (fun s => F (c s)) (∑ i, c' i * g i) t := by
  subst hx
  have hcurve : HasDerivAt c c' t := hasDerivAt_pi.2 hc
  refine (h.hasFDerivAt.comp_hasDerivAt t hcurve).congr_deriv ?_
  have hgj : ∀ j, fderiv ℝ F (c t) (Pi.single j 1) = g j := fun j =>
    (pd_of_differentiable h j).unique (hg j)
  have hv : c' = ∑ j, c' j • (Pi.single j (1 : ℝ) : Fin N → ℝ) := by
    funext i
    simp [Finset.sum_apply, Pi.single_apply]
  conv_lhs => rw [hv]
  rw [map_sum]
  refine Finset.sum_congr rfl fun j _ => ?_
  rw [map_smul, hgj, smul_eq_mul]

end Verif
