import Verif.Activity.GibbsExcess
import Mathlib.Algebra.BigOperators.Field

/-!
# The Wilson model (`thermo/wilson.py` 66-368, 1122-1273, 1726-1816)

C24: all derivatives of the excess Gibbs energy, the activity coefficients in their four implementations.

The interaction parameters are functions of temperature given with their derivatives; that the code
computes these derivatives is C21. Loops that add up terms are finite sums. `trunc_exp` is the exponential
(its overflow guard is not modelled).
-/

namespace Verif.Wilson

open Real Finset GibbsExcess

variable {N : ℕ}

/-! ## Model -/

/-- `wilson_xj_Lambda_ijs` (66-75); also called with the derivatives of the parameters (1195, 1216, 1236). -/
def xjL (xs : Fin N → ℝ) (lam : Fin N → Fin N → ℝ) (i : Fin N) : ℝ := ∑ j, xs j * lam i j

/-- `xj_Lambda_ijs_inv` (1155). -/
noncomputable def inv (L : Fin N → ℝ) (i : Fin N) : ℝ := 1 / L i

/-- `log_xj_Lambda_ijs` (1172). -/
noncomputable def logL (L : Fin N → ℝ) (i : Fin N) : ℝ := log (L i)

/-- `GE` (1267-1272). -/
def GE (R T : ℝ) (xs logL : Fin N → ℝ) : ℝ := -(∑ i, xs i * logL i) * R * T

/-- `wilson_dGE_dT` (77-84). -/
noncomputable def dGE_dT (R : ℝ) (xs : Fin N → ℝ) (T GE : ℝ) (Linv dL : Fin N → ℝ) : ℝ :=
  GE / T - T * R * ∑ i, xs i * dL i * Linv i

/-- `wilson_d2GE_dT2` (86-96). -/
def d2GE_dT2 (R : ℝ) (xs : Fin N → ℝ) (T : ℝ) (Linv dL d2L : Fin N → ℝ) : ℝ :=
  let sum0 := ∑ i, xs i * Linv i * (d2L i - dL i * dL i * Linv i)
  let sum1 := ∑ i, dL i * (xs i * Linv i)
  let mR := -R
  mR * (T * sum0 + 2 * sum1)

/-- `wilson_d3GE_dT3` (98-121). -/
def d3GE_dT3 (R : ℝ) (xs : Fin N → ℝ) (T : ℝ) (Linv dL d2L d3L : Fin N → ℝ) : ℝ :=
  let sum0 := ∑ i, Linv i * xs i * (d2L i - dL i * dL i * Linv i)
  let sum_d3 := ∑ i, xs i * d3L i * Linv i
  let sum_comb := (∑ i, xs i * d2L i * dL i * Linv i * Linv i) * 3
  let sum_last := (∑ i, xs i * (dL i * Linv i) * (dL i * Linv i) * (dL i * Linv i)) * 2
  let mR := -R
  mR * (3 * sum0 + T * (sum_d3 - sum_comb + sum_last))

/-- `wilson_d2GE_dTdxs` (123-140). -/
def d2GE_dTdxs (R : ℝ) (xs : Fin N → ℝ) (T : ℝ) (logL : Fin N → ℝ) (lam dlam : Fin N → Fin N → ℝ)
    (Linv dL : Fin N → ℝ) (i : Fin N) : ℝ :=
  let tot1 := dL i * Linv i + ∑ j, xs j * Linv j * (dlam j i - dL j * (lam j i * Linv j))
  let tot2 := ∑ j, xs j * (lam j i * Linv j)
  let mR := -R
  mR * (T * tot1 + logL i + tot2)

/-- `wilson_dGE_dxs` (142-151). -/
def dGE_dxs (R : ℝ) (xs : Fin N → ℝ) (T : ℝ) (logL : Fin N → ℝ) (lam : Fin N → Fin N → ℝ)
    (Linv : Fin N → ℝ) (k : Fin N) : ℝ :=
  -T * R * (logL k + ∑ i, xs i * lam i k * Linv i)

/-- `wilson_d2GE_dxixjs` (153-169). -/
def d2GE_dxixjs (R : ℝ) (xs : Fin N → ℝ) (T : ℝ) (lam : Fin N → Fin N → ℝ) (Linv : Fin N → ℝ)
    (k m : Fin N) : ℝ :=
  R * T * ((∑ i, xs i * lam i k * lam i m * (Linv i * Linv i)) - lam k m * Linv k - lam m k * Linv m)

/-- `wilson_d3GE_dxixjxks` (171-194). -/
def d3GE_dxixjxks (R : ℝ) (xs : Fin N → ℝ) (T : ℝ) (lam : Fin N → Fin N → ℝ) (Linv : Fin N → ℝ)
    (k m n : Fin N) : ℝ :=
  -R * T * ((∑ i, (xs i * lam i k * lam i m * lam i n) * (Linv i * Linv i * Linv i)) * 2
    - lam k m * lam k n * Linv k * Linv k - lam m k * lam m n * Linv m * Linv m
    - lam n m * lam n k * Linv n * Linv n)

/-- `wilson_gammas` (196-212). The code adds to the contents `buf` of the array handed in, which all
callers leave at zero. -/
noncomputable def gammas (buf xs : Fin N → ℝ) (lam : Fin N → Fin N → ℝ) (Linv : Fin N → ℝ) (i : Fin N) : ℝ :=
  let vec0 := fun i => xs i * Linv i
  exp (1 - (buf i + ∑ j, lam j i * vec0 j)) * Linv i

/-- `wilson_gammas_from_args` (214-221). -/
noncomputable def gammasFromArgs (xs : Fin N → ℝ) (lam : Fin N → Fin N → ℝ) : Fin N → ℝ :=
  gammas (fun _ => 0) xs lam (inv (xjL xs lam))

/-- `Wilson_gammas` (1798-1816). -/
noncomputable def WilsonGammas (xs : Fin N → ℝ) (params : Fin N → Fin N → ℝ) (i : Fin N) : ℝ :=
  let sums0 := fun j => ∑ k, params j k * xs k
  exp (1 - log (sums0 i) - ∑ j, params j i * xs j / sums0 j)

/-- `MIN_LAMBDA_WILSON` (223). -/
noncomputable def minLambda : ℝ := 1 / 10 ^ 20

/-- The clamp of a parameter (276-279, 338-341). -/
noncomputable def clamp (l : ℝ) : ℝ := if l < minLambda then minLambda else l

/-- `wilson_gammas_binaries` (286-296) for one data point with first mole fraction `x1`. -/
noncomputable def binary (x1 lambda12 lambda21 : ℝ) : ℝ × ℝ :=
  let l12 := clamp lambda12
  let l21 := clamp lambda21
  let x2 := 1 - x1
  let c0 := 1 / (x1 + x2 * l12)
  let c1 := 1 / (x2 + x1 * l21)
  let c3 := l12 * c0 - l21 * c1
  (exp (c3 * x2) * c0, exp (-c3 * x1) * c1)

/-- `wilson_gammas_binaries_jac` (348-367) for one data point: the rows of the two activity coefficients. -/
noncomputable def binaryJac (x1 lambda12 lambda21 : ℝ) : (ℝ × ℝ) × (ℝ × ℝ) :=
  let l12 := clamp lambda12
  let l21 := clamp lambda21
  let x2 := 1 - x1
  let c0 := l12 * x2
  let c1 := c0 + x1
  let c2 := 1 / c1
  let c3 := l21 * x1
  let c4 := c3 + x2
  let c5 := 1 / c4
  let c6 := c2 * l12 - c5 * l21
  let c7 := exp (c6 * x2)
  let c8 := c2 * c5
  let c9 := exp (-c6 * x1)
  ((-c7 * l12 * x2 * x2 * c2 * c2 * c2, c7 * c8 * x2 * (c3 * c5 - 1)),
   (c8 * c9 * x1 * (c0 * c2 - 1), -c9 * l21 * x1 * x1 * c5 * c5 * c5))

/-! ## The expression the model stands for -/

/-- `GE = −RT Σ_i x_i ln(Σ_j x_j Λ_ij)`. -/
noncomputable def spec (R T : ℝ) (lam : Fin N → Fin N → ℝ) (x : Fin N → ℝ) : ℝ :=
  -(R * T) * ∑ i, x i * log (∑ j, x j * lam i j)

theorem GE_eq (R T : ℝ) (lam : Fin N → Fin N → ℝ) (x : Fin N → ℝ) :
    GE R T x (logL (xjL x lam)) = spec R T lam x := by
  simp only [GE, spec, logL, xjL]; ring

/-! ## Composition derivatives -/

section Composition

variable {R T : ℝ} {lam : Fin N → Fin N → ℝ} {x : Fin N → ℝ}

theorem pd_L (lam : Fin N → Fin N → ℝ) (i j : Fin N) (x : Fin N → ℝ) :
    PD (fun x => ∑ k, x k * lam i k) j x (lam i j) := PD.linear (lam i) j x

theorem pd_logL {i : Fin N} (h : ∑ k, x k * lam i k ≠ 0) (j : Fin N) :
    PD (fun x => log (∑ k, x k * lam i k)) j x ((∑ k, x k * lam i k)⁻¹ * lam i j) :=
  PD.comp (F := fun x : Fin N → ℝ => ∑ k, x k * lam i k) (hasDerivAt_log h) (pd_L lam i j x)

theorem pd_invL {i : Fin N} (h : ∑ k, x k * lam i k ≠ 0) (j : Fin N) :
    PD (fun x => 1 / ∑ k, x k * lam i k) j x (-lam i j / (∑ k, x k * lam i k) ^ 2) := by
  have := PD.inv (pd_L lam i j x) h
  simp only [one_div]
  exact this

/-- **C24.** `dGE_dxs` is the gradient of the excess Gibbs energy. -/
theorem C24_dGE_dxs (hL : ∀ i, ∑ k, x k * lam i k ≠ 0) (k : Fin N) :
    PD (spec R T lam) k x (dGE_dxs R x T (logL (xjL x lam)) lam (inv (xjL x lam)) k) := by
  have h := PD.const_mul (-(R * T)) (PD.sum (s := univ) fun i _ =>
    PD.mul (PD.coord i k x) (pd_logL (hL i) k))
  refine PD.congr_d h ?_
  simp only [dGE_dxs, logL, inv, xjL, sum_add_distrib]
  simp only [ite_mul, one_mul, zero_mul, sum_ite_eq', mem_univ, if_true]
  have : ∀ i, x i * ((∑ k, x k * lam i k)⁻¹ * lam i k) = x i * lam i k * (1 / ∑ k, x k * lam i k) := by
    intro i; rw [one_div]; ring
  simp only [this]
  ring

/-- **C24.** `d2GE_dxixjs` is the derivative of `dGE_dxs`. -/
theorem C24_d2GE_dxixjs (hL : ∀ i, ∑ k, x k * lam i k ≠ 0) (k m : Fin N) :
    PD (fun x => dGE_dxs R x T (logL (xjL x lam)) lam (inv (xjL x lam)) k) m x
      (d2GE_dxixjs R x T lam (inv (xjL x lam)) k m) := by
  have h := PD.const_mul (-T * R) ((pd_logL (hL k) m).add (PD.sum (s := univ) fun i _ =>
    PD.mul (PD.mul_const (lam i k) (PD.coord i m x)) (pd_invL (hL i) m)))
  refine PD.congr_d h ?_
  simp only [d2GE_dxixjs, inv, xjL, sum_add_distrib]
  simp only [ite_mul, one_mul, zero_mul, sum_ite_eq', mem_univ, if_true]
  have : ∀ i, x i * lam i k * (-lam i m / (∑ k, x k * lam i k) ^ 2)
      = -(x i * lam i k * lam i m * ((1 / ∑ k, x k * lam i k) * (1 / ∑ k, x k * lam i k))) := by
    intro i; field_simp [hL i]
  simp only [this, sum_neg_distrib]
  rw [one_div]
  ring

/-- **C24.** `d3GE_dxixjxks` is the derivative of `d2GE_dxixjs`. -/
theorem C24_d3GE_dxixjxks (hL : ∀ i, ∑ k, x k * lam i k ≠ 0) (k m n : Fin N) :
    PD (fun x => d2GE_dxixjs R x T lam (inv (xjL x lam)) k m) n x
      (d3GE_dxixjxks R x T lam (inv (xjL x lam)) k m n) := by
  have h := PD.const_mul (R * T) (((PD.sum (s := univ) fun i _ =>
    PD.mul (PD.mul_const (lam i m) (PD.mul_const (lam i k) (PD.coord i n x)))
      (PD.mul (pd_invL (hL i) n) (pd_invL (hL i) n))).sub
      (PD.const_mul (lam k m) (pd_invL (hL k) n))).sub
      (PD.const_mul (lam m k) (pd_invL (hL m) n)))
  refine PD.congr_d h ?_
  simp only [d3GE_dxixjxks, inv, xjL, sum_add_distrib]
  simp only [ite_mul, one_mul, zero_mul, sum_ite_eq', mem_univ, if_true]
  have : ∀ i, x i * lam i k * lam i m * (-lam i n / (∑ k, x k * lam i k) ^ 2 * (1 / ∑ k, x k * lam i k)
        + 1 / (∑ k, x k * lam i k) * (-lam i n / (∑ k, x k * lam i k) ^ 2))
      = -(2 * (x i * lam i k * lam i m * lam i n *
        (1 / (∑ k, x k * lam i k) * (1 / ∑ k, x k * lam i k) * (1 / ∑ k, x k * lam i k)))) := by
    intro i; field_simp [hL i]; ring
  simp only [this, sum_neg_distrib, ← mul_sum]
  have e : ∀ i (c : ℝ), c / (∑ k, x k * lam i k) ^ 2
      = c * (1 / ∑ k, x k * lam i k) * (1 / ∑ k, x k * lam i k) := by
    intro i c; field_simp [hL i]
  simp only [e]
  ring

/-! ## Activity coefficients -/

theorem sum_x_dGE (hL : ∀ i, ∑ k, x k * lam i k ≠ 0) :
    ∑ k, x k * dGE_dxs R x T (logL (xjL x lam)) lam (inv (xjL x lam)) k
      = spec R T lam x - R * T * ∑ i, x i := by
  simp only [dGE_dxs, logL, inv, xjL, spec]
  have e : ∀ k, x k * (-T * R * (log (∑ j, x j * lam k j) + ∑ i, x i * lam i k * (1 / ∑ j, x j * lam i j)))
      = -(R * T) * (x k * log (∑ j, x j * lam k j))
        - R * T * ∑ i, x i * (1 / ∑ j, x j * lam i j) * (x k * lam i k) := by
    intro k
    have : ∀ i, x i * (1 / ∑ j, x j * lam i j) * (x k * lam i k)
        = x k * (x i * lam i k * (1 / ∑ j, x j * lam i j)) := by intro i; ring
    simp only [this, ← mul_sum]
    ring
  simp only [e, sum_sub_distrib, ← mul_sum]
  rw [sum_comm]
  congr 2
  refine sum_congr rfl fun i _ => ?_
  rw [← mul_sum]
  field_simp [hL i]

/-- **C24.** The activity coefficients of the class, of `wilson_gammas_from_args`, of `Wilson_gammas` and
of the general formula for any excess Gibbs energy (whose meaning is C23) are the same numbers. -/
theorem C24_gammas (hR : R ≠ 0) (hT : T ≠ 0) (hx : ∑ i, x i = 1)
    (hL : ∀ i, 0 < ∑ k, x k * lam i k) (i : Fin N) :
    gammasFromArgs x lam i = exp (1 - log (∑ k, x k * lam i k) - ∑ j, x j * lam j i / ∑ k, x k * lam j k) ∧
    WilsonGammas x lam i = gammasFromArgs x lam i ∧
    GibbsExcess.gammas R T (GE R T x (logL (xjL x lam))) x
      (dGE_dxs R x T (logL (xjL x lam)) lam (inv (xjL x lam))) i = gammasFromArgs x lam i := by
  have h1 : gammasFromArgs x lam i
      = exp (1 - log (∑ k, x k * lam i k) - ∑ j, x j * lam j i / ∑ k, x k * lam j k) := by
    simp only [gammasFromArgs, gammas, inv, xjL]
    rw [sub_right_comm 1 (log _), exp_sub _ (log _), exp_log (hL i), zero_add, mul_one_div]
    congr 3
    exact sum_congr rfl fun j _ => by ring
  refine ⟨h1, ?_, ?_⟩
  · rw [h1]
    simp only [WilsonGammas]
    have : ∀ j, ∑ k, lam j k * x k = ∑ k, x k * lam j k := fun j => sum_congr rfl fun k _ => mul_comm _ _
    simp only [this]
    congr 2
    exact sum_congr rfl fun j _ => by rw [mul_comm]
  · rw [h1]
    simp only [GibbsExcess.gammas]
    rw [sum_x_dGE fun i => (hL i).ne', GE_eq, hx]
    congr 1
    simp only [dGE_dxs, logL, inv, xjL]
    have : ∀ j, x j * lam j i * (1 / ∑ k, x k * lam j k) = x j * lam j i / ∑ k, x k * lam j k := by
      intro j; ring
    simp only [this]
    field_simp
    ring

/-- **C24.** A pure component has activity coefficient one. -/
theorem C24_pure (lam : Fin N → Fin N → ℝ) (i : Fin N) (hd : lam i i = 1) :
    gammasFromArgs (fun j => if j = i then 1 else 0) lam i = 1 := by
  simp [gammasFromArgs, gammas, inv, xjL, hd]

/-- **C24.** The buffer handed to `wilson_gammas` must hold zeros: otherwise the result is off by the
factor `exp (−buf)`. -/
theorem C24_buffer (buf : Fin N → ℝ) (i : Fin N) (Linv : Fin N → ℝ) :
    gammas buf x lam Linv i = exp (-buf i) * gammas (fun _ => 0) x lam Linv i := by
  simp only [gammas]
  rw [← mul_assoc, ← exp_add]
  congr 2
  ring

theorem differentiableAt_spec (hL : ∀ i, ∑ k, x k * lam i k ≠ 0) :
    DifferentiableAt ℝ (spec R T lam) x := by
  unfold spec
  refine DifferentiableAt.const_mul ?_ _
  refine DifferentiableAt.fun_sum fun i _ => ?_
  have h := DifferentiableAt.log (f := fun x : Fin N → ℝ => ∑ j, x j * lam i j) (x := x)
    (by fun_prop) (hL i)
  exact DifferentiableAt.mul (by fun_prop) h

theorem differentiableAt_dGE (hL : ∀ i, ∑ k, x k * lam i k ≠ 0) (k : Fin N) :
    DifferentiableAt ℝ (fun x => dGE_dxs R x T (logL (xjL x lam)) lam (inv (xjL x lam)) k) x := by
  unfold dGE_dxs logL inv xjL
  refine DifferentiableAt.const_mul ?_ _
  have h := DifferentiableAt.log (f := fun x : Fin N → ℝ => ∑ j, x j * lam k j) (x := x)
    (by fun_prop) (hL k)
  refine DifferentiableAt.add h ?_
  refine DifferentiableAt.fun_sum fun i _ => ?_
  have h1 : DifferentiableAt ℝ (fun x : Fin N → ℝ => ∑ j, x j * lam i j) x := by fun_prop
  have h2 : DifferentiableAt ℝ (fun x : Fin N → ℝ => 1 / ∑ j, x j * lam i j) x := by
    simp only [one_div]
    exact DifferentiableAt.comp x (g := fun y : ℝ => y⁻¹) (differentiableAt_inv (hL i)) h1
  exact DifferentiableAt.mul (by fun_prop) h2

/-- **C24.** The activity coefficients are the mole-number derivatives of the extensive excess Gibbs
energy, for any amounts. -/
theorem C24_partial_molar {n : Fin N → ℝ} (hR : R ≠ 0) (hT : T ≠ 0) (hn : 0 < ∑ i, n i)
    (hL : ∀ i, 0 < ∑ k, n k * lam i k) (i : Fin N) :
    PD (extensive (spec R T lam)) i n
      (R * T * log (gammasFromArgs (fun i => n i / ∑ i, n i) lam i)) := by
  set xs : Fin N → ℝ := fun i => n i / ∑ i, n i with hxs
  have hL' : ∀ i, 0 < ∑ k, xs k * lam i k := by
    intro i
    have : ∑ k, xs k * lam i k = (∑ k, n k * lam i k) / ∑ i, n i := by
      rw [Finset.sum_div]
      exact sum_congr rfl fun k _ => by simp only [hxs]; ring
    rw [this]
    exact div_pos (hL i) hn
  have hx : ∑ i, xs i = 1 := by
    simp only [hxs]
    rw [← Finset.sum_div]
    exact div_self hn.ne'
  have hne : ∀ i, ∑ k, xs k * lam i k ≠ 0 := fun i => (hL' i).ne'
  obtain ⟨d, hd, _, hg⟩ := C23_gammas (R := R) (T := T) (GE := spec R T lam) hn.ne'
    (differentiableAt_spec hne) (fun j => C24_dGE_dxs hne j) i
  refine hd.congr_d ?_
  have := (C24_gammas (R := R) (T := T) hR hT hx hL' i).2.2
  rw [GE_eq] at this
  rw [← this]
  simp only [← hxs] at hg
  rw [hg, log_exp]
  field_simp

/-- **C24.** For the Wilson model the mole-number derivatives of the activity coefficients
(`dgammas_dns`) are exact. -/
theorem C24_dgammas_dns (hR : R ≠ 0) (hT : T ≠ 0) (hx : ∑ i, x i = 1)
    (hL : ∀ i, ∑ k, x k * lam i k ≠ 0) (i j : Fin N) :
    PD (fun n => GibbsExcess.gammas R T (spec R T lam fun i => n i / ∑ i, n i) (fun i => n i / ∑ i, n i)
        (fun k => dGE_dxs R (fun i => n i / ∑ i, n i) T (logL (xjL (fun i => n i / ∑ i, n i) lam)) lam
          (inv (xjL (fun i => n i / ∑ i, n i) lam)) k) i) j x
      (GibbsExcess.dgammas_dns R T x
        (GibbsExcess.gammas R T (spec R T lam x) x
          (dGE_dxs R x T (logL (xjL x lam)) lam (inv (xjL x lam))))
        (d2GE_dxixjs R x T lam (inv (xjL x lam))) i j) := by
  refine C23_dgammas_dns_partial (GE := spec R T lam)
    (g := fun k x => dGE_dxs R x T (logL (xjL x lam)) lam (inv (xjL x lam)) k)
    (h := d2GE_dxixjs R x T lam (inv (xjL x lam))) hR hT hx (differentiableAt_spec hL)
    (differentiableAt_dGE hL) (fun j => C24_dGE_dxs hL j) (fun i j => C24_d2GE_dxixjs hL i j) ?_ ?_ i j
  · intro i j
    simp only [d2GE_dxixjs]
    rw [sum_congr rfl fun k _ => by
      rw [show x k * lam k i * lam k j = x k * lam k j * lam k i by ring]]
    ring
  · have : ∀ i, ∑ k, x k * d2GE_dxixjs R x T lam (inv (xjL x lam)) i k = -(R * T) := by
      intro i
      simp only [d2GE_dxixjs, inv, xjL]
      have e : ∀ k, x k * (R * T * ((∑ m, x m * lam m i * lam m k * (1 / (∑ j, x j * lam m j)
            * (1 / ∑ j, x j * lam m j))) - lam i k * (1 / ∑ j, x j * lam i j)
            - lam k i * (1 / ∑ j, x j * lam k j)))
          = R * T * ((∑ m, x m * lam m i * (1 / (∑ j, x j * lam m j) * (1 / ∑ j, x j * lam m j))
            * (x k * lam m k)) - x k * lam i k * (1 / ∑ j, x j * lam i j)
            - x k * lam k i * (1 / ∑ j, x j * lam k j)) := by
        intro k
        have : ∀ m, x m * lam m i * (1 / (∑ j, x j * lam m j) * (1 / ∑ j, x j * lam m j)) * (x k * lam m k)
          = x k * (x m * lam m i * lam m k * (1 / (∑ j, x j * lam m j) * (1 / ∑ j, x j * lam m j))) := by
          intro m; ring
        simp only [this, ← mul_sum]
        ring
      simp only [e, ← mul_sum, sum_sub_distrib, ← sum_mul]
      rw [sum_comm]
      have e2 : ∀ m, ∑ k, x m * lam m i * (1 / (∑ j, x j * lam m j) * (1 / ∑ j, x j * lam m j)) * (x k * lam m k)
          = x m * lam m i * (1 / ∑ j, x j * lam m j) := by
        intro m
        rw [← mul_sum]
        field_simp [hL m]
      simp only [e2]
      rw [mul_one_div_cancel (hL i)]
      ring
    intro i j
    rw [this, this]

end Composition

/-! ## Temperature derivatives -/

section Temperature

variable {R : ℝ} {lam lam1 lam2 lam3 : ℝ → Fin N → Fin N → ℝ} {x : Fin N → ℝ}

theorem deriv_xjL {T : ℝ} {a a' : ℝ → Fin N → Fin N → ℝ}
    (h : ∀ i j, HasDerivAt (fun T => a T i j) (a' T i j) T) (i : Fin N) :
    HasDerivAt (fun T => xjL x (a T) i) (xjL x (a' T) i) T :=
  HasDerivAt.fun_sum fun j _ => (h i j).const_mul (x j)

/-- **C24.** The first, second and third temperature derivatives and the mixed derivative. -/
theorem C24_temperature
    (h1 : ∀ T, 0 < T → ∀ i j, HasDerivAt (fun T => lam T i j) (lam1 T i j) T)
    (h2 : ∀ T, 0 < T → ∀ i j, HasDerivAt (fun T => lam1 T i j) (lam2 T i j) T)
    (h3 : ∀ T, 0 < T → ∀ i j, HasDerivAt (fun T => lam2 T i j) (lam3 T i j) T)
    (hL : ∀ T, 0 < T → ∀ i, xjL x (lam T) i ≠ 0) {T : ℝ} (hT : 0 < T) :
    HasDerivAt (fun T => spec R T (lam T) x)
      (dGE_dT R x T (GE R T x (logL (xjL x (lam T)))) (inv (xjL x (lam T))) (xjL x (lam1 T))) T ∧
    HasDerivAt (fun T => dGE_dT R x T (GE R T x (logL (xjL x (lam T)))) (inv (xjL x (lam T)))
        (xjL x (lam1 T)))
      (d2GE_dT2 R x T (inv (xjL x (lam T))) (xjL x (lam1 T)) (xjL x (lam2 T))) T ∧
    HasDerivAt (fun T => d2GE_dT2 R x T (inv (xjL x (lam T))) (xjL x (lam1 T)) (xjL x (lam2 T)))
      (d3GE_dT3 R x T (inv (xjL x (lam T))) (xjL x (lam1 T)) (xjL x (lam2 T)) (xjL x (lam3 T))) T ∧
    ∀ k, HasDerivAt (fun T => dGE_dxs R x T (logL (xjL x (lam T))) (lam T) (inv (xjL x (lam T))) k)
      (d2GE_dTdxs R x T (logL (xjL x (lam T))) (lam T) (lam1 T) (inv (xjL x (lam T)))
        (xjL x (lam1 T)) k) T := by
  have dlog : ∀ T, 0 < T → ∀ i, HasDerivAt (fun T => logL (xjL x (lam T)) i)
      (xjL x (lam1 T) i / xjL x (lam T) i) T := fun T hT i =>
    (deriv_xjL (h1 T hT) i).log (hL T hT i)
  have dinv : ∀ T, 0 < T → ∀ i, HasDerivAt (fun T => inv (xjL x (lam T)) i)
      (-xjL x (lam1 T) i * (inv (xjL x (lam T)) i * inv (xjL x (lam T)) i)) T := by
    intro T hT i
    have h := HasDerivAt.fun_inv (deriv_xjL (x := x) (h1 T hT) i) (hL T hT i)
    have e : (fun T => inv (xjL x (lam T)) i) = fun T => (xjL x (lam T) i)⁻¹ := by
      funext T; simp only [inv, one_div]
    rw [e]
    refine HasDerivAt.congr_deriv h ?_
    simp only [inv]
    field_simp
  have hS : ∀ T, 0 < T → HasDerivAt (fun T => ∑ i, x i * logL (xjL x (lam T)) i)
      (∑ i, x i * xjL x (lam1 T) i * inv (xjL x (lam T)) i) T := by
    intro T hT
    have h := HasDerivAt.fun_sum (u := univ) fun i _ => (dlog T hT i).const_mul (x i)
    refine HasDerivAt.congr_deriv h ?_
    exact sum_congr rfl fun i _ => by simp only [inv]; ring
  have hS1 : ∀ T, 0 < T → HasDerivAt (fun T => ∑ i, x i * xjL x (lam1 T) i * inv (xjL x (lam T)) i)
      (∑ i, x i * inv (xjL x (lam T)) i * (xjL x (lam2 T) i
        - xjL x (lam1 T) i * xjL x (lam1 T) i * inv (xjL x (lam T)) i)) T := by
    intro T hT
    have h := HasDerivAt.fun_sum (u := univ) fun i _ =>
      ((deriv_xjL (x := x) (h2 T hT) i).const_mul (x i)).mul (dinv T hT i)
    refine HasDerivAt.congr_deriv h ?_
    exact sum_congr rfl fun i _ => by ring
  have hS2 : HasDerivAt (fun T => ∑ i, x i * inv (xjL x (lam T)) i * (xjL x (lam2 T) i
        - xjL x (lam1 T) i * xjL x (lam1 T) i * inv (xjL x (lam T)) i))
      ((∑ i, x i * xjL x (lam3 T) i * inv (xjL x (lam T)) i)
        - (∑ i, x i * xjL x (lam2 T) i * xjL x (lam1 T) i * inv (xjL x (lam T)) i
            * inv (xjL x (lam T)) i) * 3
        + (∑ i, x i * (xjL x (lam1 T) i * inv (xjL x (lam T)) i)
            * (xjL x (lam1 T) i * inv (xjL x (lam T)) i)
            * (xjL x (lam1 T) i * inv (xjL x (lam T)) i)) * 2) T := by
    have h := HasDerivAt.fun_sum (u := univ) fun i _ =>
      ((dinv T hT i).const_mul (x i)).mul ((deriv_xjL (x := x) (h3 T hT) i).sub
        (((deriv_xjL (x := x) (h2 T hT) i).mul (deriv_xjL (x := x) (h2 T hT) i)).mul (dinv T hT i)))
    refine HasDerivAt.congr_deriv h ?_
    simp only [sum_mul, ← sum_sub_distrib, ← sum_add_distrib]
    refine sum_congr rfl fun i _ => ?_
    simp only [Pi.mul_apply, Pi.sub_apply]
    ring
  refine ⟨?_, ?_, ?_, ?_⟩
  · have h := ((hasDerivAt_id T).const_mul R).neg.mul (hS T hT)
    refine HasDerivAt.congr_deriv h ?_
    simp only [dGE_dT, GE, Pi.neg_apply, id]
    field_simp
    ring
  · have h : HasDerivAt (fun T => -R * (∑ i, x i * logL (xjL x (lam T)) i)
        - T * R * ∑ i, x i * xjL x (lam1 T) i * inv (xjL x (lam T)) i) _ T :=
      ((hS T hT).const_mul (-R)).sub (((hasDerivAt_id T).mul_const R).mul (hS1 T hT))
    have e : (fun T => dGE_dT R x T (GE R T x (logL (xjL x (lam T)))) (inv (xjL x (lam T)))
        (xjL x (lam1 T))) =ᶠ[nhds T] fun T => -R * (∑ i, x i * logL (xjL x (lam T)) i)
        - T * R * ∑ i, x i * xjL x (lam1 T) i * inv (xjL x (lam T)) i := by
      filter_upwards [isOpen_ne.mem_nhds hT.ne'] with S hS'
      simp only [dGE_dT, GE]
      have hS0 : S ≠ 0 := hS'
      field_simp
    refine (h.congr_of_eventuallyEq e).congr_deriv ?_
    simp only [d2GE_dT2, id]
    have : ∑ i, xjL x (lam1 T) i * (x i * inv (xjL x (lam T)) i)
        = ∑ i, x i * xjL x (lam1 T) i * inv (xjL x (lam T)) i :=
      sum_congr rfl fun i _ => by ring
    rw [this]
    ring
  · have e : (fun T => d2GE_dT2 R x T (inv (xjL x (lam T))) (xjL x (lam1 T)) (xjL x (lam2 T)))
        = fun T => -R * (T * (∑ i, x i * inv (xjL x (lam T)) i * (xjL x (lam2 T) i
        - xjL x (lam1 T) i * xjL x (lam1 T) i * inv (xjL x (lam T)) i))
        + 2 * ∑ i, x i * xjL x (lam1 T) i * inv (xjL x (lam T)) i) := by
      funext T
      simp only [d2GE_dT2]
      congr 3
      exact sum_congr rfl fun i _ => by ring
    rw [e]
    have h := (((hasDerivAt_id T).mul hS2).add ((hS1 T hT).const_mul 2)).const_mul (-R)
    refine HasDerivAt.congr_deriv h ?_
    simp only [d3GE_dT3, id]
    have : ∀ i, inv (xjL x (lam T)) i * x i = x i * inv (xjL x (lam T)) i := fun i => mul_comm _ _
    simp only [this]
    ring
  · intro k
    have hs : HasDerivAt (fun T => ∑ i, x i * lam T i k * inv (xjL x (lam T)) i)
        (∑ i, x i * inv (xjL x (lam T)) i * (lam1 T i k
          - xjL x (lam1 T) i * (lam T i k * inv (xjL x (lam T)) i))) T := by
      have h := HasDerivAt.fun_sum (u := univ) fun i _ =>
        ((h1 T hT i k).const_mul (x i)).mul (dinv T hT i)
      refine HasDerivAt.congr_deriv h ?_
      exact sum_congr rfl fun i _ => by ring
    have h := ((hasDerivAt_id T).neg.mul_const R).mul ((dlog T hT k).add hs)
    refine HasDerivAt.congr_deriv h ?_
    simp only [d2GE_dTdxs, Pi.neg_apply, Pi.add_apply, id]
    have : ∑ j, x j * (lam T j k * inv (xjL x (lam T)) j) = ∑ j, x j * lam T j k * inv (xjL x (lam T)) j :=
      sum_congr rfl fun i _ => by ring
    rw [this]
    simp only [inv]
    ring

end Temperature

/-! ## The two-component regression functions -/

/-- **C24.** `wilson_gammas_binaries` gives, for parameters not below the minimum, the activity
coefficients of the two-component model. -/
theorem C24_binary {x1 l12 l21 : ℝ} (h12 : minLambda ≤ l12) (h21 : minLambda ≤ l21)
    (hx : 0 ≤ x1) (hx' : x1 ≤ 1) :
    binary x1 l12 l21 = (gammasFromArgs ![x1, 1 - x1] ![![1, l12], ![l21, 1]] 0,
      gammasFromArgs ![x1, 1 - x1] ![![1, l12], ![l21, 1]] 1) := by
  have hmin : (0 : ℝ) < minLambda := by unfold minLambda; positivity
  have hp12 : 0 < l12 := hmin.trans_le h12
  have hp21 : 0 < l21 := hmin.trans_le h21
  have hA : 0 < x1 + (1 - x1) * l12 := by
    rcases hx.eq_or_lt with h | h
    · rw [← h]; simpa using hp12
    · have := mul_nonneg (sub_nonneg.2 hx') hp12.le
      linarith
  have hB : 0 < (1 - x1) + x1 * l21 := by
    rcases hx.eq_or_lt with h | h
    · rw [← h]; norm_num
    · have := mul_pos h hp21
      linarith
  simp only [binary, clamp, if_neg (not_lt.2 h12), if_neg (not_lt.2 h21), gammasFromArgs, gammas, inv, xjL,
    Fin.sum_univ_two]
  simp only [Matrix.cons_val_zero, Matrix.cons_val_one]
  have hA0 := hA.ne'
  have hB0 := hB.ne'
  have hA' : x1 * 1 + (1 - x1) * l12 = x1 + (1 - x1) * l12 := by ring
  have hB' : x1 * l21 + (1 - x1) * 1 = (1 - x1) + x1 * l21 := by ring
  rw [hA', hB']
  have k1 : (1 - x1) * (l12 * (1 / (x1 + (1 - x1) * l12))) = 1 - x1 * (1 / (x1 + (1 - x1) * l12)) := by
    field_simp; ring
  have k2 : x1 * (l21 * (1 / (1 - x1 + x1 * l21))) = 1 - (1 - x1) * (1 / (1 - x1 + x1 * l21)) := by
    field_simp; ring
  refine Prod.ext ?_ ?_
  · simp only
    congr 2
    linear_combination k1
  · simp only
    congr 2
    linear_combination k2

/-- **C24.** `wilson_gammas_binaries_jac` holds the derivatives of `wilson_gammas_binaries` with respect
to the parameters, above the minimum. -/
theorem C24_binary_jac {x1 l12 l21 : ℝ} (h12 : minLambda < l12) (h21 : minLambda < l21)
    (hx : 0 ≤ x1) (hx' : x1 ≤ 1) :
    HasDerivAt (fun l => (binary x1 l l21).1) (binaryJac x1 l12 l21).1.1 l12 ∧
    HasDerivAt (fun l => (binary x1 l12 l).1) (binaryJac x1 l12 l21).1.2 l21 ∧
    HasDerivAt (fun l => (binary x1 l l21).2) (binaryJac x1 l12 l21).2.1 l12 ∧
    HasDerivAt (fun l => (binary x1 l12 l).2) (binaryJac x1 l12 l21).2.2 l21 := by
  have hmin : (0 : ℝ) < minLambda := by unfold minLambda; positivity
  have hp12 : 0 < l12 := hmin.trans h12
  have hp21 : 0 < l21 := hmin.trans h21
  have hA : x1 + (1 - x1) * l12 ≠ 0 := by
    rcases hx.eq_or_lt with h | h
    · rw [← h]; simpa using hp12.ne'
    · have := mul_nonneg (sub_nonneg.2 hx') hp12.le
      exact (by linarith : (0 : ℝ) < x1 + (1 - x1) * l12).ne'
  have hB : (1 - x1) + x1 * l21 ≠ 0 := by
    rcases hx.eq_or_lt with h | h
    · rw [← h]; norm_num
    · have := mul_pos h hp21
      exact (by linarith : (0 : ℝ) < 1 - x1 + x1 * l21).ne'
  have dA : HasDerivAt (fun l => 1 / (x1 + (1 - x1) * l)) (-(1 - x1) / (x1 + (1 - x1) * l12) ^ 2) l12 := by
    have h := HasDerivAt.fun_inv (((hasDerivAt_id l12).const_mul (1 - x1)).const_add x1) hA
    simp only [one_div]
    refine HasDerivAt.congr_deriv h ?_
    simp
  have dB : HasDerivAt (fun l => 1 / ((1 - x1) + x1 * l)) (-x1 / ((1 - x1) + x1 * l21) ^ 2) l21 := by
    have h := HasDerivAt.fun_inv (((hasDerivAt_id l21).const_mul x1).const_add (1 - x1)) hB
    simp only [one_div]
    refine HasDerivAt.congr_deriv h ?_
    simp
  have dC12 : HasDerivAt (fun l => l * (1 / (x1 + (1 - x1) * l)) - l21 * (1 / ((1 - x1) + x1 * l21)))
      (x1 / (x1 + (1 - x1) * l12) ^ 2) l12 := by
    refine HasDerivAt.congr_deriv (((hasDerivAt_id l12).mul dA).sub_const _) ?_
    simp only [id]
    field_simp
    ring
  have dC21 : HasDerivAt (fun l => l12 * (1 / (x1 + (1 - x1) * l12)) - l * (1 / ((1 - x1) + x1 * l)))
      (-(1 - x1) / ((1 - x1) + x1 * l21) ^ 2) l21 := by
    refine HasDerivAt.congr_deriv (((hasDerivAt_id l21).mul dB).const_sub _) ?_
    simp only [id]
    field_simp
    ring
  have n12 : ∀ᶠ l in nhds l12, clamp l = l := by
    filter_upwards [isOpen_lt continuous_const continuous_id |>.mem_nhds h12] with l hl
    exact if_neg (not_lt.2 (le_of_lt hl))
  have n21 : ∀ᶠ l in nhds l21, clamp l = l := by
    filter_upwards [isOpen_lt continuous_const continuous_id |>.mem_nhds h21] with l hl
    exact if_neg (not_lt.2 (le_of_lt hl))
  have c12 := n12.self_of_nhds
  have c21 := n21.self_of_nhds
  have s1 : l12 * (1 - x1) + x1 = x1 + (1 - x1) * l12 := by ring
  have s2 : l21 * x1 + (1 - x1) = 1 - x1 + x1 * l21 := by ring
  refine ⟨?_, ?_, ?_, ?_⟩
  · have h := ((dC12.mul_const (1 - x1)).exp).mul dA
    refine (h.congr_of_eventuallyEq ?_).congr_deriv ?_
    · filter_upwards [n12] with l hl
      simp only [binary, hl, c21, Pi.mul_apply]
    · simp only [binaryJac, c12, c21, s1, s2]
      rw [mul_comm (1 / (x1 + (1 - x1) * l12)) l12, mul_comm (1 / (1 - x1 + x1 * l21)) l21]
      field_simp
      ring
  · have h := ((dC21.mul_const (1 - x1)).exp).mul_const (1 / (x1 + (1 - x1) * l12))
    refine (h.congr_of_eventuallyEq ?_).congr_deriv ?_
    · filter_upwards [n21] with l hl
      simp only [binary, hl, c12]
    · simp only [binaryJac, c12, c21, s1, s2]
      rw [mul_comm (1 / (x1 + (1 - x1) * l12)) l12, mul_comm (1 / (1 - x1 + x1 * l21)) l21]
      field_simp
      ring
  · have h := ((dC12.neg.mul_const x1).exp).mul_const (1 / (1 - x1 + x1 * l21))
    refine (h.congr_of_eventuallyEq ?_).congr_deriv ?_
    · filter_upwards [n12] with l hl
      simp only [binary, hl, c21, Pi.neg_apply]
    · simp only [binaryJac, c12, c21, s1, s2, Pi.neg_apply]
      rw [mul_comm (1 / (x1 + (1 - x1) * l12)) l12, mul_comm (1 / (1 - x1 + x1 * l21)) l21]
      obtain ⟨A, hAe⟩ : ∃ A, A = x1 + (1 - x1) * l12 := ⟨_, rfl⟩
      rw [← hAe] at hA ⊢
      field_simp
      rw [hAe]
      ring
  · have h := ((dC21.neg.mul_const x1).exp).mul dB
    refine (h.congr_of_eventuallyEq ?_).congr_deriv ?_
    · filter_upwards [n21] with l hl
      simp only [binary, hl, c12, Pi.mul_apply, Pi.neg_apply]
    · simp only [binaryJac, c12, c21, s1, s2, Pi.neg_apply]
      rw [mul_comm (1 / (x1 + (1 - x1) * l12)) l12, mul_comm (1 / (1 - x1 + x1 * l21)) l21]
      field_simp
      ring

example : minLambda < 2 ∧ minLambda ≤ 3 := by unfold minLambda; norm_num

/-- **C24.** Parameters below `1e-20` act like `1e-20`, and only those: in the activity coefficients and in their
derivatives by the parameters the minimum is where the documentation of the regression puts it. -/
theorem C24_clamp (l : ℝ) : (l < 1 / 10 ^ 20 → clamp l = 1 / 10 ^ 20) ∧ (1 / 10 ^ 20 ≤ l → clamp l = l) ∧
    ∀ x1 l', (l < 1 / 10 ^ 20 → binary x1 l l' = binary x1 (1 / 10 ^ 20) l' ∧ binary x1 l' l = binary x1 l' (1 / 10 ^ 20)) := by
  have h1 : l < 1 / 10 ^ 20 → clamp l = 1 / 10 ^ 20 := fun h => by unfold clamp minLambda; rw [if_pos h]
  have h2 : clamp (1 / 10 ^ 20) = 1 / 10 ^ 20 := by unfold clamp minLambda; rw [if_neg (lt_irrefl _)]
  refine ⟨h1, fun h => ?_, fun x1 l' h => ?_⟩
  · unfold clamp minLambda; rw [if_neg (not_lt.mpr h)]
  · simp only [binary, h1 h, h2, and_self]

example : (0 : ℝ) < 1 / 10 ^ 20 ∧ (1 : ℝ) / 10 ^ 20 ≤ 3 := by norm_num

/-! ## The hypotheses can be met -/

example : let x : Fin 2 → ℝ := ![1 / 4, 3 / 4]
    let lam : Fin 2 → Fin 2 → ℝ := ![![1, 2], ![3, 1]]
    ∑ i, x i = 1 ∧ ∀ i, 0 < ∑ k, x k * lam i k := by
  refine ⟨by simp [Fin.sum_univ_two]; norm_num, fun i => ?_⟩
  fin_cases i <;> simp [Fin.sum_univ_two] <;> norm_num

example : ∃ lam lam1 lam2 lam3 : ℝ → Fin 2 → Fin 2 → ℝ, ∃ x : Fin 2 → ℝ,
    (∀ T, 0 < T → ∀ i j, HasDerivAt (fun T => lam T i j) (lam1 T i j) T) ∧
    (∀ T, 0 < T → ∀ i j, HasDerivAt (fun T => lam1 T i j) (lam2 T i j) T) ∧
    (∀ T, 0 < T → ∀ i j, HasDerivAt (fun T => lam2 T i j) (lam3 T i j) T) ∧
    (∀ T, 0 < T → ∀ i, xjL x (lam T) i ≠ 0) ∧ lam1 300 0 1 ≠ 0 :=
  ⟨fun T _ _ => exp T, fun T _ _ => exp T, fun T _ _ => exp T, fun T _ _ => exp T, ![1 / 4, 3 / 4],
    fun T _ _ _ => hasDerivAt_exp T, fun T _ _ _ => hasDerivAt_exp T, fun T _ _ _ => hasDerivAt_exp T,
    fun T _ i => by
      simp only [xjL, Fin.sum_univ_two]
      simp only [Matrix.cons_val_zero, Matrix.cons_val_one]
      have := exp_pos T
      positivity, (exp_pos _).ne'⟩

end Verif.Wilson
