import Verif.Activity.GibbsExcess
import Mathlib.Algebra.BigOperators.Field

/-!
# The NRTL model (`thermo/nrtl.py` 66-464, 1858-2141)

C25: derivatives of the parameters and of the excess Gibbs energy, activity coefficients.

Loops that add up terms are finite sums; `trunc_exp` is the exponential (its overflow guard is not
modelled).
-/

namespace Verif.NRTL

open Real Finset GibbsExcess

variable {N : ℕ}

/-- A matrix of parameters. -/
abbrev Mat (N : ℕ) := Fin N → Fin N → ℝ

/-! ## Model: parameters -/

/-- `nrtl_taus` (103-125). -/
noncomputable def taus (T : ℝ) (A B E F G H : Mat N) (i j : Fin N) : ℝ :=
  let T2 := T * T
  let Tinv := 1 / T
  let T2inv := Tinv * Tinv
  let logT := log T
  A i j + B i j * Tinv + E i j * logT + F i j * T + G i j * T2inv + H i j * T2

/-- `nrtl_dtaus_dT` (127-146). -/
noncomputable def dtaus_dT (T : ℝ) (B E F G H : Mat N) (i j : Fin N) : ℝ :=
  let Tinv := 1 / T
  let nT2inv := -Tinv * Tinv
  let n2T3inv := 2 * nT2inv * Tinv
  let T2 := T + T
  F i j + nT2inv * B i j + Tinv * E i j + n2T3inv * G i j + T2 * H i j

/-- `nrtl_d2taus_dT2` (148-169). -/
noncomputable def d2taus_dT2 (T : ℝ) (B E G H : Mat N) (i j : Fin N) : ℝ :=
  let Tinv := 1 / T
  let Tinv2 := Tinv * Tinv
  let T3inv2 := 2 * (Tinv2 * Tinv)
  let nT2inv := -Tinv * Tinv
  let T4inv6 := 6 * (Tinv2 * Tinv2)
  2 * H i j + T3inv2 * B i j + nT2inv * E i j + T4inv6 * G i j

/-- `nrtl_d3taus_dT3` (171-191). -/
noncomputable def d3taus_dT3 (T : ℝ) (B E G : Mat N) (i j : Fin N) : ℝ :=
  let Tinv := 1 / T
  let T2inv := Tinv * Tinv
  let nT4inv6 := -6 * T2inv * T2inv
  let T3inv2 := 2 * T2inv * Tinv
  let T5inv24 := -24 * (T2inv * T2inv * Tinv)
  nT4inv6 * B i j + T3inv2 * E i j + T5inv24 * G i j

/-- `nrtl_alphas` (193-204); when all `d` are zero the code uses `c` itself (1052-1053). -/
def alphas (T : ℝ) (c d : Mat N) (i j : Fin N) : ℝ := c i j + d i j * T

/-- `nrtl_Gs` (206-217). -/
noncomputable def Gs (alphas taus : Mat N) (i j : Fin N) : ℝ := exp (-alphas i j * taus i j)

/-- `nrtl_dGs_dT` (219-233). -/
def dGs_dT (alphas dalphas taus dtaus Gs : Mat N) (i j : Fin N) : ℝ :=
  (-alphas i j * dtaus i j - taus i j * dalphas i j) * Gs i j

/-- `nrtl_d2Gs_dT2` (235-252). -/
def d2Gs_dT2 (alphas dalphas taus dtaus d2taus Gs : Mat N) (i j : Fin N) : ℝ :=
  let t1 := alphas i j * dtaus i j + taus i j * dalphas i j
  (t1 * t1 - alphas i j * d2taus i j - 2 * dalphas i j * dtaus i j) * Gs i j

/-- `nrtl_d3Gs_dT3` (254-277). -/
def d3Gs_dT3 (alphas dalphas taus dtaus d2taus d3taus Gs : Mat N) (i j : Fin N) : ℝ :=
  let x0 := alphas i j
  let x1 := taus i j
  let x2 := dalphas i j
  let x3 := d2taus i j
  let x4 := dtaus i j
  let x5 := x0 * x4 + x1 * x2
  Gs i j * (-x0 * d3taus i j - 3 * x2 * x3 - x5 * x5 * x5 + 3 * x5 * (x0 * x3 + 2 * x2 * x4))

/-! ## Model: excess Gibbs energy -/

/-- `nrtl_xj_Gs_jis` (301-310), and the first sum of `nrtl_xj_Gs_jis_and_Gs_taus_jis` (285-291). -/
def xjG (xs : Fin N → ℝ) (Gs : Mat N) (i : Fin N) : ℝ := ∑ j, xs j * Gs j i

/-- `nrtl_xj_Gs_taus_jis` (312-321), and the second sum of `nrtl_xj_Gs_jis_and_Gs_taus_jis` (293-298),
whose transposed product is `taus[j][i]*Gs[j][i]` (1253-1270). -/
def xjGtau (xs : Fin N → ℝ) (Gs taus : Mat N) (i : Fin N) : ℝ := ∑ j, xs j * Gs j i * taus j i

/-- `xj_Gs_jis_inv` (1339). -/
noncomputable def inv (s : Fin N → ℝ) (i : Fin N) : ℝ := 1 / s i

/-- `nrtl_GE` (323-328). -/
def GE (R T : ℝ) (xs s2 inv1 : Fin N → ℝ) : ℝ := (∑ i, xs i * s2 i * inv1 i) * (T * R)

/-- `nrtl_dGE_dT` (330-336). -/
def dGE_dT (R T : ℝ) (xs s2 inv1 s3 s4 s5 : Fin N → ℝ) : ℝ :=
  (∑ i, xs i * (s2 i + T * ((s4 i + s5 i) - (s2 i * s3 i) * inv1 i)) * inv1 i) * R

/-- `nrtl_d2GE_dT2` (338-382). -/
noncomputable def d2GE_dT2 (R T : ℝ) (xs : Fin N → ℝ) (taus dtaus d2taus Gs dGs d2Gs : Mat N) : ℝ :=
  R * ∑ i,
    let sum1 := ∑ j, Gs j i * xs j
    let sum2 := ∑ j, taus j i * (Gs j i * xs j)
    let sum3 := ∑ j, dGs j i * xs j
    let sum4 := ∑ j, taus j i * (dGs j i * xs j)
    let sum5 := ∑ j, dtaus j i * (Gs j i * xs j)
    let sum6 := ∑ j, xs j * d2Gs j i
    let sum7 := ∑ j, taus j i * (xs j * d2Gs j i)
    let sum8 := ∑ j, Gs j i * xs j * d2taus j i
    let sum9 := ∑ j, dGs j i * xs j * dtaus j i
    let term1 := -T * sum2 * (sum6 - 2 * sum3 * sum3 / sum1) / sum1
    let term2 := T * (sum7 + sum8 + 2 * sum9)
    let term3 := -2 * T * (sum3 * (sum4 + sum5)) / sum1
    let term4 := -2 * (sum2 * sum3) / sum1
    let term5 := 2 * (sum4 + sum5)
    xs i * (term1 + term2 + term3 + term4 + term5) / sum1

/-- `nrtl_dGE_dxs` (384-395). -/
def dGE_dxs (R T : ℝ) (xs : Fin N → ℝ) (taus Gs : Mat N) (s2 inv1 : Fin N → ℝ) (k : Fin N) : ℝ :=
  (s2 k * inv1 k + ∑ i, xs i * inv1 i * Gs k i * (taus k i - inv1 i * s2 i)) * (R * T)

/-- `nrtl_d2GE_dxixjs` (397-425). -/
def d2GE_dxixjs (R T : ℝ) (xs : Fin N → ℝ) (taus Gs : Mat N) (s2 inv1 : Fin N → ℝ) (i j : Fin N) : ℝ :=
  (Gs i j * taus i j * inv1 j + Gs j i * taus j i * inv1 i
    - s2 j * Gs i j * (inv1 j * inv1 j) - s2 i * Gs j i * (inv1 i * inv1 i)
    + (∑ k, 2 * xs k * s2 k * Gs i k * Gs j k * (inv1 k * inv1 k * inv1 k))
    - ∑ k, xs k * Gs i k * Gs j k * (taus j k + taus i k) * inv1 k * inv1 k) * (R * T)

/-- `nrtl_d2GE_dTdxs` (427-464). -/
def d2GE_dTdxs (R T : ℝ) (xs : Fin N → ℝ) (taus dtaus Gs dGs : Mat N) (s2 inv1 s3 s4 s5 : Fin N → ℝ)
    (i : Fin N) : ℝ :=
  let vec0 := fun i => xs i * inv1 i
  let vec1 := fun i => inv1 i * s2 i
  let tot1 := inv1 i * (s3 i * vec1 i - (s5 i + s4 i)) + ∑ j,
    (vec1 j * dGs i j + inv1 j * Gs i j * (s3 j * (taus i j - vec1 j - vec1 j) + s5 j + s4 j)
      - (Gs i j * dtaus i j + taus i j * dGs i j)) * vec0 j
  let others := vec1 i + ∑ j, vec0 j * Gs i j * (taus i j - vec1 j)
  let mR := -R
  mR * (T * tot1 - others)

/-- `nrtl_gammas` (77-100). -/
noncomputable def gammas (xs : Fin N → ℝ) (Gs taus : Mat N) (inv1 s2 : Fin N → ℝ) (i : Fin N) : ℝ :=
  let vec0 := fun j => xs j * inv1 j
  let vec1 := fun j => s2 j * inv1 j
  exp (vec1 i + ∑ j, vec0 j * Gs i j * (taus i j - vec1 j))

/-- `nrtl_gammas_from_args` (66-75). -/
noncomputable def gammasFromArgs (xs : Fin N → ℝ) (Gs taus : Mat N) : Fin N → ℝ :=
  gammas xs Gs taus (inv (xjG xs Gs)) (xjGtau xs Gs taus)

/-- `NRTL_gammas` (2104-2141). -/
noncomputable def NRTLgammas (xs : Fin N → ℝ) (taus alphas : Mat N) (i : Fin N) : ℝ :=
  let G : Mat N := fun i j => exp (-alphas i j * taus i j)
  let td2 := fun j => 1 / ∑ k, xs k * G k j
  let tn3 := fun j => ∑ k, xs k * G k j * taus k j
  let td2s := fun j => td2 j * xs j
  let tn3s := fun j => tn3 j * td2 j * (td2 j * xs j)
  let td1 := ∑ j, xs j * G j i
  let tn1 := ∑ j, xs j * G j i * taus j i
  let total2 := ∑ j, G i j * (taus i j * td2s j - tn3s j)
  exp (tn1 / td1 + total2)

/-- `MIN_TAU_NRTL`, `MIN_ALPHA_NRTL` (1858-1859) and the clamps (1915-1922, 1962-1969). -/
noncomputable def clampTau (t : ℝ) : ℝ := if t < -10 ^ 100 then -10 ^ 100 else t
@[inherit_doc clampTau] noncomputable def clampAlpha (a : ℝ) : ℝ := if a < 1 / 10 ^ 10 then 1 / 10 ^ 10 else a

/-- `NRTL_gammas_binaries` (1930-1957) for one data point with first mole fraction `x0`. -/
noncomputable def binary (x0 tau12 tau21 alpha12 alpha21 : ℝ) : ℝ × ℝ :=
  let tau01 := clampTau tau12
  let tau10 := clampTau tau21
  let alpha01 := clampAlpha alpha12
  let alpha10 := clampAlpha alpha21
  let G01 := exp (-alpha01 * tau01)
  let G10 := exp (-alpha10 * tau10)
  let G10_2_tau10 := G10 * G10 * tau10
  let G10_tau10 := G10 * tau10
  let G01_2_tau01 := G01 * G01 * tau01
  let G01_tau01 := G01 * tau01
  let x1 := 1 - x0
  let c0 := (1 / (x0 + x1 * G10)) * (1 / (x0 + x1 * G10))
  let c1 := (1 / (x1 + x0 * G01)) * (1 / (x1 + x0 * G01))
  (exp (x1 * x1 * (G10_2_tau10 * c0 + G01_tau01 * c1)), exp (x0 * x0 * (G01_2_tau01 * c1 + G10_tau10 * c0)))

/-- `NRTL_gammas_binaries_jac` (1978-2025) for one data point: the row of each activity coefficient,
columns `tau12, tau21, alpha12, alpha21`. -/
noncomputable def binaryJac (X0 tau12 tau21 alpha12 alpha21 : ℝ) : (Fin 4 → ℝ) × (Fin 4 → ℝ) :=
  let tau01 := clampTau tau12
  let tau10 := clampTau tau21
  let alpha01 := clampAlpha alpha12
  let alpha10 := clampAlpha alpha21
  let x2 := alpha01 * tau01
  let x3 := exp x2
  let x11 := alpha10 * tau10
  let x12 := exp x11
  let x26 := tau01 * tau01
  let x27 := tau10 * tau10
  let x0 := X0
  let x1 := 1 - x0
  let x4 := x1 * x3
  let x5 := x0 + x4
  let x5_inv := 1 / x5
  let x6 := 2 * x4
  let x7 := x6 * x5_inv
  let x8 := x2 * x7
  let x9 := x5_inv * x5_inv
  let x10 := x1 * x1
  let x13 := x0 * x12
  let x14 := x1 + x13
  let x14_inv := 1 / x14
  let x15 := x14_inv * x14_inv
  let x16 := tau10 * x15
  let x17 := tau01 * x9
  let x18 := x10 * exp (x10 * (x16 + x17 * x3))
  let x19 := x18 * x3 * x9
  let x20 := x0 * x0
  let x21 := x20 * exp (x20 * (x12 * x16 + x17))
  let x22 := 2 * x13
  let x23 := x22 * x14_inv
  let x24 := x11 * x23
  let x25 := x12 * x15 * x21
  (![x19 * (x2 - x8 + 1), -x15 * x18 * (x24 - 1), -x19 * x26 * (x7 - 1), -x18 * x22 * x27 * x15 * x14_inv],
   ![-x21 * x9 * (x8 - 1), x25 * (x11 - x24 + 1), -x21 * x26 * x6 * x5_inv * x9, -x25 * x27 * (x23 - 1)])

/-! ## C25: the parameters -/

/-- **C25.** The derivatives of the binary parameters. -/
theorem C25_taus (A B E F G H : Mat N) {T : ℝ} (hT : T ≠ 0) (i j : Fin N) :
    HasDerivAt (fun T => taus T A B E F G H i j) (dtaus_dT T B E F G H i j) T ∧
    HasDerivAt (fun T => dtaus_dT T B E F G H i j) (d2taus_dT2 T B E G H i j) T ∧
    HasDerivAt (fun T => d2taus_dT2 T B E G H i j) (d3taus_dT3 T B E G i j) T := by
  have hinv : HasDerivAt (fun T : ℝ => 1 / T) (-(1 / T * (1 / T))) T := by
    have h := HasDerivAt.fun_inv (hasDerivAt_id T) hT
    have e : (fun T : ℝ => 1 / T) = fun T => (id T)⁻¹ := by funext T; simp [one_div]
    rw [e]
    refine HasDerivAt.congr_deriv h ?_
    simp only [id]; field_simp
  have hid := hasDerivAt_id T
  refine ⟨?_, ?_, ?_⟩
  · have h := ((((hinv.const_mul (B i j)).const_add (A i j)).add ((hasDerivAt_log hT).const_mul (E i j))).add
      (hid.const_mul (F i j))).add ((hinv.mul hinv).const_mul (G i j)) |>.add ((hid.mul hid).const_mul (H i j))
    refine HasDerivAt.congr_deriv h ?_
    simp only [dtaus_dT, id]
    field_simp
    ring
  · have h := (((((hinv.neg.mul hinv).mul_const (B i j)).const_add (F i j)).add (hinv.mul_const (E i j))).add
      ((((hinv.neg.mul hinv).const_mul 2).mul hinv).mul_const (G i j))).add ((hid.add hid).mul_const (H i j))
    refine HasDerivAt.congr_deriv h ?_
    simp only [d2taus_dT2, Pi.mul_apply, Pi.neg_apply]
    field_simp
    ring
  · have h := ((((((hinv.mul hinv).mul hinv).const_mul 2).mul_const (B i j)).const_add (2 * H i j)).add
      ((hinv.neg.mul hinv).mul_const (E i j))).add
      ((((hinv.mul hinv).mul (hinv.mul hinv)).const_mul 6).mul_const (G i j))
    refine HasDerivAt.congr_deriv h ?_
    simp only [d3taus_dT3, Pi.mul_apply, Pi.neg_apply]
    field_simp
    ring

/-- **C25.** The derivatives of the exponential factors, for any parameters `tau` with derivatives and
`alpha` linear in temperature. -/
theorem C25_Gs {a a1 : Mat N} {al t t1 t2 t3 : ℝ → Mat N} {T : ℝ} (i j : Fin N)
    (hal : ∀ T, al T i j = a i j + a1 i j * T)
    (h1 : HasDerivAt (fun T => t T i j) (t1 T i j) T)
    (h2 : HasDerivAt (fun T => t1 T i j) (t2 T i j) T)
    (h3 : HasDerivAt (fun T => t2 T i j) (t3 T i j) T) :
    HasDerivAt (fun T => Gs (al T) (t T) i j) (dGs_dT (al T) a1 (t T) (t1 T) (Gs (al T) (t T)) i j) T ∧
    HasDerivAt (fun T => dGs_dT (al T) a1 (t T) (t1 T) (Gs (al T) (t T)) i j)
      (d2Gs_dT2 (al T) a1 (t T) (t1 T) (t2 T) (Gs (al T) (t T)) i j) T ∧
    HasDerivAt (fun T => d2Gs_dT2 (al T) a1 (t T) (t1 T) (t2 T) (Gs (al T) (t T)) i j)
      (d3Gs_dT3 (al T) a1 (t T) (t1 T) (t2 T) (t3 T) (Gs (al T) (t T)) i j) T := by
  have ha : HasDerivAt (fun T => al T i j) (a1 i j) T := by
    have e : (fun T => al T i j) = fun T => a i j + a1 i j * T := funext hal
    rw [e]
    refine HasDerivAt.congr_deriv (((hasDerivAt_id T).const_mul (a1 i j)).const_add (a i j)) (by ring)
  have hG : HasDerivAt (fun T => Gs (al T) (t T) i j)
      (dGs_dT (al T) a1 (t T) (t1 T) (Gs (al T) (t T)) i j) T := by
    refine HasDerivAt.congr_deriv ((ha.neg.mul h1).exp) ?_
    simp only [dGs_dT, Gs, Pi.mul_apply, Pi.neg_apply]
    ring
  refine ⟨hG, ?_, ?_⟩
  · refine HasDerivAt.congr_deriv (((ha.neg.mul h2).sub (h1.mul_const (a1 i j))).mul hG) ?_
    simp only [d2Gs_dT2, dGs_dT, Pi.mul_apply, Pi.neg_apply, Pi.sub_apply]
    ring
  · have hx := (ha.mul h2).add (h1.mul_const (a1 i j))
    refine HasDerivAt.congr_deriv ((((hx.mul hx).sub (ha.mul h3)).sub
      (h2.const_mul (2 * a1 i j))).mul hG) ?_
    simp only [d3Gs_dT3, dGs_dT, Pi.mul_apply, Pi.add_apply, Pi.sub_apply]
    ring

/-! ## The expression the model stands for -/

/-- `GE = RT Σ_i x_i (Σ_j τ_ji G_ji x_j)/(Σ_j G_ji x_j)`. -/
noncomputable def spec (R T : ℝ) (G tau : Mat N) (x : Fin N → ℝ) : ℝ :=
  R * T * ∑ i, x i * ((∑ j, x j * (G j i * tau j i)) / ∑ j, x j * G j i)

theorem xjGtau_eq (x : Fin N → ℝ) (G tau : Mat N) (i : Fin N) :
    xjGtau x G tau i = ∑ j, x j * (G j i * tau j i) := sum_congr rfl fun j _ => by ring

theorem GE_eq (R T : ℝ) (G tau : Mat N) (x : Fin N → ℝ) :
    GE R T x (xjGtau x G tau) (inv (xjG x G)) = spec R T G tau x := by
  simp only [GE, spec, xjGtau_eq, inv, xjG]
  rw [mul_comm, mul_comm T R]
  congr 1
  exact sum_congr rfl fun i _ => by ring

/-! ## C25: composition derivatives -/

section Composition

variable {R T : ℝ} {G tau : Mat N} {x : Fin N → ℝ}

theorem pd_s1 (G : Mat N) (i j : Fin N) (x : Fin N → ℝ) : PD (fun x => xjG x G i) j x (G j i) :=
  PD.linear (fun j => G j i) j x

theorem pd_s2 (G tau : Mat N) (i j : Fin N) (x : Fin N → ℝ) :
    PD (fun x => xjGtau x G tau i) j x (G j i * tau j i) := by
  have := PD.linear (fun j => G j i * tau j i) j x
  simp only [xjGtau_eq]
  exact this

theorem pd_inv {i : Fin N} (h : xjG x G i ≠ 0) (j : Fin N) :
    PD (fun x => inv (xjG x G) i) j x (-G j i * (inv (xjG x G) i * inv (xjG x G) i)) := by
  have := PD.inv (pd_s1 G i j x) h
  simp only [inv, one_div]
  refine this.congr_d ?_
  field_simp

/-- **C25.** `dGE_dxs` is the gradient of the excess Gibbs energy. -/
theorem C25_dGE_dxs (hS : ∀ i, ∑ j, x j * G j i ≠ 0) (k : Fin N) :
    PD (spec R T G tau) k x (dGE_dxs R T x tau G (xjGtau x G tau) (inv (xjG x G)) k) := by
  have e : spec R T G tau = fun x => R * T * ∑ i, x i * (xjGtau x G tau i * inv (xjG x G) i) := by
    funext x
    simp only [spec, xjGtau_eq, inv, xjG]
    congr 1
    exact sum_congr rfl fun i _ => by ring
  rw [e]
  have h := PD.const_mul (R * T) (PD.sum (s := univ) fun i _ =>
    PD.mul (PD.coord i k x) (PD.mul (pd_s2 G tau i k x) (pd_inv (hS i) k)))
  refine PD.congr_d h ?_
  simp only [dGE_dxs, sum_add_distrib]
  simp only [ite_mul, one_mul, zero_mul, sum_ite_eq', mem_univ, if_true]
  have : ∀ i, x i * (G k i * tau k i * inv (xjG x G) i
        + xjGtau x G tau i * (-G k i * (inv (xjG x G) i * inv (xjG x G) i)))
      = x i * inv (xjG x G) i * G k i * (tau k i - inv (xjG x G) i * xjGtau x G tau i) := by
    intro i; ring
  simp only [this]
  ring

/-- **C25.** `d2GE_dxixjs` is the derivative of `dGE_dxs`. -/
theorem C25_d2GE_dxixjs (hS : ∀ i, ∑ j, x j * G j i ≠ 0) (k m : Fin N) :
    PD (fun x => dGE_dxs R T x tau G (xjGtau x G tau) (inv (xjG x G)) k) m x
      (d2GE_dxixjs R T x tau G (xjGtau x G tau) (inv (xjG x G)) k m) := by
  have h := PD.mul_const (R * T) ((PD.mul (pd_s2 G tau k m x) (pd_inv (hS k) m)).add
    (PD.sum (s := univ) fun i _ => PD.mul (PD.mul_const (G k i) (PD.mul (PD.coord i m x) (pd_inv (hS i) m)))
      (PD.sub (PD.const (tau k i)) (PD.mul (pd_inv (hS i) m) (pd_s2 G tau i m x)))))
  refine PD.congr_d h ?_
  simp only [d2GE_dxixjs]
  congr 1
  have : ∀ i, ((if i = m then 1 else 0) * inv (xjG x G) i + x i * (-G m i * (inv (xjG x G) i * inv (xjG x G) i)))
        * G k i * (tau k i - inv (xjG x G) i * xjGtau x G tau i)
      + x i * inv (xjG x G) i * G k i * (0 - (-G m i * (inv (xjG x G) i * inv (xjG x G) i) * xjGtau x G tau i
        + inv (xjG x G) i * (G m i * tau m i)))
      = (if i = m then 1 else 0) * (inv (xjG x G) i * G k i * (tau k i - inv (xjG x G) i * xjGtau x G tau i))
        + 2 * x i * xjGtau x G tau i * G k i * G m i
          * (inv (xjG x G) i * inv (xjG x G) i * inv (xjG x G) i)
        - x i * G k i * G m i * (tau m i + tau k i) * inv (xjG x G) i * inv (xjG x G) i := by
    intro i; ring
  simp only [this, sum_add_distrib, sum_sub_distrib]
  simp only [ite_mul, one_mul, zero_mul, sum_ite_eq', mem_univ, if_true]
  ring

/-! ## C25: activity coefficients -/

theorem sum_x_dGE (hS : ∀ i, ∑ j, x j * G j i ≠ 0) :
    ∑ k, x k * dGE_dxs R T x tau G (xjGtau x G tau) (inv (xjG x G)) k = spec R T G tau x := by
  rw [← GE_eq]
  simp only [dGE_dxs, GE]
  have e : ∀ k, x k * ((xjGtau x G tau k * inv (xjG x G) k + ∑ i, x i * inv (xjG x G) i * G k i
        * (tau k i - inv (xjG x G) i * xjGtau x G tau i)) * (R * T))
      = (x k * xjGtau x G tau k * inv (xjG x G) k + ∑ i, (x i * inv (xjG x G) i * (x k * G k i * tau k i)
        - x i * inv (xjG x G) i * inv (xjG x G) i * xjGtau x G tau i * (x k * G k i))) * (T * R) := by
    intro k
    have : ∀ i, x i * inv (xjG x G) i * (x k * G k i * tau k i)
        - x i * inv (xjG x G) i * inv (xjG x G) i * xjGtau x G tau i * (x k * G k i)
        = x k * (x i * inv (xjG x G) i * G k i * (tau k i - inv (xjG x G) i * xjGtau x G tau i)) := by
      intro i; ring
    simp only [this, ← mul_sum]
    ring
  simp only [e, ← sum_mul]
  congr 1
  rw [sum_add_distrib, sum_comm]
  have z : ∀ i, ∑ k, (x i * inv (xjG x G) i * (x k * G k i * tau k i)
        - x i * inv (xjG x G) i * inv (xjG x G) i * xjGtau x G tau i * (x k * G k i)) = 0 := by
    intro i
    rw [sum_sub_distrib, ← mul_sum, ← mul_sum]
    have h1 : ∑ k, x k * G k i * tau k i = xjGtau x G tau i := rfl
    have h2 : ∑ k, x k * G k i = xjG x G i := rfl
    have h3 : inv (xjG x G) i * xjG x G i = 1 := one_div_mul_cancel (hS i)
    rw [h1, h2]
    linear_combination -(x i * inv (xjG x G) i * xjGtau x G tau i) * h3
  simp only [z, sum_const_zero, add_zero]

/-- **C25.** The activity coefficients of the class, of the stand-alone `NRTL_gammas` and of the general
formula for any excess Gibbs energy (whose meaning is C23) are the same numbers, for any composition. -/
theorem C25_gammas {al : Mat N} (hR : R ≠ 0) (hT : T ≠ 0) (hG : G = Gs al tau)
    (hS : ∀ i, ∑ j, x j * G j i ≠ 0) (i : Fin N) :
    GibbsExcess.gammas R T (GE R T x (xjGtau x G tau) (inv (xjG x G))) x
      (dGE_dxs R T x tau G (xjGtau x G tau) (inv (xjG x G))) i = gammasFromArgs x G tau i ∧
    NRTLgammas x tau al i = gammasFromArgs x G tau i := by
  constructor
  · simp only [GibbsExcess.gammas]
    rw [sum_x_dGE hS, GE_eq, sub_self, add_zero]
    simp only [dGE_dxs, gammasFromArgs, gammas]
    congr 1
    have : ∀ j, inv (xjG x G) j * xjGtau x G tau j = xjGtau x G tau j * inv (xjG x G) j := fun j => mul_comm _ _
    simp only [this]
    field_simp
  · simp only [NRTLgammas, gammasFromArgs, gammas, inv, xjG, xjGtau]
    have hG' : ∀ i j, exp (-al i j * tau i j) = G i j := by intro i j; rw [hG]; rfl
    simp only [hG']
    congr 1
    rw [div_eq_mul_one_div]
    congr 1
    exact sum_congr rfl fun j _ => by ring

theorem gamma_pure (G tau : Mat N) (i : Fin N) (hd : tau i i = 0) (hG : G i i ≠ 0) :
    gammasFromArgs (fun j => if j = i then 1 else 0) G tau i = 1 := by
  simp [gammasFromArgs, gammas, inv, xjG, xjGtau, hd]

/-- **C25.** A pure component has activity coefficient one. -/
theorem C25_pure (al tau : Mat N) (i : Fin N) (hd : tau i i = 0) :
    gammasFromArgs (fun j => if j = i then 1 else 0) (Gs al tau) tau i = 1 :=
  gamma_pure _ _ _ hd (exp_pos _).ne'

theorem differentiable_inv (hS : ∀ i, ∑ j, x j * G j i ≠ 0) (i : Fin N) :
    DifferentiableAt ℝ (fun x => inv (xjG x G) i) x := by
  have h1 : DifferentiableAt ℝ (fun x : Fin N → ℝ => xjG x G i) x := by unfold xjG; fun_prop
  simp only [inv, one_div]
  exact DifferentiableAt.comp x (g := fun y : ℝ => y⁻¹) (differentiableAt_inv (hS i)) h1

theorem differentiable_spec (hS : ∀ i, ∑ j, x j * G j i ≠ 0) : DifferentiableAt ℝ (spec R T G tau) x := by
  have e : spec R T G tau = fun x => R * T * ∑ i, x i * ((∑ j, x j * (G j i * tau j i)) * inv (xjG x G) i) := by
    funext x
    simp only [spec, inv, xjG]
    congr 1
    exact sum_congr rfl fun i _ => by ring
  rw [e]
  have h := differentiable_inv hS
  fun_prop

theorem differentiable_dGE (hS : ∀ i, ∑ j, x j * G j i ≠ 0) (k : Fin N) :
    DifferentiableAt ℝ (fun x => dGE_dxs R T x tau G (xjGtau x G tau) (inv (xjG x G)) k) x := by
  have h := differentiable_inv hS
  unfold dGE_dxs xjGtau
  fun_prop

/-- **C25.** The activity coefficients are the mole-number derivatives of the extensive excess Gibbs
energy, for any amounts. -/
theorem C25_partial_molar {n : Fin N → ℝ} {al : Mat N} (hR : R ≠ 0) (hT : T ≠ 0) (hG : G = Gs al tau)
    (hn : ∑ i, n i ≠ 0) (hS : ∀ i, ∑ j, n j * G j i ≠ 0) (i : Fin N) :
    PD (extensive (spec R T G tau)) i n
      (R * T * log (gammasFromArgs (fun i => n i / ∑ i, n i) G tau i)) := by
  set xs : Fin N → ℝ := fun i => n i / ∑ i, n i with hxs
  have hS' : ∀ i, ∑ j, xs j * G j i ≠ 0 := by
    intro i
    have : ∑ k, xs k * G k i = (∑ k, n k * G k i) / ∑ i, n i := by
      rw [Finset.sum_div]
      exact sum_congr rfl fun k _ => by simp only [hxs]; ring
    rw [this]
    exact div_ne_zero (hS i) hn
  obtain ⟨d, hd, _, hg⟩ := C23_gammas (R := R) (T := T) (GE := spec R T G tau) hn
    (differentiable_spec hS') (fun j => C25_dGE_dxs hS' j) i
  refine hd.congr_d ?_
  have := (C25_gammas (R := R) (T := T) hR hT hG hS' i).1
  rw [GE_eq] at this
  rw [← this]
  simp only [← hxs] at hg
  rw [hg, log_exp]
  field_simp

/-- **C25.** For the NRTL model the mole-number derivatives of the activity coefficients
(`dgammas_dns`) are exact. -/
theorem C25_dgammas_dns (hR : R ≠ 0) (hT : T ≠ 0) (hx : ∑ i, x i = 1)
    (hS : ∀ i, ∑ j, x j * G j i ≠ 0) (i j : Fin N) :
    PD (fun n => GibbsExcess.gammas R T (spec R T G tau fun i => n i / ∑ i, n i) (fun i => n i / ∑ i, n i)
        (fun k => dGE_dxs R T (fun i => n i / ∑ i, n i) tau G (xjGtau (fun i => n i / ∑ i, n i) G tau)
          (inv (xjG (fun i => n i / ∑ i, n i) G)) k) i) j x
      (GibbsExcess.dgammas_dns R T x
        (GibbsExcess.gammas R T (spec R T G tau x) x
          (dGE_dxs R T x tau G (xjGtau x G tau) (inv (xjG x G))))
        (d2GE_dxixjs R T x tau G (xjGtau x G tau) (inv (xjG x G))) i j) := by
  refine C23_dgammas_dns_partial (GE := spec R T G tau)
    (g := fun k x => dGE_dxs R T x tau G (xjGtau x G tau) (inv (xjG x G)) k)
    (h := d2GE_dxixjs R T x tau G (xjGtau x G tau) (inv (xjG x G))) hR hT hx (differentiable_spec hS)
    (differentiable_dGE hS) (fun j => C25_dGE_dxs hS j) (fun i j => C25_d2GE_dxixjs hS i j) ?_ ?_ i j
  · intro i j
    simp only [d2GE_dxixjs]
    congr 1
    have h1 : ∑ k, 2 * x k * xjGtau x G tau k * G i k * G j k * (inv (xjG x G) k * inv (xjG x G) k * inv (xjG x G) k)
        = ∑ k, 2 * x k * xjGtau x G tau k * G j k * G i k * (inv (xjG x G) k * inv (xjG x G) k * inv (xjG x G) k) :=
      sum_congr rfl fun k _ => by ring
    have h2 : ∑ k, x k * G i k * G j k * (tau j k + tau i k) * inv (xjG x G) k * inv (xjG x G) k
        = ∑ k, x k * G j k * G i k * (tau i k + tau j k) * inv (xjG x G) k * inv (xjG x G) k :=
      sum_congr rfl fun k _ => by ring
    rw [h1, h2]
    ring
  · have hz : ∀ i, ∑ k, x k * d2GE_dxixjs R T x tau G (xjGtau x G tau) (inv (xjG x G)) i k = 0 := by
      intro i
      have h3 : ∀ i, inv (xjG x G) i * xjG x G i = 1 := fun i => one_div_mul_cancel (hS i)
      set I := inv (xjG x G) with hI
      set S2 := xjGtau x G tau with hS2
      simp only [d2GE_dxixjs]
      have e : ∀ k, x k * ((G i k * tau i k * I k + G k i * tau k i * I i - S2 k * G i k * (I k * I k)
            - S2 i * G k i * (I i * I i) + (∑ m, 2 * x m * S2 m * G i m * G k m * (I m * I m * I m))
            - ∑ m, x m * G i m * G k m * (tau k m + tau i m) * I m * I m) * (R * T))
          = (x k * (G i k * tau i k * I k - S2 k * G i k * (I k * I k))
            + (x k * G k i * tau k i) * I i - (x k * G k i) * (S2 i * (I i * I i))
            + (∑ m, 2 * x m * S2 m * G i m * (I m * I m * I m) * (x k * G k m))
            - ∑ m, (x m * G i m * I m * I m * (x k * G k m * tau k m)
              + x m * G i m * tau i m * I m * I m * (x k * G k m))) * (R * T) := by
        intro k
        have a1 : ∀ m, 2 * x m * S2 m * G i m * (I m * I m * I m) * (x k * G k m)
            = x k * (2 * x m * S2 m * G i m * G k m * (I m * I m * I m)) := by intro m; ring
        have a2 : ∀ m, x m * G i m * I m * I m * (x k * G k m * tau k m)
              + x m * G i m * tau i m * I m * I m * (x k * G k m)
            = x k * (x m * G i m * G k m * (tau k m + tau i m) * I m * I m) := by intro m; ring
        simp only [a1, a2, ← mul_sum]
        ring
      simp only [e, ← sum_mul]
      refine mul_eq_zero_of_left ?_ _
      simp only [sum_add_distrib, sum_sub_distrib, ← sum_mul]
      have s1 : ∀ i, ∑ k, x k * G k i = xjG x G i := fun _ => rfl
      have s2 : ∀ i, ∑ k, x k * G k i * tau k i = S2 i := fun _ => rfl
      rw [sum_comm (f := fun k m => 2 * x m * S2 m * G i m * (I m * I m * I m) * (x k * G k m)),
        sum_comm (f := fun k m => x m * G i m * I m * I m * (x k * G k m * tau k m)),
        sum_comm (f := fun k m => x m * G i m * tau i m * I m * I m * (x k * G k m))]
      simp only [← mul_sum, s1, s2]
      have b1 : ∀ m, 2 * x m * S2 m * G i m * (I m * I m * I m) * xjG x G m
          = 2 * x m * S2 m * G i m * (I m * I m) := by
        intro m; linear_combination (2 * x m * S2 m * G i m * (I m * I m)) * h3 m
      have b2 : ∀ m, x m * G i m * tau i m * I m * I m * xjG x G m = x m * G i m * tau i m * I m := by
        intro m; linear_combination (x m * G i m * tau i m * I m) * h3 m
      simp only [b1, b2]
      have c : (∑ k, x k * (G i k * tau i k * I k - S2 k * G i k * (I k * I k)))
          + (∑ m, 2 * x m * S2 m * G i m * (I m * I m))
          - ((∑ m, x m * G i m * I m * I m * S2 m) + ∑ m, x m * G i m * tau i m * I m) = 0 := by
        rw [← sum_add_distrib, ← sum_add_distrib, ← sum_sub_distrib]
        exact sum_eq_zero fun m _ => by ring
      linear_combination c - S2 i * I i * h3 i
    intro i j
    rw [hz, hz]

end Composition

/-! ## C25: temperature derivatives -/

section Temperature

variable {R : ℝ} {G G1 G2 t t1 t2 : ℝ → Mat N} {x : Fin N → ℝ}

/-- **C25.** The first and second temperature derivatives and the mixed derivative, for any parameters
given with their derivatives (which `C25_taus` and `C25_Gs` provide). -/
theorem C25_temperature
    (hG : ∀ T, 0 < T → ∀ i j, HasDerivAt (fun T => G T i j) (G1 T i j) T)
    (hG1 : ∀ T, 0 < T → ∀ i j, HasDerivAt (fun T => G1 T i j) (G2 T i j) T)
    (ht : ∀ T, 0 < T → ∀ i j, HasDerivAt (fun T => t T i j) (t1 T i j) T)
    (ht1 : ∀ T, 0 < T → ∀ i j, HasDerivAt (fun T => t1 T i j) (t2 T i j) T)
    (hS : ∀ T, 0 < T → ∀ i, xjG x (G T) i ≠ 0) {T : ℝ} (hT : 0 < T) :
    HasDerivAt (fun T => GE R T x (xjGtau x (G T) (t T)) (inv (xjG x (G T))))
      (dGE_dT R T x (xjGtau x (G T) (t T)) (inv (xjG x (G T))) (xjG x (G1 T)) (xjGtau x (G1 T) (t T))
        (xjGtau x (G T) (t1 T))) T ∧
    HasDerivAt (fun T => dGE_dT R T x (xjGtau x (G T) (t T)) (inv (xjG x (G T))) (xjG x (G1 T))
        (xjGtau x (G1 T) (t T)) (xjGtau x (G T) (t1 T)))
      (d2GE_dT2 R T x (t T) (t1 T) (t2 T) (G T) (G1 T) (G2 T)) T ∧
    ∀ k, HasDerivAt (fun T => dGE_dxs R T x (t T) (G T) (xjGtau x (G T) (t T)) (inv (xjG x (G T))) k)
      (d2GE_dTdxs R T x (t T) (t1 T) (G T) (G1 T) (xjGtau x (G T) (t T)) (inv (xjG x (G T))) (xjG x (G1 T))
        (xjGtau x (G1 T) (t T)) (xjGtau x (G T) (t1 T)) k) T := by
  have d1 : ∀ T, 0 < T → ∀ i, HasDerivAt (fun T => xjG x (G T) i) (xjG x (G1 T) i) T := fun T hT i =>
    HasDerivAt.fun_sum fun j _ => (hG T hT j i).const_mul (x j)
  have d3 : ∀ T, 0 < T → ∀ i, HasDerivAt (fun T => xjG x (G1 T) i) (xjG x (G2 T) i) T := fun T hT i =>
    HasDerivAt.fun_sum fun j _ => (hG1 T hT j i).const_mul (x j)
  have dGt : ∀ T, 0 < T → ∀ i, HasDerivAt (fun T => xjGtau x (G T) (t T) i)
      (xjGtau x (G1 T) (t T) i + xjGtau x (G T) (t1 T) i) T := by
    intro T hT i
    have h := HasDerivAt.fun_sum (u := univ) fun j _ => ((hG T hT j i).const_mul (x j)).mul (ht T hT j i)
    refine HasDerivAt.congr_deriv h ?_
    simp only [xjGtau, ← sum_add_distrib]
  have dG1t : ∀ T, 0 < T → ∀ i, HasDerivAt (fun T => xjGtau x (G1 T) (t T) i)
      (xjGtau x (G2 T) (t T) i + xjGtau x (G1 T) (t1 T) i) T := by
    intro T hT i
    have h := HasDerivAt.fun_sum (u := univ) fun j _ => ((hG1 T hT j i).const_mul (x j)).mul (ht T hT j i)
    refine HasDerivAt.congr_deriv h ?_
    simp only [xjGtau, ← sum_add_distrib]
  have dGt1 : ∀ T, 0 < T → ∀ i, HasDerivAt (fun T => xjGtau x (G T) (t1 T) i)
      (xjGtau x (G1 T) (t1 T) i + xjGtau x (G T) (t2 T) i) T := by
    intro T hT i
    have h := HasDerivAt.fun_sum (u := univ) fun j _ => ((hG T hT j i).const_mul (x j)).mul (ht1 T hT j i)
    refine HasDerivAt.congr_deriv h ?_
    simp only [xjGtau, ← sum_add_distrib]
  have dI : ∀ T, 0 < T → ∀ i, HasDerivAt (fun T => inv (xjG x (G T)) i)
      (-xjG x (G1 T) i * (inv (xjG x (G T)) i * inv (xjG x (G T)) i)) T := by
    intro T hT i
    have h := HasDerivAt.fun_inv (d1 T hT i) (hS T hT i)
    have e : (fun T => inv (xjG x (G T)) i) = fun T => (xjG x (G T) i)⁻¹ := by
      funext T; simp only [inv, one_div]
    rw [e]
    refine HasDerivAt.congr_deriv h ?_
    simp only [inv]
    field_simp
  refine ⟨?_, ?_, ?_⟩
  · have h := (HasDerivAt.fun_sum (u := univ) fun i _ =>
      (((dGt T hT i).const_mul (x i)).mul (dI T hT i))).mul ((hasDerivAt_id T).mul_const R)
    refine HasDerivAt.congr_deriv h ?_
    simp only [dGE_dT, id, Pi.mul_apply, one_mul]
    simp only [sum_mul, ← sum_add_distrib]
    exact sum_congr rfl fun i _ => by ring
  · have h := (HasDerivAt.fun_sum (u := univ) fun i _ =>
      (((dGt T hT i).add ((hasDerivAt_id T).mul (((dG1t T hT i).add (dGt1 T hT i)).sub
        (((dGt T hT i).mul (d3 T hT i)).mul (dI T hT i))))).const_mul (x i)).mul (dI T hT i)).mul_const R
    refine HasDerivAt.congr_deriv h ?_
    simp only [d2GE_dT2, id, Pi.mul_apply, Pi.add_apply, Pi.sub_apply, one_mul]
    rw [mul_comm]
    congr 1
    refine sum_congr rfl fun i _ => ?_
    have e1 : ∑ j, G T j i * x j = xjG x (G T) i := sum_congr rfl fun j _ => mul_comm _ _
    have e2 : ∑ j, t T j i * (G T j i * x j) = xjGtau x (G T) (t T) i := sum_congr rfl fun j _ => by ring
    have e3 : ∑ j, G1 T j i * x j = xjG x (G1 T) i := sum_congr rfl fun j _ => mul_comm _ _
    have e4 : ∑ j, t T j i * (G1 T j i * x j) = xjGtau x (G1 T) (t T) i := sum_congr rfl fun j _ => by ring
    have e5 : ∑ j, t1 T j i * (G T j i * x j) = xjGtau x (G T) (t1 T) i := sum_congr rfl fun j _ => by ring
    have e6 : ∑ j, x j * G2 T j i = xjG x (G2 T) i := rfl
    have e7 : ∑ j, t T j i * (x j * G2 T j i) = xjGtau x (G2 T) (t T) i := sum_congr rfl fun j _ => by ring
    have e8 : ∑ j, G T j i * x j * t2 T j i = xjGtau x (G T) (t2 T) i := sum_congr rfl fun j _ => by ring
    have e9 : ∑ j, G1 T j i * x j * t1 T j i = xjGtau x (G1 T) (t1 T) i := sum_congr rfl fun j _ => by ring
    rw [e1, e2, e3, e4, e5, e6, e7, e8, e9]
    have := hS T hT i
    simp only [inv]
    field_simp
    ring
  · intro k
    have h := (((dGt T hT k).mul (dI T hT k)).add (HasDerivAt.fun_sum (u := univ) fun i _ =>
      ((((dI T hT i).const_mul (x i)).mul (hG T hT k i)).mul
        ((ht T hT k i).sub ((dI T hT i).mul (dGt T hT i)))))).mul ((hasDerivAt_id T).const_mul R)
    refine HasDerivAt.congr_deriv h ?_
    simp only [d2GE_dTdxs, id, Pi.mul_apply, Pi.add_apply, Pi.sub_apply]
    set I := inv (xjG x (G T))
    set S2 := xjGtau x (G T) (t T)
    set S3 := xjG x (G1 T)
    set S4 := xjGtau x (G1 T) (t T)
    set S5 := xjGtau x (G T) (t1 T)
    have e : ∀ j, (I j * S2 j * G1 T k j + I j * G T k j * (S3 j * (t T k j - I j * S2 j - I j * S2 j) + S5 j + S4 j)
          - (G T k j * t1 T k j + t T k j * G1 T k j)) * (x j * I j)
        = -((x j * (-S3 j * (I j * I j)) * G T k j + x j * I j * G1 T k j) * (t T k j - I j * S2 j)
          + x j * I j * G T k j * (t1 T k j - (-S3 j * (I j * I j) * S2 j + I j * (S4 j + S5 j)))) := by
      intro j; ring
    simp only [e, sum_neg_distrib]
    ring

end Temperature

/-- **C25.** The whole chain for the class: for any coefficients, with the exponential factors and their
derivatives computed by the code, the temperature derivatives are those of the excess Gibbs energy. -/
theorem C25_class (R : ℝ) (A B E F G H c d : Mat N) (x : Fin N → ℝ) (hx : ∀ i, 0 ≤ x i)
    (hx1 : ∑ i, x i = 1) {T : ℝ} (hT : 0 < T) :
    let tau := fun T => taus T A B E F G H
    let t1 := fun T => dtaus_dT T B E F G H
    let t2 := fun T => d2taus_dT2 T B E G H
    let al := fun T => alphas T c d
    let g := fun T => Gs (al T) (tau T)
    let g1 := fun T => dGs_dT (al T) d (tau T) (t1 T) (g T)
    let g2 := fun T => d2Gs_dT2 (al T) d (tau T) (t1 T) (t2 T) (g T)
    HasDerivAt (fun T => spec R T (g T) (tau T) x)
      (dGE_dT R T x (xjGtau x (g T) (tau T)) (inv (xjG x (g T))) (xjG x (g1 T)) (xjGtau x (g1 T) (tau T))
        (xjGtau x (g T) (t1 T))) T ∧
    HasDerivAt (fun T => dGE_dT R T x (xjGtau x (g T) (tau T)) (inv (xjG x (g T))) (xjG x (g1 T))
        (xjGtau x (g1 T) (tau T)) (xjGtau x (g T) (t1 T)))
      (d2GE_dT2 R T x (tau T) (t1 T) (t2 T) (g T) (g1 T) (g2 T)) T ∧
    ∀ k, HasDerivAt (fun T => dGE_dxs R T x (tau T) (g T) (xjGtau x (g T) (tau T)) (inv (xjG x (g T))) k)
      (d2GE_dTdxs R T x (tau T) (t1 T) (g T) (g1 T) (xjGtau x (g T) (tau T)) (inv (xjG x (g T)))
        (xjG x (g1 T)) (xjGtau x (g1 T) (tau T)) (xjGtau x (g T) (t1 T)) k) T := by
  intro tau t1 t2 al g g1 g2
  have hpos : ∀ T, 0 < T → ∀ i, xjG x (g T) i ≠ 0 := by
    intro T _ i
    have hne : ∃ j, x j ≠ 0 := by
      by_contra hcon
      push_neg at hcon
      simp [hcon] at hx1
    obtain ⟨j, hj⟩ := hne
    have : 0 < xjG x (g T) i :=
      sum_pos' (fun k _ => mul_nonneg (hx k) (exp_pos _).le)
        ⟨j, mem_univ j, mul_pos (lt_of_le_of_ne (hx j) (Ne.symm hj)) (exp_pos _)⟩
    exact this.ne'
  have hGs := fun (T : ℝ) (hT : 0 < T) (i j : Fin N) =>
    C25_Gs (a := c) (a1 := d) (al := al) (t := tau) (t1 := t1) (t2 := t2)
      (t3 := fun T => d3taus_dT3 T B E G) (T := T) i j (fun _ => rfl)
      (C25_taus A B E F G H hT.ne' i j).1 (C25_taus A B E F G H hT.ne' i j).2.1
      (C25_taus A B E F G H hT.ne' i j).2.2
  have h := C25_temperature (R := R) (x := x) (G := g) (G1 := g1) (G2 := g2) (t := tau) (t1 := t1) (t2 := t2)
    (fun T hT i j => (hGs T hT i j).1) (fun T hT i j => (hGs T hT i j).2.1)
    (fun T hT i j => (C25_taus A B E F G H hT.ne' i j).1)
    (fun T hT i j => (C25_taus A B E F G H hT.ne' i j).2.1) hpos hT
  refine ⟨?_, h.2.1, h.2.2⟩
  have e : (fun T => spec R T (g T) (tau T) x)
      = fun T => GE R T x (xjGtau x (g T) (tau T)) (inv (xjG x (g T))) := by
    funext T; exact (GE_eq R T (g T) (tau T) x).symm
  rw [e]
  exact h.1

example : ∃ x : Fin 2 → ℝ, (∀ i, 0 ≤ x i) ∧ ∑ i, x i = 1 ∧ x 0 ≠ 0 ∧ x 1 ≠ 0 :=
  ⟨![1 / 4, 3 / 4], fun i => by fin_cases i <;> simp <;> norm_num, by simp [Fin.sum_univ_two]; norm_num, by simp, by simp⟩

example : let x : Fin 2 → ℝ := ![1 / 4, 3 / 4]
    ∀ i, ∑ j, x j * Gs (fun _ _ => 1 / 2) (fun _ _ => 1) j i ≠ 0 := by
  intro x i
  have : 0 < exp (-(1 / 2) * 1 : ℝ) := exp_pos _
  simp only [x, Gs, Fin.sum_univ_two, Matrix.cons_val_zero, Matrix.cons_val_one]
  positivity

/-! ## C25: the two-component regression functions -/

theorem clampTau_max (t : ℝ) : clampTau t = max t (-10 ^ 100) := by
  unfold clampTau
  split_ifs with h
  · exact (max_eq_right h.le).symm
  · exact (max_eq_left (not_lt.1 h)).symm

theorem clampAlpha_max (a : ℝ) : clampAlpha a = max a (1 / 10 ^ 10) := by
  unfold clampAlpha
  split_ifs with h
  · exact (max_eq_right h.le).symm
  · exact (max_eq_left (not_lt.1 h)).symm

/-- **C25.** Beyond the clamps `NRTL_gammas_binaries` and its derivatives are those of the parameters raised to their least values. -/
theorem C25_binary_clamped (x0 t01 t10 a01 a10 : ℝ) :
    binary x0 t01 t10 a01 a10
        = binary x0 (max t01 (-10 ^ 100)) (max t10 (-10 ^ 100)) (max a01 (1 / 10 ^ 10)) (max a10 (1 / 10 ^ 10))
      ∧ binaryJac x0 t01 t10 a01 a10
        = binaryJac x0 (max t01 (-10 ^ 100)) (max t10 (-10 ^ 100)) (max a01 (1 / 10 ^ 10)) (max a10 (1 / 10 ^ 10)) := by
  unfold binary binaryJac
  simp only [clampTau_max, clampAlpha_max, max_assoc, max_self, and_self]

example : clampAlpha (-1) = 1 / 10 ^ 10 := by rw [clampAlpha_max]; norm_num

/-- **C25.** Within the clamps `NRTL_gammas_binaries` gives the activity coefficients of the two-component
model, whatever the diagonal `alpha` entries. -/
theorem C25_binary {x0 t01 t10 a01 a10 a00 a11 : ℝ} (h1 : -10 ^ 100 ≤ t01) (h2 : -10 ^ 100 ≤ t10)
    (h3 : 1 / 10 ^ 10 ≤ a01) (h4 : 1 / 10 ^ 10 ≤ a10) (hx : 0 ≤ x0) (hx' : x0 ≤ 1) :
    let tau : Mat 2 := ![![0, t01], ![t10, 0]]
    let al : Mat 2 := ![![a00, a01], ![a10, a11]]
    binary x0 t01 t10 a01 a10 = (gammasFromArgs ![x0, 1 - x0] (Gs al tau) tau 0,
      gammasFromArgs ![x0, 1 - x0] (Gs al tau) tau 1) := by
  intro tau al
  simp only [binary, clampTau, clampAlpha, if_neg (not_lt.2 h1), if_neg (not_lt.2 h2), if_neg (not_lt.2 h3),
    if_neg (not_lt.2 h4), gammasFromArgs, gammas, inv, xjG, xjGtau, Fin.sum_univ_two]
  have e00 : Gs al tau 0 0 = 1 := by simp [Gs, al, tau]
  have e11 : Gs al tau 1 1 = 1 := by simp [Gs, al, tau]
  have e01 : Gs al tau 0 1 = exp (-a01 * t01) := by simp [Gs, al, tau]
  have e10 : Gs al tau 1 0 = exp (-a10 * t10) := by simp [Gs, al, tau]
  rw [e00, e11, e01, e10]
  have t00 : tau 0 0 = 0 := by simp [tau]
  have t11 : tau 1 1 = 0 := by simp [tau]
  have t01' : tau 0 1 = t01 := by simp [tau]
  have t10' : tau 1 0 = t10 := by simp [tau]
  rw [t00, t11, t01', t10']
  simp only [Matrix.cons_val_zero, Matrix.cons_val_one]
  have p01 := exp_pos (-a01 * t01)
  have p10 := exp_pos (-a10 * t10)
  generalize exp (-a01 * t01) = G01 at *
  generalize exp (-a10 * t10) = G10 at *
  have hA : x0 + (1 - x0) * G10 ≠ 0 := by
    rcases hx.eq_or_lt with h | h
    · rw [← h]; simpa using p10.ne'
    · have := mul_nonneg (sub_nonneg.2 hx') p10.le
      exact (by linarith : (0 : ℝ) < x0 + (1 - x0) * G10).ne'
  have hB : (1 - x0) + x0 * G01 ≠ 0 := by
    rcases hx.eq_or_lt with h | h
    · rw [← h]; norm_num
    · have := mul_pos h p01
      exact (by linarith : (0 : ℝ) < 1 - x0 + x0 * G01).ne'
  have a1 : x0 * 1 + (1 - x0) * G10 = x0 + (1 - x0) * G10 := by ring
  have a2 : x0 * G01 + (1 - x0) * 1 = 1 - x0 + x0 * G01 := by ring
  rw [a1, a2]
  obtain ⟨P, hP⟩ : ∃ P, P = x0 + (1 - x0) * G10 := ⟨_, rfl⟩
  obtain ⟨Q, hQ⟩ : ∃ Q, Q = 1 - x0 + x0 * G01 := ⟨_, rfl⟩
  rw [← hP] at hA ⊢
  rw [← hQ] at hB ⊢
  refine Prod.ext ?_ ?_
  · simp only
    congr 1
    field_simp
    rw [hP, hQ]
    ring
  · simp only
    congr 1
    field_simp
    rw [hP, hQ]
    ring

/-- Derivative of `t E/(x0 + x1 E)²`. -/
theorem deriv_quot {t E : ℝ → ℝ} {t' E' p x0 x1 : ℝ} (ht : HasDerivAt t t' p) (hE : HasDerivAt E E' p)
    (hD : x0 + x1 * E p ≠ 0) :
    HasDerivAt (fun p => t p * E p / (x0 + x1 * E p) ^ 2)
      ((t' * E p + t p * E') / (x0 + x1 * E p) ^ 2 - 2 * t p * E p * x1 * E' / (x0 + x1 * E p) ^ 3) p ∧
    HasDerivAt (fun p => t p / (x0 + x1 * E p) ^ 2)
      (t' / (x0 + x1 * E p) ^ 2 - 2 * t p * x1 * E' / (x0 + x1 * E p) ^ 3) p := by
  have hd := ((hE.const_mul x1).const_add x0).fun_pow 2
  constructor
  · refine HasDerivAt.congr_deriv ((ht.mul hE).fun_div hd (pow_ne_zero 2 hD)) ?_
    simp only [Pi.mul_apply, Nat.cast_ofNat]
    generalize x0 + x1 * E p = D at *
    field_simp
    ring
  · refine HasDerivAt.congr_deriv (ht.fun_div hd (pow_ne_zero 2 hD)) ?_
    simp only [Nat.cast_ofNat]
    generalize x0 + x1 * E p = D at *
    field_simp
    ring

/-- The two activity coefficients with the growing exponentials `E = exp (alpha tau)`. -/
theorem binary_eq {x0 t01 t10 a01 a10 : ℝ} (h1 : clampTau t01 = t01) (h2 : clampTau t10 = t10)
    (h3 : clampAlpha a01 = a01) (h4 : clampAlpha a10 = a10) (hx : 0 ≤ x0) (hx' : x0 ≤ 1) :
    binary x0 t01 t10 a01 a10 =
      (exp ((1 - x0) ^ 2 * (t10 / ((1 - x0) + x0 * exp (a10 * t10)) ^ 2
        + t01 * exp (a01 * t01) / (x0 + (1 - x0) * exp (a01 * t01)) ^ 2)),
       exp (x0 ^ 2 * (t01 / (x0 + (1 - x0) * exp (a01 * t01)) ^ 2
        + t10 * exp (a10 * t10) / ((1 - x0) + x0 * exp (a10 * t10)) ^ 2))) := by
  simp only [binary, h1, h2, h3, h4]
  have n1 : exp (-a01 * t01) = (exp (a01 * t01))⁻¹ := by rw [neg_mul, exp_neg]
  have n2 : exp (-a10 * t10) = (exp (a10 * t10))⁻¹ := by rw [neg_mul, exp_neg]
  rw [n1, n2]
  have p01 := exp_pos (a01 * t01)
  have p10 := exp_pos (a10 * t10)
  generalize exp (a01 * t01) = E01 at *
  generalize exp (a10 * t10) = E10 at *
  have hA : 1 - x0 + x0 * E10 ≠ 0 := by
    rcases hx.eq_or_lt with h | h
    · rw [← h]; norm_num
    · have := mul_pos h p10
      exact (by linarith : (0 : ℝ) < 1 - x0 + x0 * E10).ne'
  have hB : x0 + (1 - x0) * E01 ≠ 0 := by
    rcases hx.eq_or_lt with h | h
    · rw [← h]; simpa using p01.ne'
    · have := mul_nonneg (sub_nonneg.2 hx') p01.le
      exact (by linarith : (0 : ℝ) < x0 + (1 - x0) * E01).ne'
  have q1 : x0 + (1 - x0) * E10⁻¹ = (1 - x0 + x0 * E10) * E10⁻¹ := by field_simp; ring
  have q2 : 1 - x0 + x0 * E01⁻¹ = (x0 + (1 - x0) * E01) * E01⁻¹ := by field_simp; ring
  rw [q1, q2]
  generalize 1 - x0 + x0 * E10 = P at *
  generalize x0 + (1 - x0) * E01 = Q at *
  refine Prod.ext ?_ ?_
  · simp only
    congr 1
    field_simp
  · simp only
    congr 1
    field_simp

/-- **C25.** Within the clamps `NRTL_gammas_binaries_jac` holds the derivatives of
`NRTL_gammas_binaries` with respect to its four parameters. -/
theorem C25_binary_jac {x0 t01 t10 a01 a10 : ℝ} (h1 : -10 ^ 100 < t01) (h2 : -10 ^ 100 < t10)
    (h3 : 1 / 10 ^ 10 < a01) (h4 : 1 / 10 ^ 10 < a10) (hx : 0 ≤ x0) (hx' : x0 ≤ 1) :
    let J := binaryJac x0 t01 t10 a01 a10
    (HasDerivAt (fun p => (binary x0 p t10 a01 a10).1) (J.1 0) t01 ∧
     HasDerivAt (fun p => (binary x0 t01 p a01 a10).1) (J.1 1) t10 ∧
     HasDerivAt (fun p => (binary x0 t01 t10 p a10).1) (J.1 2) a01 ∧
     HasDerivAt (fun p => (binary x0 t01 t10 a01 p).1) (J.1 3) a10) ∧
    (HasDerivAt (fun p => (binary x0 p t10 a01 a10).2) (J.2 0) t01 ∧
     HasDerivAt (fun p => (binary x0 t01 p a01 a10).2) (J.2 1) t10 ∧
     HasDerivAt (fun p => (binary x0 t01 t10 p a10).2) (J.2 2) a01 ∧
     HasDerivAt (fun p => (binary x0 t01 t10 a01 p).2) (J.2 3) a10) := by
  intro J
  have nt : ∀ {t : ℝ}, -10 ^ 100 < t → ∀ᶠ p in nhds t, clampTau p = p := by
    intro t ht
    filter_upwards [isOpen_lt continuous_const continuous_id |>.mem_nhds ht] with p hp
    exact if_neg (not_lt.2 (le_of_lt hp))
  have na : ∀ {t : ℝ}, 1 / 10 ^ 10 < t → ∀ᶠ p in nhds t, clampAlpha p = p := by
    intro t ht
    filter_upwards [isOpen_lt continuous_const continuous_id |>.mem_nhds ht] with p hp
    exact if_neg (not_lt.2 (le_of_lt hp))
  have c1 := (nt h1).self_of_nhds
  have c2 := (nt h2).self_of_nhds
  have c3 := (na h3).self_of_nhds
  have c4 := (na h4).self_of_nhds
  have p01 := exp_pos (a01 * t01)
  have p10 := exp_pos (a10 * t10)
  have hA : 1 - x0 + x0 * exp (a10 * t10) ≠ 0 := by
    rcases hx.eq_or_lt with h | h
    · rw [← h]; norm_num
    · have := mul_pos h p10
      exact (by linarith : (0 : ℝ) < 1 - x0 + x0 * exp (a10 * t10)).ne'
  have hB : x0 + (1 - x0) * exp (a01 * t01) ≠ 0 := by
    rcases hx.eq_or_lt with h | h
    · rw [← h]; simpa using p01.ne'
    · have := mul_nonneg (sub_nonneg.2 hx') p01.le
      exact (by linarith : (0 : ℝ) < x0 + (1 - x0) * exp (a01 * t01)).ne'
  have E1 : HasDerivAt (fun p => exp (a01 * p)) (a01 * exp (a01 * t01)) t01 :=
    HasDerivAt.congr_deriv (((hasDerivAt_id t01).const_mul a01).exp) (by simp only [id]; ring)
  have E2 : HasDerivAt (fun p => exp (a10 * p)) (a10 * exp (a10 * t10)) t10 :=
    HasDerivAt.congr_deriv (((hasDerivAt_id t10).const_mul a10).exp) (by simp only [id]; ring)
  have E3 : HasDerivAt (fun p => exp (p * t01)) (t01 * exp (a01 * t01)) a01 :=
    HasDerivAt.congr_deriv (((hasDerivAt_id a01).mul_const t01).exp) (by simp only [id]; ring)
  have E4 : HasDerivAt (fun p => exp (p * t10)) (t10 * exp (a10 * t10)) a10 :=
    HasDerivAt.congr_deriv (((hasDerivAt_id a10).mul_const t10).exp) (by simp only [id]; ring)
  have D1 := deriv_quot (x0 := x0) (x1 := 1 - x0) (hasDerivAt_id t01) E1 hB
  have D2 := deriv_quot (x0 := 1 - x0) (x1 := x0) (hasDerivAt_id t10) E2 hA
  have D3 := deriv_quot (x0 := x0) (x1 := 1 - x0) (hasDerivAt_const a01 t01) E3 hB
  have D4 := deriv_quot (x0 := 1 - x0) (x1 := x0) (hasDerivAt_const a10 t10) E4 hA
  have key : ∀ {f : ℝ → ℝ} {g : ℝ → ℝ} {d e p : ℝ}, HasDerivAt f d p → (∀ᶠ q in nhds p, g q = f q) → d = e →
      HasDerivAt g e p := fun hf hg he => he ▸ hf.congr_of_eventuallyEq hg
  have w1 : exp ((1 - x0) * (1 - x0) * (t10 * (1 / (1 - x0 + x0 * exp (a10 * t10)) * (1 / (1 - x0 + x0 * exp (a10 * t10)))) + t01 * (1 / (x0 + (1 - x0) * exp (a01 * t01)) * (1 / (x0 + (1 - x0) * exp (a01 * t01)))) * exp (a01 * t01)))
      = exp ((1 - x0) ^ 2 * (t10 / (1 - x0 + x0 * exp (a10 * t10)) ^ 2 + t01 * exp (a01 * t01) / (x0 + (1 - x0) * exp (a01 * t01)) ^ 2)) := by
    congr 1
    generalize (1 - x0 + x0 * exp (a10 * t10)) = P at *
    generalize (x0 + (1 - x0) * exp (a01 * t01)) = Q at *
    field_simp
  have w2 : exp (x0 * x0 * (exp (a10 * t10) * (t10 * (1 / (1 - x0 + x0 * exp (a10 * t10)) * (1 / (1 - x0 + x0 * exp (a10 * t10))))) + t01 * (1 / (x0 + (1 - x0) * exp (a01 * t01)) * (1 / (x0 + (1 - x0) * exp (a01 * t01))))))
      = exp (x0 ^ 2 * (t01 / (x0 + (1 - x0) * exp (a01 * t01)) ^ 2 + t10 * exp (a10 * t10) / (1 - x0 + x0 * exp (a10 * t10)) ^ 2)) := by
    congr 1
    generalize (1 - x0 + x0 * exp (a10 * t10)) = P at *
    generalize (x0 + (1 - x0) * exp (a01 * t01)) = Q at *
    field_simp
    ring
  refine ⟨⟨?_, ?_, ?_, ?_⟩, ?_, ?_, ?_, ?_⟩
  · refine key ((D1.1.const_add (t10 / (1 - x0 + x0 * exp (a10 * t10)) ^ 2)).const_mul ((1 - x0) ^ 2)).exp ?_ ?_
    · filter_upwards [nt h1] with q hq
      rw [binary_eq hq c2 c3 c4 hx hx']
      rfl
    · simp only [J, binaryJac, c1, c2, c3, c4, Matrix.cons_val, id]
      rw [w1]
      generalize exp ((1 - x0) ^ 2 * _) = W
      generalize 1 - x0 + x0 * exp (a10 * t10) = P at *
      generalize x0 + (1 - x0) * exp (a01 * t01) = Q at *
      field_simp
      ring
  · refine key ((D2.2.add_const (t01 * exp (a01 * t01) / (x0 + (1 - x0) * exp (a01 * t01)) ^ 2)).const_mul ((1 - x0) ^ 2)).exp ?_ ?_
    · filter_upwards [nt h2] with q hq
      rw [binary_eq c1 hq c3 c4 hx hx']
      rfl
    · simp only [J, binaryJac, c1, c2, c3, c4, Matrix.cons_val, id]
      rw [w1]
      generalize exp ((1 - x0) ^ 2 * _) = W
      generalize 1 - x0 + x0 * exp (a10 * t10) = P at *
      generalize x0 + (1 - x0) * exp (a01 * t01) = Q at *
      field_simp
      ring
  · refine key ((D3.1.const_add (t10 / (1 - x0 + x0 * exp (a10 * t10)) ^ 2)).const_mul ((1 - x0) ^ 2)).exp ?_ ?_
    · filter_upwards [na h3] with q hq
      rw [binary_eq c1 c2 hq c4 hx hx']
    · simp only [J, binaryJac, c1, c2, c3, c4, Matrix.cons_val, id]
      rw [w1]
      generalize exp ((1 - x0) ^ 2 * _) = W
      generalize 1 - x0 + x0 * exp (a10 * t10) = P at *
      generalize x0 + (1 - x0) * exp (a01 * t01) = Q at *
      field_simp
      ring
  · refine key ((D4.2.add_const (t01 * exp (a01 * t01) / (x0 + (1 - x0) * exp (a01 * t01)) ^ 2)).const_mul ((1 - x0) ^ 2)).exp ?_ ?_
    · filter_upwards [na h4] with q hq
      rw [binary_eq c1 c2 c3 hq hx hx']
    · simp only [J, binaryJac, c1, c2, c3, c4, Matrix.cons_val, id]
      rw [w1]
      generalize exp ((1 - x0) ^ 2 * _) = W
      generalize 1 - x0 + x0 * exp (a10 * t10) = P at *
      generalize x0 + (1 - x0) * exp (a01 * t01) = Q at *
      field_simp
      ring
  · refine key ((D1.2.add_const (t10 * exp (a10 * t10) / (1 - x0 + x0 * exp (a10 * t10)) ^ 2)).const_mul (x0 ^ 2)).exp ?_ ?_
    · filter_upwards [nt h1] with q hq
      rw [binary_eq hq c2 c3 c4 hx hx']
      rfl
    · simp only [J, binaryJac, c1, c2, c3, c4, Matrix.cons_val, id]
      rw [w2]
      generalize exp (x0 ^ 2 * _) = W
      generalize 1 - x0 + x0 * exp (a10 * t10) = P at *
      generalize x0 + (1 - x0) * exp (a01 * t01) = Q at *
      field_simp
      ring
  · refine key ((D2.1.const_add (t01 / (x0 + (1 - x0) * exp (a01 * t01)) ^ 2)).const_mul (x0 ^ 2)).exp ?_ ?_
    · filter_upwards [nt h2] with q hq
      rw [binary_eq c1 hq c3 c4 hx hx']
      rfl
    · simp only [J, binaryJac, c1, c2, c3, c4, Matrix.cons_val, id]
      rw [w2]
      generalize exp (x0 ^ 2 * _) = W
      generalize 1 - x0 + x0 * exp (a10 * t10) = P at *
      generalize x0 + (1 - x0) * exp (a01 * t01) = Q at *
      field_simp
      ring
  · refine key ((D3.2.add_const (t10 * exp (a10 * t10) / (1 - x0 + x0 * exp (a10 * t10)) ^ 2)).const_mul (x0 ^ 2)).exp ?_ ?_
    · filter_upwards [na h3] with q hq
      rw [binary_eq c1 c2 hq c4 hx hx']
    · simp only [J, binaryJac, c1, c2, c3, c4, Matrix.cons_val, id]
      rw [w2]
      generalize exp (x0 ^ 2 * _) = W
      generalize 1 - x0 + x0 * exp (a10 * t10) = P at *
      generalize x0 + (1 - x0) * exp (a01 * t01) = Q at *
      field_simp
      ring
  · refine key ((D4.1.const_add (t01 / (x0 + (1 - x0) * exp (a01 * t01)) ^ 2)).const_mul (x0 ^ 2)).exp ?_ ?_
    · filter_upwards [na h4] with q hq
      rw [binary_eq c1 c2 c3 hq hx hx']
    · simp only [J, binaryJac, c1, c2, c3, c4, Matrix.cons_val, id]
      rw [w2]
      generalize exp (x0 ^ 2 * _) = W
      generalize 1 - x0 + x0 * exp (a10 * t10) = P at *
      generalize x0 + (1 - x0) * exp (a01 * t01) = Q at *
      field_simp
      ring

example : (-10 ^ 100 : ℝ) < 1 ∧ (1 / 10 ^ 10 : ℝ) < 3 / 10 := by norm_num

end Verif.NRTL
