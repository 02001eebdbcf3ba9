import Verif.Activity.GibbsExcess
import Mathlib.Algebra.BigOperators.Field

/-!
# The UNIQUAC model (`thermo/uniquac.py` 62-446, 1822-2008)

C26: composition and temperature derivatives of the excess Gibbs energy, activity coefficients.

Loops that add up terms are finite sums; `trunc_exp` is the exponential (its overflow guard is not
modelled). The code divides by every mole fraction (`phis[i]/xs[i]`), so it raises when one is zero; the
theorems are about positive mole fractions.
-/

namespace Verif.Uniquac

open Real Finset GibbsExcess

variable {N : ℕ}

/-- A matrix of parameters. -/
abbrev Mat (N : ℕ) := Fin N → Fin N → ℝ

/-! ## Model -/

/-- `rsxs_sum_inv` of `uniquac_phis` (67-71). -/
noncomputable def sumInv (rs xs : Fin N → ℝ) : ℝ := 1 / ∑ i, rs i * xs i

/-- `phis` of `uniquac_phis` (62-73); with `qs` for `rs` the surface fractions `thetas`. -/
noncomputable def phis (rs xs : Fin N → ℝ) (i : Fin N) : ℝ := rs i * xs i * sumInv rs xs

/-- `uniquac_dphis_dxs` (75-92); entry `[i][j]`. -/
def dphis (rs phis : Fin N → ℝ) (s : ℝ) (i j : Fin N) : ℝ :=
  phis i * (-s) * rs j + if i = j then rs j * s else 0

/-- `uniquac_d2phis_dxixjs` (116-153); entry `[k][j][i]`. -/
def d2phis (xs rs : Fin N → ℝ) (s : ℝ) (k j i : Fin N) : ℝ :=
  let s2 := s * s
  let s3 := s2 * s
  let vec0 := fun i => s2 * (rs i * xs i * (s + s) - 1)
  let vec1 := fun i => rs i * xs i * (s3 + s3)
  let rskrsj := rs k * rs j
  let e := if j ≠ k ∧ i = j then rskrsj * vec0 j else if j ≠ k ∧ i = k then rskrsj * vec0 k
    else rskrsj * vec1 i
  if j = k ∧ i = k then e - rs k * rs k * (s2 + s2) else e

/-- `uniquac_thetaj_taus_jis` (94-103). With `dtaus_dT` etc. for `taus` the derived sums (1253-1323). -/
def thetaTaus (taus : Mat N) (thetas : Fin N → ℝ) (i : Fin N) : ℝ := ∑ j, thetas j * taus j i

/-- `uniquac_GE` (155-165). -/
noncomputable def GE (R T z : ℝ) (xs qs phis thetas S : Fin N → ℝ) : ℝ :=
  (∑ i, (xs i * log (phis i / xs i) + 1 / 2 * z * qs i * xs i * log (thetas i / phis i)
    - qs i * xs i * log (S i))) * (R * T)

/-- `uniquac_dGE_dT` (167-173). -/
noncomputable def dGE_dT (R T GE : ℝ) (xs qs S S1 : Fin N → ℝ) : ℝ :=
  GE / T + R * T * (∑ i, -(qs i * xs i * S1 i / S i))

/-- `uniquac_d2GE_dT2` (176-183). -/
noncomputable def d2GE_dT2 (R T GE dGE_dT : ℝ) (xs qs S S1 S2 : Fin N → ℝ) : ℝ :=
  let tot := ∑ i, (qs i * xs i * S2 i / S i - qs i * xs i * S1 i ^ 2 / S i ^ 2)
  (T * tot - 2 / (R * T) * (dGE_dT - GE / T)) * -R

/-- `uniquac_d3GE_dT3` (185-199). -/
noncomputable def d3GE_dT3 (R T : ℝ) (xs qs S S1 S2 S3 : Fin N → ℝ) : ℝ :=
  let Ttot := ∑ i, (qs i * xs i * S3 i / S i - 3 * qs i * xs i * S1 i * S2 i / S i ^ 2
    + 2 * qs i * xs i * S1 i ^ 3 / S i ^ 3)
  let tot := ∑ i, (3 * qs i * xs i * S2 i / S i - 3 * qs i * xs i * S1 i ^ 2 / S i ^ 2)
  (-R) * (T * Ttot + tot)

/-- `uniquac_dGE_dxs` (203-235). The coordination number is the literal 10 (line 205). -/
noncomputable def dGE_dxs (R T : ℝ) (xs qs : Fin N → ℝ) (taus : Mat N) (phis phis_inv : Fin N → ℝ)
    (dphis : Mat N) (thetas : Fin N → ℝ) (dthetas : Mat N) (S S_inv : Fin N → ℝ) (i : Fin N) : ℝ :=
  let z : ℝ := 10
  let tot := ∑ j, (1 / 2 * qs j * xs j * phis j * z / thetas j * (phis_inv j * dthetas j i
      - thetas j * phis_inv j * phis_inv j * dphis j i)
    - qs j * xs j * (∑ k, taus k j * dthetas k i) * S_inv j
    + if i ≠ j then xs j * phis_inv j * dphis j i else 0)
  R * T * (tot + 1 / 2 * z * qs i * log (thetas i * phis_inv i) - qs i * log (S i)
    + xs i * xs i * phis_inv i * (dphis i i / xs i - phis i / (xs i * xs i)) + log (phis i / xs i))

/-- `uniquac_d2GE_dTdxs` (237-307), with `qsxs = qs·xs` and `qsxsthetaj_taus_jis_inv = qs·xs/S`
(1178-1206). -/
noncomputable def d2GE_dTdxs (R T : ℝ) (xs qs : Fin N → ℝ) (taus : Mat N) (phis phis_inv : Fin N → ℝ)
    (dphis : Mat N) (thetas : Fin N → ℝ) (dthetas : Mat N) (dtaus : Mat N) (S S_inv S1 : Fin N → ℝ)
    (i : Fin N) : ℝ :=
  let z : ℝ := 10
  let qsxs := fun i => qs i * xs i
  let qsxsinv := fun i => qsxs i * S_inv i
  let vec1 := fun i => qsxsinv i * S1 i * S_inv i
  let vec2 := fun i => qsxs i / thetas i
  let vec3 := fun i => (-thetas i) * phis_inv i * vec2 i
  let vec4 := fun i => xs i * phis_inv i
  let t100 := fun j => ∑ k, dtaus k j * dthetas k i
  let t102 := fun j => ∑ k, taus k j * dthetas k i
  let t49 := ∑ j, t100 j * qsxsinv j
  let t50 := ∑ j, t102 j * vec1 j
  let t52 := ∑ j, t102 j * qsxsinv j
  let t51 := ∑ j, (vec2 j * dthetas j i + vec3 j * dphis j i)
  let Ttot := qs i * S1 i * S_inv i - t50 + t49
  let tot := (∑ j, vec4 j * dphis j i) + t51 * z * (1 / 2) - t52 - xs i * phis_inv i * dphis i i
    + xs i * phis_inv i * (dphis i i - phis i / xs i) + log (phis i / xs i) - qs i * log (S i)
    + 1 / 2 * z * qs i * log (thetas i * phis_inv i)
  R * (-T * Ttot + tot)

/-- `uniquac_d2GE_dxixjs` (309-425). -/
noncomputable def d2GE_dxixjs (R T : ℝ) (xs qs : Fin N → ℝ) (taus : Mat N) (phis thetas : Fin N → ℝ)
    (dphis : Mat N) (d2phis : Fin N → Mat N) (dthetas : Mat N) (d2thetas : Fin N → Mat N)
    (S : Fin N → ℝ) (i j : Fin N) : ℝ :=
  let z : ℝ := 10
  -- `tau_mk_dthetam_xi` (325-330)
  let td : Mat N := fun i j => ∑ m, taus m j * dthetas m i
  let lo := min i j
  let hi := max i j
  -- the body of the loop over `(m, n) in [(i, j), (j, i)]` (337-350)
  let pair := fun m n => qs m * z / (2 * thetas m) * (dthetas m n - thetas m / phis m * dphis m n)
    + (if i ≠ j then dphis m n / phis m else 0) - qs m * td n m / S m
  let t01 := if i = j then 3 * dphis i i / phis i - 3 / xs i else 0
  let t24 := ∑ m, if i < j then (if m ≠ i then xs m / phis m * d2phis i j m else 0)
    else (if m ≠ j then xs m / phis m * d2phis i j m else 0)
  let t56 := xs lo * xs lo / (phis lo * phis lo) * (dphis lo lo / xs lo - phis lo / (xs lo * xs lo)) * dphis lo hi
  let t45 := if i ≠ j then xs lo * xs lo / phis lo * (d2phis i j lo / xs lo - dphis lo hi / (xs lo * xs lo))
    else xs i * d2phis i i i / phis i - 2 * dphis i i / phis i + 2 / xs i
  let t8 := ∑ m, if i < j then (if m ≠ i then xs m / (phis m * phis m) * (dphis m i * dphis m j) else 0)
    else (if m ≠ j then xs m / (phis m * phis m) * (dphis m i * dphis m j) else 0)
  let tk := ∑ k, (-(qs k * xs k * (∑ m, taus m k * d2thetas i j m) / S k)
    - qs k * xs k * td i k * (-1) * td j k / (S k * S k)
    + qs k * xs k * z / (2 * thetas k) * (dthetas k i / phis k - thetas k * dphis k i / (phis k * phis k))
      * dphis k j
    + qs k * xs k * z * phis k / (2 * thetas k) * (d2thetas i j k / phis k
      - 1 / (phis k * phis k) * (thetas k * d2phis i j k + dphis k i * dthetas k j + dphis k j * dthetas k i)
      + 2 * thetas k * dphis k i * dphis k j / (phis k * phis k * phis k))
    - qs k * xs k * z * phis k * dthetas k j / (2 * thetas k * thetas k)
      * (dthetas k i / phis k - thetas k * dphis k i / (phis k * phis k)))
  R * T * (pair i j + pair j i + t01 + t24 - t56 + t45 - t8 + tk)

/-- `1/x` componentwise (`phis_inv`, `thetaj_taus_jis_inv`). -/
noncomputable def inv (v : Fin N → ℝ) (i : Fin N) : ℝ := 1 / v i

/-- `uniquac_gammas_from_args` (427-446). -/
noncomputable def gammasFromArgs (R T z : ℝ) (xs rs qs : Fin N → ℝ) (taus : Mat N) : Fin N → ℝ :=
  let p := phis rs xs
  let th := phis qs xs
  let S := thetaTaus taus th
  gammas R T (GE R T z xs qs p th S) xs
    (dGE_dxs R T xs qs taus p (inv p) (dphis rs p (sumInv rs xs)) th (dphis qs th (sumInv qs xs)) S (inv S))

/-- `UNIQUAC_gammas` (1987-2008). -/
noncomputable def UNIQUACgammas (xs rs qs : Fin N → ℝ) (taus : Mat N) (i : Fin N) : ℝ :=
  let p := fun i => rs i * xs i * (1 / ∑ i, rs i * xs i)
  let vs := fun i => qs i * xs i * (1 / ∑ i, qs i * xs i)
  let Ss := fun i => ∑ j, vs j * taus j i
  let VsSs := fun j => vs j / Ss j
  let x1 := p i / xs i
  let x2 := p i / vs i
  let loggammac := log x1 + 1 - x1 - 5 * qs i * (log x2 + 1 - x2)
  let loggammar := qs i * (1 - log (Ss i) - ∑ j, taus i j * VsSs j)
  exp (loggammac + loggammar)

/-- `UNIQUAC_gammas_binary` (1840-1883). -/
noncomputable def binary (x1 r1 r2 q1 q2 tau12 tau21 : ℝ) : ℝ × ℝ :=
  let x0 := q1 * x1
  let x2 := x1 - 1
  let x3 := q2 * x2
  let x4 := -tau21 * x3 + x0
  let x5 := -x3
  let x6 := x0 + x5
  let x7 := 1 / x6
  let x8 := log (x4 * x7)
  let x9 := r1 * x1
  let x10 := r2 * x2
  let x11 := -x10 + x9
  let x12 := x11 * x7
  let x13 := 5 * log (q1 * x12 / r1)
  let x14 := 1 / x11
  let x15 := r1 * x14
  let x16 := 1 - x1
  let x17 := r2 * x16
  let x18 := x17 + x9
  let x19 := x11 / x18 ^ 2
  let x20 := 1 / x4
  let x21 := q2 * x16
  let x22 := 1 / (x0 + x21)
  let x23 := x0 * x22
  let x24 := x21 * x22
  let x25 := x22 * x6
  let x26 := 1 / x18
  let x27 := x18 * x22
  let x28 := q1 * x27
  let x29 := 5 * x14
  let x30 := x29 * x6
  let x31 := tau12 * x0
  let x32 := x31 + x5
  let x33 := x25 / x32
  let x34 := q1 ^ 2 * x1 * x20 * x25 * (tau21 * x24 + x23 - 1) + q1 * x13
    - q1 * x3 * x33 * (-tau12 * (1 - x23) + x24) - q1 * x8 + x15 * x2 - x19 * x9
    + x25 * x29 * x3 * (-r1 + x28) - x28 * x30 * (x23 - x26 * x9)
  let x35 := log x15
  let x36 := r2 * x14
  let x37 := log x36
  let x38 := log (x32 * x7)
  let x39 := 5 * log (q2 * x12 / r2)
  let x40 := x23 * x6
  let x41 := -q2 ^ 2 * x2 * x33 * (x22 * x31 + x24 - 1) + q2 * x20 * x40 * (-tau21 * (1 - x24) + x23)
    - q2 * x38 + q2 * x39 - x1 * x36 + x10 * x19 - x29 * x40 * (q2 * x27 - r2)
    + x27 * x3 * x30 * (-x17 * x26 + x24) / x16
  let x42 := x0 * x13 - x0 * x8 + x1 * x35 - x1 * (x34 + x35) - x2 * x37 + x2 * (x37 + x41) + x3 * x38
    - x3 * x39
  (x15 * exp (x34 + x42), x36 * exp (x41 + x42))

/-! ## The expression the model stands for -/

/-- `GE/RT = Σ x ln(φ/x) + z/2 Σ q x ln(θ/φ) − Σ q x ln(Σ_j θ_j τ_ji)` with volume fractions
`φ_i = r_i x_i/Σ r x` and surface fractions `θ_i = q_i x_i/Σ q x`. -/
noncomputable def spec (R T z : ℝ) (rs qs : Fin N → ℝ) (taus : Mat N) (x : Fin N → ℝ) : ℝ :=
  let phi := fun i => rs i * x i / ∑ k, rs k * x k
  let theta := fun i => qs i * x i / ∑ k, qs k * x k
  R * T * (∑ i, x i * log (phi i / x i) + z / 2 * ∑ i, qs i * x i * log (theta i / phi i)
    - ∑ i, qs i * x i * log (∑ j, theta j * taus j i))

theorem phis_eq (rs x : Fin N → ℝ) (i : Fin N) : phis rs x i = rs i * x i / ∑ k, rs k * x k := by
  simp only [phis, sumInv]; ring

theorem GE_eq (R T z : ℝ) (rs qs : Fin N → ℝ) (taus : Mat N) (x : Fin N → ℝ) :
    GE R T z x qs (phis rs x) (phis qs x) (thetaTaus taus (phis qs x)) = spec R T z rs qs taus x := by
  simp only [GE, spec, thetaTaus, phis_eq, sum_sub_distrib, sum_add_distrib]
  rw [mul_comm (R * T), mul_sum]
  congr 3
  exact sum_congr rfl fun i _ => by ring

/-! ## Derivatives of the fractions -/

section Fractions

variable {rs x : Fin N → ℝ}

theorem pd_sumInv (h : ∑ i, rs i * x i ≠ 0) (j : Fin N) :
    PD (fun x => sumInv rs x) j x (-(rs j) * (sumInv rs x * sumInv rs x)) := by
  have hl : PD (fun x : Fin N → ℝ => ∑ i, rs i * x i) j x (rs j) := by
    simp only [mul_comm (rs _)]
    exact PD.linear rs j x
  have := PD.inv hl h
  simp only [sumInv, one_div]
  refine this.congr_d ?_
  field_simp

theorem pd_phis (h : ∑ i, rs i * x i ≠ 0) (i j : Fin N) :
    PD (fun x => phis rs x i) j x (dphis rs (phis rs x) (sumInv rs x) i j) := by
  have := PD.mul (PD.const_mul (rs i) (PD.coord i j x)) (pd_sumInv h j)
  refine this.congr_d ?_
  simp only [dphis, phis]
  by_cases hij : i = j
  · subst hij; simp only [if_true]; ring
  · simp only [hij, if_false]; ring

theorem pd_dphis (h : ∑ i, rs i * x i ≠ 0) (m i j : Fin N) :
    PD (fun x => dphis rs (phis rs x) (sumInv rs x) m i) j x (d2phis x rs (sumInv rs x) i j m) := by
  have h1 : PD (fun x => if m = i then rs i * sumInv rs x else 0) j x
      (if m = i then rs i * (-(rs j) * (sumInv rs x * sumInv rs x)) else 0) := by
    by_cases hmi : m = i
    · simp only [hmi, if_true]; exact PD.const_mul _ (pd_sumInv h j)
    · simp only [hmi, if_false]; exact PD.const _
  have := (PD.mul_const (rs i) (PD.mul (pd_phis h m j) (PD.neg (pd_sumInv h j)))).add h1
  refine this.congr_d ?_
  simp only [d2phis, dphis, phis]
  by_cases hmi : m = i
  · subst hmi
    by_cases hmj : m = j
    · subst hmj
      simp
      ring
    · have hjm : ¬ j = m := fun e => hmj e.symm
      simp [hmj, hjm]
      ring
  · by_cases hmj : m = j
    · subst hmj
      simp [hmi]
      ring
    · simp [hmi, hmj]
      ring

/-- The fractions do not change with the amount of mixture (Euler). -/
theorem sum_x_dphis (h : ∑ i, rs i * x i ≠ 0) (m : Fin N) :
    ∑ k, x k * dphis rs (phis rs x) (sumInv rs x) m k = 0 := by
  have e : ∀ k, x k * dphis rs (phis rs x) (sumInv rs x) m k
      = -(phis rs x m * sumInv rs x) * (rs k * x k) + if m = k then x k * (rs k * sumInv rs x) else 0 := by
    intro k
    simp only [dphis, mul_add, mul_ite, mul_zero]
    ring
  simp only [e, sum_add_distrib, ← mul_sum, sum_ite_eq, mem_univ, if_true]
  simp only [phis, sumInv]
  field_simp
  ring

theorem sum_x_d2phis (h : ∑ i, rs i * x i ≠ 0) (m i : Fin N) :
    ∑ k, x k * d2phis x rs (sumInv rs x) i k m = -dphis rs (phis rs x) (sumInv rs x) m i := by
  set s := sumInv rs x with hs
  have hS : s * ∑ k, rs k * x k = 1 := by
    rw [hs]; simp only [sumInv]; field_simp
  have e : ∀ k, x k * d2phis x rs s i k m = rs k * x k * (2 * rs i * rs m * x m * s ^ 3
      - if m = i then rs i * s ^ 2 else 0) - if m = k then x k * (rs i * rs k * s ^ 2) else 0 := by
    intro k
    simp only [d2phis]
    by_cases hmi : m = i
    · subst hmi
      by_cases hmk : m = k
      · subst hmk
        simp
        ring
      · have hkm : ¬ k = m := fun e => hmk e.symm
        simp [hmk, hkm]
        ring
    · by_cases hmk : m = k
      · subst hmk
        simp [hmi]
        ring
      · simp [hmi, hmk]
        ring
  simp only [e, sum_sub_distrib, ← sum_mul, sum_ite_eq, mem_univ, if_true]
  simp only [dphis, phis, ← hs]
  by_cases hmi : m = i
  · simp only [hmi, if_true]
    linear_combination (2 * rs i * rs i * x i * s ^ 2 - rs i * s) * hS
  · simp only [hmi, if_false]
    linear_combination (2 * rs i * rs m * x m * s ^ 2) * hS

end Fractions

/-! ## Gradient and Hessian in terms of abstract fractions -/

section Abstract

variable {z : ℝ} {q x : Fin N → ℝ} {p th S : Fin N → (Fin N → ℝ) → ℝ}

/-- Composition derivative of `GE/RT` in terms of the derivatives of the fractions. -/
noncomputable def clean1 (z : ℝ) (q x p th S : Fin N → ℝ) (dp dth dS : Mat N) (i : Fin N) : ℝ :=
  log (p i / x i) - 1 + ∑ m, x m * (dp m i / p m)
  + z / 2 * (q i * log (th i / p i) + ∑ m, q m * x m * (dth m i / th m - dp m i / p m))
  - (q i * log (S i) + ∑ m, q m * x m * (dS m i / S m))

/-- Second composition derivative of `GE/RT`. -/
noncomputable def clean2 (z : ℝ) (q x p th S : Fin N → ℝ) (dp dth dS : Mat N) (d2p d2th d2S : Fin N → Mat N)
    (i j : Fin N) : ℝ :=
  (dp i j / p i - if i = j then 1 / x i else 0) + (dp j i / p j
    + ∑ m, x m * (d2p i j m / p m - dp m i * dp m j / p m ^ 2))
  + z / 2 * (q i * (dth i j / th i - dp i j / p i) + (q j * (dth j i / th j - dp j i / p j)
    + ∑ m, q m * x m * (d2th i j m / th m - dth m i * dth m j / th m ^ 2
      - (d2p i j m / p m - dp m i * dp m j / p m ^ 2))))
  - (q i * (dS i j / S i) + (q j * (dS j i / S j)
    + ∑ m, q m * x m * (d2S i j m / S m - dS m i * dS m j / S m ^ 2)))

theorem pd_log_div {f g : (Fin N → ℝ) → ℝ} {j : Fin N} {df dg : ℝ} (hf : f x ≠ 0) (hg : g x ≠ 0)
    (h1 : PD f j x df) (h2 : PD g j x dg) :
    PD (fun x => log (f x / g x)) j x (df / f x - dg / g x) := by
  have := PD.comp (F := fun x => f x / g x) (hasDerivAt_log (div_ne_zero hf hg)) (PD.div h1 h2 hg)
  refine this.congr_d ?_
  field_simp

theorem pd_log {f : (Fin N → ℝ) → ℝ} {j : Fin N} {df : ℝ} (hf : f x ≠ 0) (h1 : PD f j x df) :
    PD (fun x => log (f x)) j x (df / f x) := by
  refine (PD.comp (hasDerivAt_log hf) h1).congr_d ?_
  field_simp

theorem pd_quot {f g : (Fin N → ℝ) → ℝ} {j : Fin N} {df dg : ℝ} (hg : g x ≠ 0)
    (h1 : PD f j x df) (h2 : PD g j x dg) : PD (fun x => f x / g x) j x (df / g x - f x * dg / g x ^ 2) := by
  refine (PD.div h1 h2 hg).congr_d ?_
  field_simp

/-- Gradient for abstract fractions. -/
theorem pd_abstract (hx : ∀ i, x i ≠ 0) (hp : ∀ i, p i x ≠ 0) (ht : ∀ i, th i x ≠ 0) (hS : ∀ i, S i x ≠ 0)
    {dp dth dS : Mat N} (i : Fin N) (h1 : ∀ m, PD (p m) i x (dp m i)) (h2 : ∀ m, PD (th m) i x (dth m i))
    (h3 : ∀ m, PD (S m) i x (dS m i)) :
    PD (fun x => (∑ m, x m * log (p m x / x m)) + z / 2 * (∑ m, q m * x m * log (th m x / p m x))
        - ∑ m, q m * x m * log (S m x)) i x
      (clean1 z q x (fun m => p m x) (fun m => th m x) (fun m => S m x) dp dth dS i) := by
  have e1 := PD.sum (s := univ) fun m _ => PD.mul (PD.coord m i x)
    (pd_log_div (hp m) (hx m) (h1 m) (PD.coord m i x))
  have e2 := PD.sum (s := univ) fun m _ => PD.mul (PD.const_mul (q m) (PD.coord m i x))
    (pd_log_div (ht m) (hp m) (h2 m) (h1 m))
  have e3 := PD.sum (s := univ) fun m _ => PD.mul (PD.const_mul (q m) (PD.coord m i x))
    (pd_log (hS m) (h3 m))
  refine PD.congr_d ((e1.add (PD.const_mul (z / 2) e2)).sub e3) ?_
  simp only [clean1, sum_add_distrib, mul_ite, mul_one, mul_zero, ite_mul, one_mul, zero_mul, sum_ite_eq',
    mem_univ, if_true]
  have : ∀ m, x m * (dp m i / p m x - (if m = i then 1 else 0) / x m)
      = x m * (dp m i / p m x) - if m = i then 1 else 0 := by
    intro m
    have := hx m
    split <;> field_simp
  simp only [this, sum_sub_distrib, sum_ite_eq', mem_univ, if_true]
  ring

/-- Hessian for abstract fractions. -/
theorem pd2_abstract (hx : ∀ i, x i ≠ 0) (hp : ∀ i, p i x ≠ 0) (ht : ∀ i, th i x ≠ 0) (hS : ∀ i, S i x ≠ 0)
    {dp dth dS : Fin N → Fin N → (Fin N → ℝ) → ℝ} {d2p d2th d2S : Fin N → Mat N} (i j : Fin N)
    (h1 : ∀ m, PD (p m) j x (dp m j x)) (h2 : ∀ m, PD (th m) j x (dth m j x))
    (h3 : ∀ m, PD (S m) j x (dS m j x)) (k1 : ∀ m, PD (dp m i) j x (d2p i j m))
    (k2 : ∀ m, PD (dth m i) j x (d2th i j m)) (k3 : ∀ m, PD (dS m i) j x (d2S i j m)) :
    PD (fun x => clean1 z q x (fun m => p m x) (fun m => th m x) (fun m => S m x) (fun m i => dp m i x)
        (fun m i => dth m i x) (fun m i => dS m i x) i) j x
      (clean2 z q x (fun m => p m x) (fun m => th m x) (fun m => S m x) (fun m i => dp m i x)
        (fun m i => dth m i x) (fun m i => dS m i x) d2p d2th d2S i j) := by
  have f1 := (pd_log_div (hp i) (hx i) (h1 i) (PD.coord i j x)).sub (PD.const 1)
  have f2 := PD.sum (s := univ) fun m _ => PD.mul (PD.coord m j x) (pd_quot (hp m) (k1 m) (h1 m))
  have f3 := PD.const_mul (q i) (pd_log_div (ht i) (hp i) (h2 i) (h1 i))
  have f4 := PD.sum (s := univ) fun m _ => PD.mul (PD.const_mul (q m) (PD.coord m j x))
    ((pd_quot (ht m) (k2 m) (h2 m)).sub (pd_quot (hp m) (k1 m) (h1 m)))
  have f5 := PD.const_mul (q i) (pd_log (hS i) (h3 i))
  have f6 := PD.sum (s := univ) fun m _ => PD.mul (PD.const_mul (q m) (PD.coord m j x))
    (pd_quot (hS m) (k3 m) (h3 m))
  refine PD.congr_d (((f1.add f2).add (PD.const_mul (z / 2) (f3.add f4))).sub (f5.add f6)) ?_
  simp only [clean2, sum_add_distrib, mul_ite, mul_one, mul_zero, ite_mul, one_mul, zero_mul, sum_ite_eq',
    mem_univ, if_true, ite_div, zero_div]
  ring

end Abstract

/-- Partial derivatives only depend on the function near the point. -/
theorem pd_congr {F G : (Fin N → ℝ) → ℝ} {x : Fin N → ℝ} {j : Fin N} {d : ℝ} (U : Set (Fin N → ℝ))
    (hU : IsOpen U) (hx : x ∈ U) (hFG : ∀ y ∈ U, F y = G y) (h : PD G j x d) : PD F j x d := by
  unfold PD at *
  refine h.congr_of_eventuallyEq ?_
  have hc : Continuous fun t => Function.update x j t := continuous_const.update j continuous_id
  have : (fun t => Function.update x j t) ⁻¹' U ∈ nhds (x j) :=
    (hU.preimage hc).mem_nhds (by simpa using hx)
  filter_upwards [this] with t ht
  exact hFG _ ht

/-! ## The code's derivatives, simplified -/

section Code

variable {R T : ℝ} {rs qs x : Fin N → ℝ} {taus : Mat N}

/-- Gradient code on arbitrary fractions. -/
theorem dGE_dxs_clean (p th S : Fin N → ℝ) (dp dth : Mat N) (hx : ∀ i, x i ≠ 0) (hp : ∀ i, p i ≠ 0)
    (ht : ∀ i, th i ≠ 0) (i : Fin N) :
    dGE_dxs R T x qs taus p (inv p) dp th dth S (inv S) i
      = R * T * clean1 10 qs x p th S dp dth (fun m i => ∑ k, taus k m * dth k i) i := by
  simp only [dGE_dxs, clean1, inv]
  congr 1
  have e : ∀ j, (1 / 2 * qs j * x j * p j * 10 / th j * (1 / p j * dth j i
        - th j * (1 / p j) * (1 / p j) * dp j i)
      - qs j * x j * (∑ k, taus k j * dth k i) * (1 / S j)
      + if i ≠ j then x j * (1 / p j) * dp j i else 0)
      = 5 * (qs j * x j * (dth j i / th j - dp j i / p j))
        - qs j * x j * ((∑ k, taus k j * dth k i) / S j)
        + (x j * (dp j i / p j) - if i = j then x j * (dp j i / p j) else 0) := by
    intro j
    have h1 := hp j
    have h2 := ht j
    have h3 : 1 / 2 * qs j * x j * p j * 10 / th j * (1 / p j * dth j i
        - th j * (1 / p j) * (1 / p j) * dp j i) = 5 * (qs j * x j * (dth j i / th j - dp j i / p j)) := by
      field_simp
      ring
    rw [h3]
    by_cases h : i = j
    · simp only [h, ne_eq, not_true, if_false, if_true]; ring
    · simp only [h, ne_eq, not_false_eq_true, if_false, if_true]; ring
  simp only [e, sum_add_distrib, sum_sub_distrib, ← mul_sum, sum_ite_eq, mem_univ, if_true]
  have h1 : x i * x i * (1 / p i) * (dp i i / x i - p i / (x i * x i)) = x i * (dp i i / p i) - 1 := by
    have := hp i
    have := hx i
    field_simp
  rw [h1, show th i * (1 / p i) = th i / p i by ring]
  ring

theorem sum_ne (f : Fin N → ℝ) (c : Fin N) : (∑ m, if m ≠ c then f m else 0) = ∑ m, f m - f c := by
  have : ∀ m, (if m ≠ c then f m else 0) = f m - if m = c then f m else 0 := by
    intro m; by_cases h : m = c <;> simp [h]
  simp only [this, sum_sub_distrib, sum_ite_eq', mem_univ, if_true]

/-- Hessian code on arbitrary fractions with symmetric second derivatives. -/
theorem d2GE_clean (p th S : Fin N → ℝ) (dp dth : Mat N) (d2p d2th : Fin N → Mat N)
    (hx : ∀ i, x i ≠ 0) (hp : ∀ i, p i ≠ 0) (ht : ∀ i, th i ≠ 0) (hS : ∀ i, S i ≠ 0) (i j : Fin N) :
    d2GE_dxixjs R T x qs taus p th dp d2p dth d2th S i j
      = R * T * clean2 10 qs x p th S dp dth (fun m i => ∑ k, taus k m * dth k i) d2p d2th
          (fun i j m => ∑ k, taus k m * d2th i j k) i j := by
  simp only [d2GE_dxixjs, clean2]
  congr 1
  have ek : ∀ k, (-(qs k * x k * (∑ m, taus m k * d2th i j m) / S k)
      - qs k * x k * (∑ m, taus m k * dth m i) * (-1) * (∑ m, taus m k * dth m j) / (S k * S k)
      + qs k * x k * 10 / (2 * th k) * (dth k i / p k - th k * dp k i / (p k * p k)) * dp k j
      + qs k * x k * 10 * p k / (2 * th k) * (d2th i j k / p k
        - 1 / (p k * p k) * (th k * d2p i j k + dp k i * dth k j + dp k j * dth k i)
        + 2 * th k * dp k i * dp k j / (p k * p k * p k))
      - qs k * x k * 10 * p k * dth k j / (2 * th k * th k) * (dth k i / p k - th k * dp k i / (p k * p k)))
      = 5 * (qs k * x k * (d2th i j k / th k - dth k i * dth k j / th k ^ 2
          - (d2p i j k / p k - dp k i * dp k j / p k ^ 2)))
        - qs k * x k * ((∑ m, taus m k * d2th i j m) / S k
          - (∑ m, taus m k * dth m i) * (∑ m, taus m k * dth m j) / S k ^ 2) := by
    intro k
    have h1 := hp k
    have h2 := ht k
    have h3 := hS k
    generalize (∑ m, taus m k * d2th i j m) = A
    generalize (∑ m, taus m k * dth m i) = B
    generalize (∑ m, taus m k * dth m j) = C
    field_simp
    ring
  simp only [ek, sum_sub_distrib, ← mul_sum]
  have ep : ∀ m n, qs m * 10 / (2 * th m) * (dth m n - th m / p m * dp m n)
      = 5 * (qs m * (dth m n / th m - dp m n / p m)) := by
    intro m n
    have h1 := hp m
    have h2 := ht m
    field_simp
    ring
  simp only [ep]
  have hxi := hx i
  have hxj := hx j
  have hpi := hp i
  have hpj := hp j
  rcases lt_trichotomy i j with h | h | h
  · have hne := h.ne
    simp only [h, hne, if_true, if_false, ne_eq, not_false_eq_true, min_eq_left h.le, max_eq_right h.le]
    have s1 := sum_ne (fun m => x m / p m * d2p i j m) i
    have s2 := sum_ne (fun m => x m / (p m * p m) * (dp m i * dp m j)) i
    simp only [ne_eq] at s1 s2
    rw [s1, s2]
    have g1 : ∑ m, x m / p m * d2p i j m = ∑ m, x m * (d2p i j m / p m) :=
      sum_congr rfl fun m _ => by ring
    have g2 : ∑ m, x m / (p m * p m) * (dp m i * dp m j) = ∑ m, x m * (dp m i * dp m j / p m ^ 2) :=
      sum_congr rfl fun m _ => by ring
    rw [g1, g2]
    simp only [mul_sub, sum_sub_distrib]
    have t1 : x i * x i / (p i * p i) * (dp i i / x i) * dp i j = x i / (p i * p i) * (dp i i * dp i j) := by
      field_simp
    have t2 : x i * x i / (p i * p i) * (p i / (x i * x i)) * dp i j = dp i j / p i := by field_simp
    have t3 : x i * x i / p i * (d2p i j i / x i) = x i / p i * d2p i j i := by field_simp
    have t4 : x i * x i / p i * (dp i j / (x i * x i)) = dp i j / p i := by field_simp
    simp only [sub_mul, t1, t2, t3, t4]
    ring
  · subst h
    simp only [lt_irrefl, if_true, if_false, ne_eq, not_true, min_self, max_self]
    have s1 := sum_ne (fun m => x m / p m * d2p i i m) i
    have s2 := sum_ne (fun m => x m / (p m * p m) * (dp m i * dp m i)) i
    simp only [ne_eq] at s1 s2
    rw [s1, s2]
    have g1 : ∑ m, x m / p m * d2p i i m = ∑ m, x m * (d2p i i m / p m) :=
      sum_congr rfl fun m _ => by ring
    have g2 : ∑ m, x m / (p m * p m) * (dp m i * dp m i) = ∑ m, x m * (dp m i * dp m i / p m ^ 2) :=
      sum_congr rfl fun m _ => by ring
    rw [g1, g2]
    simp only [mul_sub, sum_sub_distrib]
    have t1 : x i * x i / (p i * p i) * (dp i i / x i) * dp i i = x i / (p i * p i) * (dp i i * dp i i) := by
      field_simp
    have t2 : x i * x i / (p i * p i) * (p i / (x i * x i)) * dp i i = dp i i / p i := by field_simp
    simp only [sub_mul, t1, t2]
    ring
  · have hne := h.ne'
    have hnl := h.not_gt
    simp only [hnl, hne, if_true, if_false, ne_eq, not_false_eq_true, min_eq_right h.le, max_eq_left h.le]
    have s1 := sum_ne (fun m => x m / p m * d2p i j m) j
    have s2 := sum_ne (fun m => x m / (p m * p m) * (dp m i * dp m j)) j
    simp only [ne_eq] at s1 s2
    rw [s1, s2]
    have g1 : ∑ m, x m / p m * d2p i j m = ∑ m, x m * (d2p i j m / p m) :=
      sum_congr rfl fun m _ => by ring
    have g2 : ∑ m, x m / (p m * p m) * (dp m i * dp m j) = ∑ m, x m * (dp m i * dp m j / p m ^ 2) :=
      sum_congr rfl fun m _ => by ring
    rw [g1, g2]
    simp only [mul_sub, sum_sub_distrib]
    have t1 : x j * x j / (p j * p j) * (dp j j / x j) * dp j i = x j / (p j * p j) * (dp j i * dp j j) := by
      field_simp
    have t2 : x j * x j / (p j * p j) * (p j / (x j * x j)) * dp j i = dp j i / p j := by field_simp
    have t3 : x j * x j / p j * (d2p i j j / x j) = x j / p j * d2p i j j := by field_simp
    have t4 : x j * x j / p j * (dp j i / (x j * x j)) = dp j i / p j := by field_simp
    simp only [sub_mul, t1, t2, t3, t4]
    ring

end Code

/-! ## C26: composition derivatives -/

section Composition

variable {R T z : ℝ} {rs qs x : Fin N → ℝ} {taus : Mat N}

/-- The derivative code applied to the fractions at a composition, as `UNIQUAC.dGE_dxs` does. -/
noncomputable def dGE (R T : ℝ) (rs qs : Fin N → ℝ) (taus : Mat N) (x : Fin N → ℝ) : Fin N → ℝ :=
  dGE_dxs R T x qs taus (phis rs x) (inv (phis rs x)) (dphis rs (phis rs x) (sumInv rs x)) (phis qs x)
    (dphis qs (phis qs x) (sumInv qs x)) (thetaTaus taus (phis qs x)) (inv (thetaTaus taus (phis qs x)))

/-- The second derivative code applied to the fractions at a composition (`UNIQUAC.d2GE_dxixjs`). -/
noncomputable def d2GE (R T : ℝ) (rs qs : Fin N → ℝ) (taus : Mat N) (x : Fin N → ℝ) : Mat N :=
  d2GE_dxixjs R T x qs taus (phis rs x) (phis qs x) (dphis rs (phis rs x) (sumInv rs x))
    (d2phis x rs (sumInv rs x)) (dphis qs (phis qs x) (sumInv qs x)) (d2phis x qs (sumInv qs x))
    (thetaTaus taus (phis qs x))

theorem sum_pos' (hr : ∀ i, 0 < rs i) (hx : ∀ i, 0 < x i) (i : Fin N) : 0 < ∑ k, rs k * x k :=
  sum_pos (fun k _ => mul_pos (hr k) (hx k)) ⟨i, mem_univ i⟩

theorem phis_pos (hr : ∀ i, 0 < rs i) (hx : ∀ i, 0 < x i) (i : Fin N) : 0 < phis rs x i := by
  rw [phis_eq]
  exact div_pos (mul_pos (hr i) (hx i)) (sum_pos' hr hx i)

theorem S_pos (hq : ∀ i, 0 < qs i) (ht : ∀ i j, 0 < taus i j) (hx : ∀ i, 0 < x i) (i : Fin N) :
    0 < thetaTaus taus (phis qs x) i :=
  sum_pos (fun k _ => mul_pos (phis_pos hq hx k) (ht k i)) ⟨i, mem_univ i⟩

theorem isOpen_pos : IsOpen {x : Fin N → ℝ | ∀ i, 0 < x i} := by
  have : {x : Fin N → ℝ | ∀ i, 0 < x i} = ⋂ i, {x : Fin N → ℝ | 0 < x i} := by ext x; simp
  rw [this]
  exact isOpen_iInter_of_finite fun i => isOpen_lt continuous_const (continuous_apply i)

theorem pd_S (h : ∑ i, qs i * x i ≠ 0) (m i : Fin N) : PD (fun x => thetaTaus taus (phis qs x) m) i x
    (∑ k, taus k m * dphis qs (phis qs x) (sumInv qs x) k i) := by
  refine (PD.sum (s := univ) fun k _ => PD.mul_const (taus k m) (pd_phis h k i)).congr_d ?_
  exact sum_congr rfl fun k _ => mul_comm _ _

/-- The gradient for any coordination number. -/
theorem pd_spec (hr : ∀ i, 0 < rs i) (hq : ∀ i, 0 < qs i) (ht : ∀ i j, 0 < taus i j) (hx : ∀ i, 0 < x i)
    (i : Fin N) : PD (spec R T z rs qs taus) i x (R * T * clean1 z qs x (phis rs x) (phis qs x)
      (thetaTaus taus (phis qs x)) (dphis rs (phis rs x) (sumInv rs x)) (dphis qs (phis qs x) (sumInv qs x))
      (fun m i => ∑ k, taus k m * dphis qs (phis qs x) (sumInv qs x) k i) i) := by
  have e : spec R T z rs qs taus = fun x => R * T * ((∑ m, x m * log (phis rs x m / x m))
      + z / 2 * (∑ m, qs m * x m * log (phis qs x m / phis rs x m))
      - ∑ m, qs m * x m * log (thetaTaus taus (phis qs x) m)) := by
    funext x
    simp only [spec, thetaTaus, phis_eq]
  rw [e]
  refine PD.const_mul _ (pd_abstract (p := fun m x => phis rs x m) (th := fun m x => phis qs x m)
    (S := fun m x => thetaTaus taus (phis qs x) m) (fun i => (hx i).ne') (fun i => (phis_pos hr hx i).ne')
    (fun i => (phis_pos hq hx i).ne') (fun i => (S_pos hq ht hx i).ne') i
    (fun m => pd_phis (sum_pos' hr hx i).ne' m i) (fun m => pd_phis (sum_pos' hq hx i).ne' m i)
    (fun m => pd_S (sum_pos' hq hx i).ne' m i))

theorem dGE_clean (hr : ∀ i, 0 < rs i) (hq : ∀ i, 0 < qs i) (hx : ∀ i, 0 < x i) (i : Fin N) :
    dGE R T rs qs taus x i = R * T * clean1 10 qs x (phis rs x) (phis qs x)
      (thetaTaus taus (phis qs x)) (dphis rs (phis rs x) (sumInv rs x)) (dphis qs (phis qs x) (sumInv qs x))
      (fun m i => ∑ k, taus k m * dphis qs (phis qs x) (sumInv qs x) k i) i :=
  dGE_dxs_clean _ _ _ _ _ (fun i => (hx i).ne') (fun i => (phis_pos hr hx i).ne')
    (fun i => (phis_pos hq hx i).ne') i

/-- **C26.** `uniquac_dGE_dxs` is the gradient of the UNIQUAC excess Gibbs energy with coordination
number 10. -/
theorem C26_uniquac_dGE_dxs (hr : ∀ i, 0 < rs i) (hq : ∀ i, 0 < qs i) (ht : ∀ i j, 0 < taus i j)
    (hx : ∀ i, 0 < x i) (i : Fin N) :
    PD (spec R T 10 rs qs taus) i x (dGE R T rs qs taus x i) := by
  rw [dGE_clean hr hq hx]
  exact pd_spec hr hq ht hx i

/-- **C26.** `uniquac_d2GE_dxixjs` is the derivative of `uniquac_dGE_dxs`. -/
theorem C26_uniquac_d2GE_dxixjs (hr : ∀ i, 0 < rs i) (hq : ∀ i, 0 < qs i) (ht : ∀ i j, 0 < taus i j)
    (hx : ∀ i, 0 < x i) (i j : Fin N) :
    PD (fun x => dGE R T rs qs taus x i) j x (d2GE R T rs qs taus x i j) := by
  refine pd_congr {x | ∀ i, 0 < x i} isOpen_pos hx (fun y hy => dGE_clean hr hq hy i) ?_
  rw [d2GE, d2GE_clean _ _ _ _ _ _ _ (fun i => (hx i).ne') (fun i => (phis_pos hr hx i).ne')
    (fun i => (phis_pos hq hx i).ne') (fun i => (S_pos hq ht hx i).ne') i j]
  have hsr := (sum_pos' hr hx i).ne'
  have hsq := (sum_pos' hq hx i).ne'
  refine PD.const_mul _ (pd2_abstract (p := fun m x => phis rs x m) (th := fun m x => phis qs x m)
    (S := fun m x => thetaTaus taus (phis qs x) m)
    (dp := fun m i x => dphis rs (phis rs x) (sumInv rs x) m i)
    (dth := fun m i x => dphis qs (phis qs x) (sumInv qs x) m i)
    (dS := fun m i x => ∑ k, taus k m * dphis qs (phis qs x) (sumInv qs x) k i)
    (fun i => (hx i).ne') (fun i => (phis_pos hr hx i).ne')
    (fun i => (phis_pos hq hx i).ne') (fun i => (S_pos hq ht hx i).ne') i j
    (fun m => pd_phis hsr m j) (fun m => pd_phis hsq m j) (fun m => pd_S hsq m j)
    (fun m => pd_dphis hsr m i j) (fun m => pd_dphis hsq m i j) (fun m => ?_))
  exact PD.sum (s := univ) fun k _ => PD.const_mul (taus k m) (pd_dphis hsq k i j)

/-- **C26.** The code passes the coordination number to the excess Gibbs energy but differentiates with
10: `uniquac_gammas_from_args` with another `z` combines an energy and a gradient that do not belong
together. Here two components, `r = (1, 2)`, `q = (1, 1)`, all `τ = 1`, equal mole fractions: for every
`z ≠ 10` the gradient code is not the gradient of the energy code. -/
theorem C26_uniquac_z_fails (z : ℝ) (hz : z ≠ 10) :
    let rs : Fin 2 → ℝ := ![1, 2]
    let qs : Fin 2 → ℝ := ![1, 1]
    let taus : Mat 2 := fun _ _ => 1
    let x : Fin 2 → ℝ := ![1 / 2, 1 / 2]
    ¬ PD (fun x => GE 1 1 z x qs (phis rs x) (phis qs x) (thetaTaus taus (phis qs x))) 0 x
      (dGE 1 1 rs qs taus x 0) := by
  intro rs qs taus x hbad
  have hr : ∀ i, 0 < rs i := by intro i; fin_cases i <;> simp [rs]
  have hq : ∀ i, 0 < qs i := by intro i; fin_cases i <;> simp [qs]
  have ht : ∀ i j, 0 < taus i j := by intro i j; simp [taus]
  have hx : ∀ i, 0 < x i := by intro i; fin_cases i <;> simp [x]
  simp only [GE_eq] at hbad
  have h1 := hbad.unique (pd_spec hr hq ht hx 0)
  rw [dGE_clean hr hq hx] at h1
  have hl : log (2 / 3 : ℝ) < 2 / 3 - 1 := log_lt_sub_one_of_pos (by norm_num) (by norm_num)
  have hl2 : log (3 / 2 : ℝ) = -log (2 / 3) := by rw [← log_inv]; norm_num
  have h2 : (z - 10) * (log (3 / 2 : ℝ) - 1 / 3) = 0 := by
    simp only [clean1, one_mul] at h1
    have h3 : phis qs x 0 / phis rs x 0 = 3 / 2 := by
      simp [phis_eq, qs, rs, x, Fin.sum_univ_two]; norm_num
    have h4 : ∑ m, qs m * x m * (dphis qs (phis qs x) (sumInv qs x) m 0 / phis qs x m
        - dphis rs (phis rs x) (sumInv rs x) m 0 / phis rs x m) = -1 / 3 := by
      simp [dphis, phis_eq, sumInv, qs, rs, x, Fin.sum_univ_two]; norm_num
    rw [h3, h4] at h1
    simp only [show qs 0 = 1 from rfl] at h1
    linear_combination -2 * h1
  rcases mul_eq_zero.mp h2 with h | h
  · exact hz (by linarith)
  · rw [hl2] at h
    linarith

/-! ## C26: activity coefficients -/

theorem sum_x_clean (hr : ∀ i, 0 < rs i) (hq : ∀ i, 0 < qs i) (hx : ∀ i, 0 < x i) (i : Fin N) :
    ∑ k, x k * dGE R T rs qs taus x k = spec R T 10 rs qs taus x - R * T * ∑ k, x k := by
  have hsr := (sum_pos' hr hx i).ne'
  have hsq := (sum_pos' hq hx i).ne'
  simp only [dGE_clean hr hq hx, clean1]
  have e : ∀ (f : Fin N → ℝ) (g : Mat N), (∀ m, ∑ k, x k * g m k = 0) →
      ∑ k, x k * ∑ m, f m * g m k = 0 := by
    intro f g h
    have : ∀ k, x k * ∑ m, f m * g m k = ∑ m, f m * (x k * g m k) := by
      intro k; rw [mul_sum]; exact sum_congr rfl fun m _ => by ring
    simp only [this]
    rw [sum_comm]
    simp only [← mul_sum, h, mul_zero, sum_const_zero]
  have e1 := e (fun m => x m / phis rs x m) _ (sum_x_dphis hsr)
  have e2 := e (fun m => qs m * x m / phis qs x m) _ (sum_x_dphis hsq)
  have e3 := e (fun m => qs m * x m / phis rs x m) _ (sum_x_dphis hsr)
  have e4 := e (fun m => qs m * x m / thetaTaus taus (phis qs x) m)
    (fun m i => ∑ k, taus k m * dphis qs (phis qs x) (sumInv qs x) k i)
    (fun m => e (fun k => taus k m) _ (sum_x_dphis hsq))
  rw [← GE_eq]
  simp only [GE, sum_add_distrib, sum_sub_distrib]
  have hk : ∀ k, x k * (R * T * (log (phis rs x k / x k) - 1
        + ∑ m, x m * (dphis rs (phis rs x) (sumInv rs x) m k / phis rs x m)
        + 10 / 2 * (qs k * log (phis qs x k / phis rs x k) + ∑ m, qs m * x m
          * (dphis qs (phis qs x) (sumInv qs x) m k / phis qs x m
            - dphis rs (phis rs x) (sumInv rs x) m k / phis rs x m))
        - (qs k * log (thetaTaus taus (phis qs x) k) + ∑ m, qs m * x m
          * ((∑ k_1, taus k_1 m * dphis qs (phis qs x) (sumInv qs x) k_1 k) / thetaTaus taus (phis qs x) m))))
      = R * T * (x k * log (phis rs x k / x k) - x k
        + x k * ∑ m, x m / phis rs x m * dphis rs (phis rs x) (sumInv rs x) m k
        + (1 / 2 * 10 * qs k * x k * log (phis qs x k / phis rs x k)
          + 5 * (x k * ∑ m, qs m * x m / phis qs x m * dphis qs (phis qs x) (sumInv qs x) m k)
          - 5 * (x k * ∑ m, qs m * x m / phis rs x m * dphis rs (phis rs x) (sumInv rs x) m k))
        - (qs k * x k * log (thetaTaus taus (phis qs x) k)
          + x k * ∑ m, qs m * x m / thetaTaus taus (phis qs x) m
            * ∑ k_1, taus k_1 m * dphis qs (phis qs x) (sumInv qs x) k_1 k)) := by
    intro k
    have g1 : ∑ m, x m * (dphis rs (phis rs x) (sumInv rs x) m k / phis rs x m)
        = ∑ m, x m / phis rs x m * dphis rs (phis rs x) (sumInv rs x) m k :=
      sum_congr rfl fun m _ => by ring
    have g2 : ∑ m, qs m * x m * (dphis qs (phis qs x) (sumInv qs x) m k / phis qs x m
          - dphis rs (phis rs x) (sumInv rs x) m k / phis rs x m)
        = (∑ m, qs m * x m / phis qs x m * dphis qs (phis qs x) (sumInv qs x) m k)
          - ∑ m, qs m * x m / phis rs x m * dphis rs (phis rs x) (sumInv rs x) m k := by
      rw [← sum_sub_distrib]; exact sum_congr rfl fun m _ => by ring
    have g3 : ∑ m, qs m * x m
          * ((∑ k_1, taus k_1 m * dphis qs (phis qs x) (sumInv qs x) k_1 k) / thetaTaus taus (phis qs x) m)
        = ∑ m, qs m * x m / thetaTaus taus (phis qs x) m
            * ∑ k_1, taus k_1 m * dphis qs (phis qs x) (sumInv qs x) k_1 k :=
      sum_congr rfl fun m _ => by ring
    rw [g1, g2, g3]
    ring
  simp only [hk, ← mul_sum, sum_add_distrib, sum_sub_distrib, e1, e2, e3, e4]
  ring

/-- **C26.** The activity coefficients of the class (from `GE` and its gradient, `z = 10`) are those of
the explicit function `UNIQUAC_gammas`. -/
theorem C26_uniquac_gammas (hR : R ≠ 0) (hT : T ≠ 0) (hr : ∀ i, 0 < rs i) (hq : ∀ i, 0 < qs i)
    (ht : ∀ i j, 0 < taus i j) (hx : ∀ i, 0 < x i) (hsum : ∑ i, x i = 1) (i : Fin N) :
    gammasFromArgs R T 10 x rs qs taus i = UNIQUACgammas x rs qs taus i := by
  have hsr := (sum_pos' hr hx i).ne'
  have hsq := (sum_pos' hq hx i).ne'
  have h0 : gammasFromArgs R T 10 x rs qs taus i
      = gammas R T (spec R T 10 rs qs taus x) x (dGE R T rs qs taus x) i := by
    rw [← GE_eq]; rfl
  rw [h0]
  simp only [gammas, UNIQUACgammas]
  rw [sum_x_clean hr hq hx i, hsum]
  congr 1
  rw [dGE_clean hr hq hx]
  have hv : (R * T * clean1 10 qs x (phis rs x) (phis qs x) (thetaTaus taus (phis qs x))
      (dphis rs (phis rs x) (sumInv rs x)) (dphis qs (phis qs x) (sumInv qs x))
      (fun m i => ∑ k, taus k m * dphis qs (phis qs x) (sumInv qs x) k i) i
      + (spec R T 10 rs qs taus x - (spec R T 10 rs qs taus x - R * T * 1))) * (1 / R / T)
      = clean1 10 qs x (phis rs x) (phis qs x) (thetaTaus taus (phis qs x))
      (dphis rs (phis rs x) (sumInv rs x)) (dphis qs (phis qs x) (sumInv qs x))
      (fun m i => ∑ k, taus k m * dphis qs (phis qs x) (sumInv qs x) k i) i + 1 := by
    generalize clean1 _ _ _ _ _ _ _ _ _ _ = c
    field_simp
    ring
  rw [hv]
  -- the three sums
  have hxi := (hx i).ne'
  have hpi := (phis_pos hr hx i).ne'
  have hti := (phis_pos hq hx i).ne'
  have hx1 : phis rs x i / x i = rs i * sumInv rs x := by simp only [phis]; field_simp
  have k0 : ∀ (a : Fin N → ℝ), (∀ i, 0 < a i) → ∀ m, a m * x m / phis a x m = ∑ k, a k * x k := by
    intro a ha m
    have h1 := (sum_pos' ha hx m).ne'
    have h2 := (ha m).ne'
    have h3 := (hx m).ne'
    rw [phis_eq]
    field_simp
  have kd : ∀ (a : Fin N → ℝ), (∀ i, 0 < a i) → ∀ m, dphis a (phis a x) (sumInv a x) m i / phis a x m
      = -(sumInv a x * a i) + if m = i then 1 / x i else 0 := by
    intro a ha m
    have h1 := (phis_pos ha hx m).ne'
    simp only [dphis]
    by_cases hm : m = i
    · subst hm
      simp only [if_true]
      have h2 := (sum_pos' ha hx m).ne'
      have h3 := (ha m).ne'
      have h4 := (hx m).ne'
      have : a m * sumInv a x / phis a x m = 1 / x m := by
        simp only [phis]
        have : sumInv a x ≠ 0 := by simp only [sumInv]; exact one_div_ne_zero h2
        field_simp
      rw [add_div, this]
      field_simp
    · simp only [hm, if_false, add_zero]
      field_simp
  have s1 : ∑ m, x m * (dphis rs (phis rs x) (sumInv rs x) m i / phis rs x m) = 1 - phis rs x i / x i := by
    simp only [kd rs hr, mul_add, mul_ite, mul_zero, sum_add_distrib, sum_ite_eq', mem_univ, if_true,
      ← sum_mul, hsum, hx1]
    field_simp
    ring
  have s2 : ∑ m, qs m * x m * (dphis qs (phis qs x) (sumInv qs x) m i / phis qs x m
      - dphis rs (phis rs x) (sumInv rs x) m i / phis rs x m) = qs i * (phis rs x i / phis qs x i) - qs i := by
    simp only [kd rs hr, kd qs hq]
    have : ∀ m, qs m * x m * (-(sumInv qs x * qs i) + (if m = i then 1 / x i else 0)
        - (-(sumInv rs x * rs i) + if m = i then 1 / x i else 0))
        = qs m * x m * (sumInv rs x * rs i - sumInv qs x * qs i) := by intro m; ring
    simp only [this, ← sum_mul]
    simp only [phis_eq, sumInv]
    have := (hq i).ne'
    field_simp
  have s3 : ∑ m, qs m * x m * ((∑ k, taus k m * dphis qs (phis qs x) (sumInv qs x) k i)
        / thetaTaus taus (phis qs x) m)
      = qs i * (∑ j, taus i j * (phis qs x j / thetaTaus taus (phis qs x) j))
        - ∑ m, qs i * phis qs x m * (thetaTaus taus (phis qs x) m / thetaTaus taus (phis qs x) m) := by
    rw [mul_sum, ← sum_sub_distrib]
    refine sum_congr rfl fun m _ => ?_
    have h2 : ∑ k, taus k m * dphis qs (phis qs x) (sumInv qs x) k i
        = sumInv qs x * qs i * (taus i m - thetaTaus taus (phis qs x) m) := by
      simp only [dphis, mul_add, mul_ite, mul_zero, sum_add_distrib, sum_ite_eq', mem_univ, if_true,
        thetaTaus, mul_sub, mul_sum]
      rw [add_comm, sub_eq_add_neg, ← sum_neg_distrib]
      congr 1
      · ring
      · exact sum_congr rfl fun k _ => by ring
    rw [h2]
    simp only [phis]
    ring
  simp only [clean1, s1, s2, s3]
  have hp' : ∀ i, rs i * x i * (1 / ∑ i, rs i * x i) = phis rs x i := fun i => rfl
  have hq' : ∀ i, qs i * x i * (1 / ∑ i, qs i * x i) = phis qs x i := fun i => rfl
  have hS' : ∀ i, ∑ j, phis qs x j * taus j i = thetaTaus taus (phis qs x) i := fun i => rfl
  simp only [hp', hq', hS']
  have hone : ∑ m, qs i * phis qs x m * (thetaTaus taus (phis qs x) m / thetaTaus taus (phis qs x) m)
      = qs i := by
    have : ∀ m, qs i * phis qs x m * (thetaTaus taus (phis qs x) m / thetaTaus taus (phis qs x) m)
        = qs i * phis qs x m := fun m => by rw [div_self (S_pos hq ht hx m).ne', mul_one]
    simp only [this, ← mul_sum]
    have h1 : ∑ m, phis qs x m = 1 := by
      simp only [phis, ← sum_mul, sumInv]
      field_simp
    rw [h1, mul_one]
  have hl : log (phis qs x i / phis rs x i) = -log (phis rs x i / phis qs x i) := by
    rw [← log_inv, inv_div]
  rw [hone, hl]
  ring

/-! ## C26: derivatives with respect to amounts -/

theorem d2phis_eq (x rs : Fin N → ℝ) (s : ℝ) (i j m : Fin N) : d2phis x rs s i j m
    = 2 * (rs i * rs j) * rs m * x m * s ^ 3 - ((if m = i then rs i * rs j * s ^ 2 else 0)
      + if m = j then rs i * rs j * s ^ 2 else 0) := by
  simp only [d2phis]
  by_cases hmi : m = i
  · subst hmi
    by_cases hmk : m = j
    · subst hmk
      simp
      ring
    · have hkm : ¬ j = m := fun e => hmk e.symm
      simp [hmk, hkm]
      ring
  · by_cases hmk : m = j
    · subst hmk
      simp [hmi]
      ring
    · simp [hmi, hmk]
      ring

theorem d2phis_symm (x rs : Fin N → ℝ) (s : ℝ) (i j m : Fin N) : d2phis x rs s i j m = d2phis x rs s j i m := by
  rw [d2phis_eq, d2phis_eq, mul_comm (rs i), add_comm]

theorem clean2_symm {z : ℝ} {q x p th S : Fin N → ℝ} {dp dth dS : Mat N} {d2p d2th d2S : Fin N → Mat N}
    (h1 : ∀ i j m, d2p i j m = d2p j i m) (h2 : ∀ i j m, d2th i j m = d2th j i m)
    (h3 : ∀ i j m, d2S i j m = d2S j i m) (i j : Fin N) :
    clean2 z q x p th S dp dth dS d2p d2th d2S i j = clean2 z q x p th S dp dth dS d2p d2th d2S j i := by
  simp only [clean2]
  have e1 : ∑ m, x m * (d2p i j m / p m - dp m i * dp m j / p m ^ 2)
      = ∑ m, x m * (d2p j i m / p m - dp m j * dp m i / p m ^ 2) :=
    sum_congr rfl fun m _ => by rw [h1, mul_comm (dp m i)]
  have e2 : ∑ m, q m * x m * (d2th i j m / th m - dth m i * dth m j / th m ^ 2
        - (d2p i j m / p m - dp m i * dp m j / p m ^ 2))
      = ∑ m, q m * x m * (d2th j i m / th m - dth m j * dth m i / th m ^ 2
        - (d2p j i m / p m - dp m j * dp m i / p m ^ 2)) :=
    sum_congr rfl fun m _ => by rw [h1, h2, mul_comm (dp m i), mul_comm (dth m i)]
  have e3 : ∑ m, q m * x m * (d2S i j m / S m - dS m i * dS m j / S m ^ 2)
      = ∑ m, q m * x m * (d2S j i m / S m - dS m j * dS m i / S m ^ 2) :=
    sum_congr rfl fun m _ => by rw [h3, mul_comm (dS m i)]
  have e4 : (if i = j then 1 / x i else 0) = if j = i then 1 / x j else 0 := by
    by_cases h : i = j
    · subst h; rfl
    · have h' : ¬ j = i := fun e => h e.symm
      simp only [h, h', if_false]
  rw [e1, e2, e3, e4]
  ring

/-- The weighted row sums of the Hessian are all `−1` (times `RT`), by Euler's theorem. -/
theorem clean2_row {z : ℝ} {q x p th S : Fin N → ℝ} {dp dth dS : Mat N} {d2p d2th d2S : Fin N → Mat N}
    (i : Fin N) (hx : x i ≠ 0)
    (a1 : ∀ m, ∑ j, x j * dp m j = 0) (a2 : ∀ m, ∑ j, x j * dth m j = 0) (a3 : ∀ m, ∑ j, x j * dS m j = 0)
    (b1 : ∀ m, ∑ j, x j * d2p i j m = -dp m i) (b2 : ∀ m, ∑ j, x j * d2th i j m = -dth m i)
    (b3 : ∀ m, ∑ j, x j * d2S i j m = -dS m i) :
    ∑ j, x j * clean2 z q x p th S dp dth dS d2p d2th d2S i j = -1 := by
  -- the sum over `j` of a weighted second-derivative bracket
  have key : ∀ (w P : Fin N → ℝ) (D : Mat N) (D2 : Fin N → Mat N), (∀ m, ∑ j, x j * D m j = 0) →
      (∀ m, ∑ j, x j * D2 i j m = -D m i) →
      ∑ j, x j * ∑ m, w m * (D2 i j m / P m - D m i * D m j / P m ^ 2) = -∑ m, w m * (D m i / P m) := by
    intro w P D D2 h1 h2
    have : ∀ j, x j * ∑ m, w m * (D2 i j m / P m - D m i * D m j / P m ^ 2)
        = ∑ m, (w m / P m * (x j * D2 i j m) - w m * D m i / P m ^ 2 * (x j * D m j)) := by
      intro j; rw [mul_sum]; exact sum_congr rfl fun m _ => by ring
    simp only [this]
    rw [sum_comm]
    simp only [sum_sub_distrib, ← mul_sum, h1, h2, mul_zero, sub_zero]
    rw [← sum_neg_distrib]
    exact sum_congr rfl fun m _ => by ring
  have k1 := key x p dp d2p a1 b1
  have k1q := key (fun m => q m * x m) p dp d2p a1 b1
  have k2 := key (fun m => q m * x m) th dth d2th a2 b2
  have k3 := key (fun m => q m * x m) S dS d2S a3 b3
  have e : ∀ j, x j * clean2 z q x p th S dp dth dS d2p d2th d2S i j
      = 1 / p i * (x j * dp i j) - (if i = j then x j * (1 / x i) else 0) + x j * (dp j i / p j)
        + x j * (∑ m, x m * (d2p i j m / p m - dp m i * dp m j / p m ^ 2))
        + z / 2 * (q i / th i * (x j * dth i j) - q i / p i * (x j * dp i j)
          + (q j * x j * (dth j i / th j) - q j * x j * (dp j i / p j)
            + (x j * (∑ m, q m * x m * (d2th i j m / th m - dth m i * dth m j / th m ^ 2))
              - x j * (∑ m, q m * x m * (d2p i j m / p m - dp m i * dp m j / p m ^ 2)))))
        - (q i / S i * (x j * dS i j) + (q j * x j * (dS j i / S j)
          + x j * (∑ m, q m * x m * (d2S i j m / S m - dS m i * dS m j / S m ^ 2)))) := by
    intro j
    simp only [clean2]
    have g : ∑ m, q m * x m * (d2th i j m / th m - dth m i * dth m j / th m ^ 2
          - (d2p i j m / p m - dp m i * dp m j / p m ^ 2))
        = (∑ m, q m * x m * (d2th i j m / th m - dth m i * dth m j / th m ^ 2))
          - ∑ m, q m * x m * (d2p i j m / p m - dp m i * dp m j / p m ^ 2) := by
      rw [← sum_sub_distrib]; exact sum_congr rfl fun m _ => by ring
    rw [g, show (if i = j then x j * (1 / x i) else 0) = x j * if i = j then 1 / x i else 0 by
      rw [mul_ite, mul_zero]]
    ring
  simp only [e, sum_add_distrib, sum_sub_distrib, ← mul_sum, a1, a2, a3, k1, k1q, k2, k3, sum_ite_eq,
    mem_univ, if_true]
  field_simp
  ring

theorem diff_sumInv (h : ∑ i, rs i * x i ≠ 0) : DifferentiableAt ℝ (fun x => sumInv rs x) x := by
  have h1 : DifferentiableAt ℝ (fun x : Fin N → ℝ => ∑ i, rs i * x i) x := by fun_prop
  simp only [sumInv, one_div]
  exact DifferentiableAt.comp x (g := fun y : ℝ => y⁻¹) (differentiableAt_inv h) h1

theorem diff_phis (h : ∑ i, rs i * x i ≠ 0) (i : Fin N) : DifferentiableAt ℝ (fun x => phis rs x i) x := by
  have := diff_sumInv h
  unfold phis
  fun_prop

theorem diff_dphis (h : ∑ i, rs i * x i ≠ 0) (i j : Fin N) :
    DifferentiableAt ℝ (fun x => dphis rs (phis rs x) (sumInv rs x) i j) x := by
  have h1 := diff_sumInv h
  have h2 := diff_phis h i
  unfold dphis
  by_cases hij : i = j
  · simp only [hij, if_true] at *; fun_prop
  · simp only [hij, if_false]; fun_prop

theorem diff_inv {f : (Fin N → ℝ) → ℝ} (hf : DifferentiableAt ℝ f x) (h : f x ≠ 0) :
    DifferentiableAt ℝ (fun x => (f x)⁻¹) x :=
  DifferentiableAt.comp x (g := fun y : ℝ => y⁻¹) (differentiableAt_inv h) hf

theorem diff_S (h : ∑ i, qs i * x i ≠ 0) (i : Fin N) :
    DifferentiableAt ℝ (fun x => thetaTaus taus (phis qs x) i) x := by
  have := diff_phis h
  unfold thetaTaus
  fun_prop

theorem diff_logs (hr : ∀ i, 0 < rs i) (hq : ∀ i, 0 < qs i) (ht : ∀ i j, 0 < taus i j) (hx : ∀ i, 0 < x i) :
    (∀ i, DifferentiableAt ℝ (fun x => log (phis rs x i / x i)) x) ∧
    (∀ i, DifferentiableAt ℝ (fun x => log (phis qs x i / phis rs x i)) x) ∧
    (∀ i, DifferentiableAt ℝ (fun x => log (thetaTaus taus (phis qs x) i)) x) := by
  refine ⟨fun i => ?_, fun i => ?_, fun i => ?_⟩
  · have h1 := diff_phis (sum_pos' hr hx i).ne' i
    have h2 := diff_inv (f := fun x : Fin N → ℝ => x i) (x := x) (by fun_prop) (hx i).ne'
    refine DifferentiableAt.log (f := fun x : Fin N → ℝ => phis rs x i / x i) (x := x) ?_
      (div_pos (phis_pos hr hx i) (hx i)).ne'
    simp only [div_eq_mul_inv]
    fun_prop
  · have h1 := diff_phis (sum_pos' hr hx i).ne' i
    have h2 := diff_inv h1 (phis_pos hr hx i).ne'
    have h3 := diff_phis (sum_pos' hq hx i).ne' i
    refine DifferentiableAt.log (f := fun x : Fin N → ℝ => phis qs x i / phis rs x i) (x := x) ?_
      (div_pos (phis_pos hq hx i) (phis_pos hr hx i)).ne'
    simp only [div_eq_mul_inv]
    fun_prop
  · exact DifferentiableAt.log (f := fun x : Fin N → ℝ => thetaTaus taus (phis qs x) i) (x := x)
      (diff_S (sum_pos' hq hx i).ne' i) (S_pos hq ht hx i).ne'

theorem diff_spec (hr : ∀ i, 0 < rs i) (hq : ∀ i, 0 < qs i) (ht : ∀ i j, 0 < taus i j) (hx : ∀ i, 0 < x i) :
    DifferentiableAt ℝ (spec R T z rs qs taus) x := by
  obtain ⟨h1, h2, h3⟩ := diff_logs hr hq ht hx
  have e : spec R T z rs qs taus = fun x => R * T * ((∑ m, x m * log (phis rs x m / x m))
      + z / 2 * (∑ m, qs m * x m * log (phis qs x m / phis rs x m))
      - ∑ m, qs m * x m * log (thetaTaus taus (phis qs x) m)) := by
    funext x
    simp only [spec, thetaTaus, phis_eq]
  rw [e]
  fun_prop

theorem diff_dGE (hr : ∀ i, 0 < rs i) (hq : ∀ i, 0 < qs i) (ht : ∀ i j, 0 < taus i j) (hx : ∀ i, 0 < x i)
    (i : Fin N) : DifferentiableAt ℝ (fun x => dGE R T rs qs taus x i) x := by
  obtain ⟨h1, h2, h3⟩ := diff_logs hr hq ht hx
  have hsr := (sum_pos' hr hx i).ne'
  have hsq := (sum_pos' hq hx i).ne'
  have h4 := fun m => diff_inv (diff_phis hsr m) (phis_pos hr hx m).ne'
  have h5 := fun m => diff_inv (diff_phis hsq m) (phis_pos hq hx m).ne'
  have h6 := fun m => diff_inv (diff_S (taus := taus) hsq m) (S_pos hq ht hx m).ne'
  have h7 := diff_dphis hsr
  have h8 := diff_dphis hsq
  have hc : DifferentiableAt ℝ (fun x => R * T * clean1 10 qs x (phis rs x) (phis qs x)
      (thetaTaus taus (phis qs x)) (dphis rs (phis rs x) (sumInv rs x)) (dphis qs (phis qs x) (sumInv qs x))
      (fun m i => ∑ k, taus k m * dphis qs (phis qs x) (sumInv qs x) k i) i) x := by
    simp only [clean1]
    simp only [div_eq_mul_inv] at *
    fun_prop
  refine hc.congr_of_eventuallyEq ?_
  filter_upwards [isOpen_pos.mem_nhds hx] with y hy
  exact dGE_clean hr hq hy i

/-- **C26.** The activity coefficients of UNIQUAC are the mole-number derivatives of the extensive excess
Gibbs energy, for any positive amounts. -/
theorem C26_uniquac_partial_molar {n : Fin N → ℝ} (hR : R ≠ 0) (hT : T ≠ 0) (hr : ∀ i, 0 < rs i)
    (hq : ∀ i, 0 < qs i) (ht : ∀ i j, 0 < taus i j) (hn : ∀ i, 0 < n i) (i : Fin N) :
    PD (extensive (spec R T 10 rs qs taus)) i n
      (R * T * log (gammasFromArgs R T 10 (fun i => n i / ∑ i, n i) rs qs taus i)) := by
  have hs : 0 < ∑ i, n i := sum_pos (fun k _ => hn k) ⟨i, mem_univ i⟩
  have hx : ∀ i, 0 < n i / ∑ i, n i := fun i => div_pos (hn i) hs
  obtain ⟨d, hd, _, hg⟩ := C23_gammas (R := R) (T := T) (GE := spec R T 10 rs qs taus) hs.ne'
    (diff_spec hr hq ht hx) (fun j => C26_uniquac_dGE_dxs hr hq ht hx j) i
  refine hd.congr_d ?_
  have h0 : gammasFromArgs R T 10 (fun i => n i / ∑ i, n i) rs qs taus i
      = gammas R T (spec R T 10 rs qs taus (fun i => n i / ∑ i, n i)) (fun i => n i / ∑ i, n i)
        (dGE R T rs qs taus (fun i => n i / ∑ i, n i)) i := by
    rw [← GE_eq]; rfl
  rw [h0]
  have hg' : gammas R T (spec R T 10 rs qs taus (fun i => n i / ∑ i, n i)) (fun i => n i / ∑ i, n i)
        (dGE R T rs qs taus (fun i => n i / ∑ i, n i)) i = exp (d / (R * T)) := hg
  rw [hg', log_exp]
  field_simp

/-- **C26.** For UNIQUAC the mole-number derivatives of the activity coefficients (`dgammas_dns`) are
exact. -/
theorem C26_uniquac_dgammas_dns (hR : R ≠ 0) (hT : T ≠ 0) (hr : ∀ i, 0 < rs i) (hq : ∀ i, 0 < qs i)
    (ht : ∀ i j, 0 < taus i j) (hx : ∀ i, 0 < x i) (hsum : ∑ i, x i = 1) (i j : Fin N) :
    PD (fun n => gammas R T (spec R T 10 rs qs taus fun i => n i / ∑ i, n i) (fun i => n i / ∑ i, n i)
        (fun k => dGE R T rs qs taus (fun i => n i / ∑ i, n i) k) i) j x
      (dgammas_dns R T x (gammas R T (spec R T 10 rs qs taus x) x (dGE R T rs qs taus x))
        (d2GE R T rs qs taus x) i j) := by
  have hc : ∀ i j, d2GE R T rs qs taus x i j = _ := fun i j =>
    d2GE_clean _ _ _ _ _ _ _ (fun i => (hx i).ne') (fun i => (phis_pos hr hx i).ne')
    (fun i => (phis_pos hq hx i).ne') (fun i => (S_pos hq ht hx i).ne') i j
  refine C23_dgammas_dns_partial (GE := spec R T 10 rs qs taus) (g := fun k x => dGE R T rs qs taus x k)
    (h := d2GE R T rs qs taus x) hR hT hsum (diff_spec hr hq ht hx) (diff_dGE hr hq ht hx)
    (fun j => C26_uniquac_dGE_dxs hr hq ht hx j) (fun i j => C26_uniquac_d2GE_dxixjs hr hq ht hx i j)
    ?_ ?_ i j
  · intro i j
    rw [hc, hc]
    congr 1
    exact clean2_symm (d2phis_symm x rs _) (d2phis_symm x qs _)
      (fun i j m => sum_congr rfl fun k _ => by rw [d2phis_symm]) i j
  · have hz : ∀ i, ∑ k, x k * d2GE R T rs qs taus x i k = R * T * -1 := by
      intro i
      have hsr := (sum_pos' hr hx i).ne'
      have hsq := (sum_pos' hq hx i).ne'
      simp only [hc]
      have : ∀ k (c : ℝ), x k * (R * T * c) = R * T * (x k * c) := by intro k c; ring
      simp only [this, ← mul_sum]
      congr 1
      refine clean2_row i (hx i).ne' (sum_x_dphis hsr) (sum_x_dphis hsq) (fun m => ?_)
        (fun m => sum_x_d2phis hsr m i) (fun m => sum_x_d2phis hsq m i) (fun m => ?_)
      · have : ∀ j, x j * ∑ k, taus k m * dphis qs (phis qs x) (sumInv qs x) k j
            = ∑ k, taus k m * (x j * dphis qs (phis qs x) (sumInv qs x) k j) := by
          intro j; rw [mul_sum]; exact sum_congr rfl fun k _ => by ring
        simp only [this]
        rw [sum_comm]
        simp only [← mul_sum, sum_x_dphis hsq, mul_zero, sum_const_zero]
      · have : ∀ j, x j * ∑ k, taus k m * d2phis x qs (sumInv qs x) i j k
            = ∑ k, taus k m * (x j * d2phis x qs (sumInv qs x) i j k) := by
          intro j; rw [mul_sum]; exact sum_congr rfl fun k _ => by ring
        simp only [this]
        rw [sum_comm]
        simp only [← mul_sum, sum_x_d2phis hsq, mul_neg, sum_neg_distrib]
    intro i j
    rw [hz, hz]

end Composition

/-! ## C26: temperature derivatives -/

section Temperature

variable {R : ℝ} {rs qs x : Fin N → ℝ} {t t1 t2 t3 : ℝ → Mat N}

/-- **C26.** Temperature derivatives of the UNIQUAC excess Gibbs energy, for any interaction parameters
with derivatives (`C21_derivatives` provides those of the code), and the mixed derivative. -/
theorem C26_uniquac_temperature (hR : R ≠ 0)
    (hr : ∀ i, 0 < rs i) (hq : ∀ i, 0 < qs i) (hx : ∀ i, 0 < x i)
    (hpos : ∀ T, 0 < T → ∀ i j, 0 < t T i j)
    (h1 : ∀ T, 0 < T → ∀ i j, HasDerivAt (fun T => t T i j) (t1 T i j) T)
    (h2 : ∀ T, 0 < T → ∀ i j, HasDerivAt (fun T => t1 T i j) (t2 T i j) T)
    (h3 : ∀ T, 0 < T → ∀ i j, HasDerivAt (fun T => t2 T i j) (t3 T i j) T) {T : ℝ} (hT : 0 < T) :
    let th := phis qs x
    let p := phis rs x
    let S := fun T => thetaTaus (t T) th
    let S1 := fun T => thetaTaus (t1 T) th
    let S2 := fun T => thetaTaus (t2 T) th
    let S3 := fun T => thetaTaus (t3 T) th
    let G := fun T => GE R T 10 x qs p th (S T)
    let G1 := fun T => dGE_dT R T (G T) x qs (S T) (S1 T)
    let G2 := fun T => d2GE_dT2 R T (G T) (G1 T) x qs (S T) (S1 T) (S2 T)
    HasDerivAt (fun T => spec R T 10 rs qs (t T) x) (G1 T) T ∧
    HasDerivAt G1 (G2 T) T ∧
    HasDerivAt G2 (d3GE_dT3 R T x qs (S T) (S1 T) (S2 T) (S3 T)) T ∧
    ∀ i, HasDerivAt (fun T => dGE R T rs qs (t T) x i)
      (d2GE_dTdxs R T x qs (t T) p (inv p) (dphis rs p (sumInv rs x)) th (dphis qs th (sumInv qs x)) (t1 T)
        (S T) (inv (S T)) (S1 T) i) T := by
  intro th p S S1 S2 S3 G G1 G2
  have d1 : ∀ T, 0 < T → ∀ i, HasDerivAt (fun T => S T i) (S1 T i) T := fun T hT i =>
    HasDerivAt.fun_sum fun j _ => (h1 T hT j i).const_mul (th j)
  have d2 : ∀ T, 0 < T → ∀ i, HasDerivAt (fun T => S1 T i) (S2 T i) T := fun T hT i =>
    HasDerivAt.fun_sum fun j _ => (h2 T hT j i).const_mul (th j)
  have d3 : ∀ T, 0 < T → ∀ i, HasDerivAt (fun T => S2 T i) (S3 T i) T := fun T hT i =>
    HasDerivAt.fun_sum fun j _ => (h3 T hT j i).const_mul (th j)
  have hS : ∀ T, 0 < T → ∀ i, S T i ≠ 0 := fun T hT i => (S_pos hq (hpos T hT) hx i).ne'
  -- quotients and their derivatives
  have dL : ∀ T, 0 < T → ∀ i, HasDerivAt (fun T => log (S T i)) (S1 T i / S T i) T := fun T hT i =>
    (d1 T hT i).log (hS T hT i)
  have dQ1 : ∀ T, 0 < T → ∀ i, HasDerivAt (fun T => S1 T i / S T i)
      (S2 T i / S T i - S1 T i ^ 2 / S T i ^ 2) T := by
    intro T hT i
    have h0 := hS T hT i
    refine HasDerivAt.congr_deriv ((d2 T hT i).fun_div (d1 T hT i) h0) ?_
    field_simp
  have dQ2 : ∀ T, 0 < T → ∀ i, HasDerivAt (fun T => S2 T i / S T i - S1 T i ^ 2 / S T i ^ 2)
      (S3 T i / S T i - 3 * (S1 T i * S2 T i / S T i ^ 2) + 2 * (S1 T i ^ 3 / S T i ^ 3)) T := by
    intro T hT i
    have h0 := hS T hT i
    refine HasDerivAt.congr_deriv (((d3 T hT i).fun_div (d1 T hT i) h0).sub
      (((d2 T hT i).fun_pow 2).fun_div ((d1 T hT i).fun_pow 2) (pow_ne_zero 2 h0))) ?_
    field_simp
    ring
  let C := ∑ i, (x i * log (p i / x i) + 1 / 2 * 10 * qs i * x i * log (th i / p i))
  have eG : ∀ T, G T = (C - ∑ i, qs i * x i * log (S T i)) * (R * T) := by
    intro T
    simp only [G, GE, C, ← sum_sub_distrib]
  have dG : ∀ T, 0 < T → HasDerivAt G (G1 T) T := by
    intro T hT
    have hT' := hT.ne'
    have e : G = fun T => (C - ∑ i, qs i * x i * log (S T i)) * (R * T) := funext eG
    have hd := ((HasDerivAt.fun_sum (u := univ) fun i _ => (dL T hT i).const_mul (qs i * x i)).const_sub C).mul
      ((hasDerivAt_id T).const_mul R)
    rw [e]
    refine HasDerivAt.congr_deriv hd ?_
    simp only [G1, dGE_dT, eG, id]
    have : ∑ i, -(qs i * x i * S1 T i / S T i) = -∑ i, qs i * x i * (S1 T i / S T i) := by
      rw [← sum_neg_distrib]; exact sum_congr rfl fun i _ => by ring
    rw [this]
    field_simp
    ring
  -- explicit first and second derivative
  have eG1 : ∀ T, 0 < T → G1 T = R * (C - ∑ i, qs i * x i * log (S T i))
      - R * T * ∑ i, qs i * x i * (S1 T i / S T i) := by
    intro T hT
    have hT' := hT.ne'
    simp only [G1, dGE_dT, eG]
    have : ∑ i, -(qs i * x i * S1 T i / S T i) = -∑ i, qs i * x i * (S1 T i / S T i) := by
      rw [← sum_neg_distrib]; exact sum_congr rfl fun i _ => by ring
    rw [this]
    field_simp
    ring
  have eG2 : ∀ T, 0 < T → G2 T = -(2 * R) * (∑ i, qs i * x i * (S1 T i / S T i))
      - R * T * ∑ i, qs i * x i * (S2 T i / S T i - S1 T i ^ 2 / S T i ^ 2) := by
    intro T hT
    have hT' := hT.ne'
    simp only [G2, d2GE_dT2]
    rw [eG1 T hT, eG T]
    have : ∑ i, (qs i * x i * S2 T i / S T i - qs i * x i * S1 T i ^ 2 / S T i ^ 2)
        = ∑ i, qs i * x i * (S2 T i / S T i - S1 T i ^ 2 / S T i ^ 2) :=
      sum_congr rfl fun i _ => by ring
    rw [this]
    field_simp
    ring
  refine ⟨?_, ?_, ?_, ?_⟩
  · have : (fun T => spec R T 10 rs qs (t T) x) = G := by
      funext T; rw [← GE_eq]
    rw [this]
    exact dG T hT
  · have hd := (((HasDerivAt.fun_sum (u := univ) fun i _ =>
      (dL T hT i).const_mul (qs i * x i)).const_sub C).const_mul R).sub
      (((hasDerivAt_id T).const_mul R).mul (HasDerivAt.fun_sum (u := univ) fun i _ =>
        (dQ1 T hT i).const_mul (qs i * x i)))
    refine HasDerivAt.congr_deriv (hd.congr_of_eventuallyEq ?_) ?_
    · filter_upwards [isOpen_lt continuous_const continuous_id |>.mem_nhds hT] with T' hT'
      exact eG1 T' hT'
    · rw [eG2 T hT]
      simp only [id]
      ring
  · have hd := ((HasDerivAt.fun_sum (u := univ) fun i _ =>
        (dQ1 T hT i).const_mul (qs i * x i)).const_mul (-(2 * R))).sub
      (((hasDerivAt_id T).const_mul R).mul (HasDerivAt.fun_sum (u := univ) fun i _ =>
        (dQ2 T hT i).const_mul (qs i * x i)))
    refine HasDerivAt.congr_deriv (hd.congr_of_eventuallyEq ?_) ?_
    · filter_upwards [isOpen_lt continuous_const continuous_id |>.mem_nhds hT] with T' hT'
      exact eG2 T' hT'
    · simp only [id, d3GE_dT3]
      have s1 : ∑ i, (qs i * x i * S3 T i / S T i - 3 * qs i * x i * S1 T i * S2 T i / S T i ^ 2
          + 2 * qs i * x i * S1 T i ^ 3 / S T i ^ 3) = ∑ i, qs i * x i
          * (S3 T i / S T i - 3 * (S1 T i * S2 T i / S T i ^ 2) + 2 * (S1 T i ^ 3 / S T i ^ 3)) :=
        sum_congr rfl fun i _ => by ring
      have s2 : ∑ i, (3 * qs i * x i * S2 T i / S T i - 3 * qs i * x i * S1 T i ^ 2 / S T i ^ 2)
          = 3 * ∑ i, qs i * x i * (S2 T i / S T i - S1 T i ^ 2 / S T i ^ 2) := by
        rw [mul_sum]; exact sum_congr rfl fun i _ => by ring
      rw [s1, s2]
      ring
  · intro i
    have hxi := (hx i).ne'
    have hpi : p i ≠ 0 := (phis_pos hr hx i).ne'
    -- the temperature dependence of the gradient
    let K := log (p i / x i) - 1 + ∑ m, x m * (dphis rs p (sumInv rs x) m i / p m)
      + 10 / 2 * (qs i * log (th i / p i) + ∑ m, qs m * x m * (dphis qs th (sumInv qs x) m i / th m
        - dphis rs p (sumInv rs x) m i / p m))
    have dB : ∀ m, HasDerivAt (fun T => ∑ k, t T k m * dphis qs th (sumInv qs x) k i)
        (∑ k, t1 T k m * dphis qs th (sumInv qs x) k i) T := fun m =>
      HasDerivAt.fun_sum fun k _ => (h1 T hT k m).mul_const _
    have dBS : ∀ m, HasDerivAt (fun T => (∑ k, t T k m * dphis qs th (sumInv qs x) k i) / S T m)
        ((∑ k, t1 T k m * dphis qs th (sumInv qs x) k i) / S T m
          - (∑ k, t T k m * dphis qs th (sumInv qs x) k i) * S1 T m / S T m ^ 2) T := by
      intro m
      have h0 := hS T hT m
      refine HasDerivAt.congr_deriv ((dB m).fun_div (d1 T hT m) h0) ?_
      field_simp
    have e : (fun T => dGE R T rs qs (t T) x i) = fun T => R * T * (K - (qs i * log (S T i)
        + ∑ m, qs m * x m * ((∑ k, t T k m * dphis qs th (sumInv qs x) k i) / S T m))) := by
      funext T
      rw [dGE_clean hr hq hx]
      rfl
    rw [e]
    have hd := ((hasDerivAt_id T).const_mul R).mul ((((dL T hT i).const_mul (qs i)).add
      (HasDerivAt.fun_sum (u := univ) fun m _ => (dBS m).const_mul (qs m * x m))).const_sub K)
    refine HasDerivAt.congr_deriv hd ?_
    simp only [id, Pi.add_apply, d2GE_dTdxs, inv, K]
    have u1 : ∑ j, (∑ k, t1 T k j * dphis qs th (sumInv qs x) k i) * (qs j * x j * (1 / S T j))
        - ∑ j, (∑ k, t T k j * dphis qs th (sumInv qs x) k i) * (qs j * x j * (1 / S T j) * S1 T j * (1 / S T j))
        = ∑ m, qs m * x m * ((∑ k, t1 T k m * dphis qs th (sumInv qs x) k i) / S T m
          - (∑ k, t T k m * dphis qs th (sumInv qs x) k i) * S1 T m / S T m ^ 2) := by
      rw [← sum_sub_distrib]; exact sum_congr rfl fun m _ => by ring
    have u2 : ∑ j, (∑ k, t T k j * dphis qs th (sumInv qs x) k i) * (qs j * x j * (1 / S T j))
        = ∑ m, qs m * x m * ((∑ k, t T k m * dphis qs th (sumInv qs x) k i) / S T m) :=
      sum_congr rfl fun m _ => by ring
    have u3 : ∑ j, (qs j * x j / th j * dphis qs th (sumInv qs x) j i
          + -th j * (1 / p j) * (qs j * x j / th j) * dphis rs p (sumInv rs x) j i)
        = ∑ m, qs m * x m * (dphis qs th (sumInv qs x) m i / th m - dphis rs p (sumInv rs x) m i / p m) := by
      refine sum_congr rfl fun m _ => ?_
      have : th m ≠ 0 := (phis_pos hq hx m).ne'
      have : p m ≠ 0 := (phis_pos hr hx m).ne'
      field_simp
      ring
    have u4 : ∑ j, x j * (1 / p j) * dphis rs p (sumInv rs x) j i
        = ∑ m, x m * (dphis rs p (sumInv rs x) m i / p m) := sum_congr rfl fun m _ => by ring
    rw [u3, u4, u2]
    have u5 : x i * (1 / p i) * (dphis rs p (sumInv rs x) i i - p i / x i)
        = x i * (1 / p i) * dphis rs p (sumInv rs x) i i - 1 := by field_simp
    rw [u5, show th i * (1 / p i) = th i / p i by ring, ← u1]
    ring

end Temperature

/-! ## C26: the binary function -/

/-- Rational part of the exponents of the binary function. -/
theorem binary_rational {x u q1 q2 r1 t12 t21 Sq Sr W1 W2 : ℝ} (hu : x + u = 1) (hSq : Sq = q1 * x + q2 * u)
    (hSr : Sr ≠ 0) (hW1 : W1 = q1 * x + t21 * (q2 * u)) (hW2 : W2 = t12 * (q1 * x) + q2 * u)
    (h1 : Sq ≠ 0) (h2 : W1 ≠ 0) (h3 : W2 ≠ 0) :
    q1 ^ 2 * x * (1 / W1) * (1 / Sq * Sq) * (t21 * (q2 * u * (1 / Sq)) + q1 * x * (1 / Sq) - 1)
      + q1 * (q2 * u) * (1 / Sq * Sq / W2) * (-t12 * (1 - q1 * x * (1 / Sq)) + q2 * u * (1 / Sq))
      - r1 * (1 / Sr) * u - Sr / Sr ^ 2 * (r1 * x)
      - 1 / Sq * Sq * (5 * (1 / Sr)) * (q2 * u) * (-r1 + q1 * (Sr * (1 / Sq)))
      - q1 * (Sr * (1 / Sq)) * (5 * (1 / Sr) * Sq) * (q1 * x * (1 / Sq) - 1 / Sr * (r1 * x))
    = q1 - q1 ^ 2 * x / W1 - q1 * (q2 * u) * t12 / W2 - r1 / Sr + 5 * (r1 * Sq / Sr) - 5 * q1 := by
  have e1 : t21 * (q2 * u * (1 / Sq)) + q1 * x * (1 / Sq) = W1 / Sq := by rw [hW1]; ring
  have e2 : -t12 * (1 - q1 * x * (1 / Sq)) + q2 * u * (1 / Sq) = W2 / Sq - t12 := by rw [hW2]; ring
  rw [e1, e2]
  have e3 : Sr / Sr ^ 2 = 1 / Sr := by field_simp
  have e4 : 1 / Sq * Sq = 1 := by field_simp
  rw [e3, e4]
  have e5 : q1 ^ 2 * x * (1 / W1) * 1 * (W1 / Sq - 1) = q1 * (q1 * x / Sq) - q1 ^ 2 * x / W1 := by
    field_simp
  have e6 : q1 * (q2 * u) * (1 / W2) * (W2 / Sq - t12) = q1 * (q2 * u / Sq) - q1 * (q2 * u) * t12 / W2 := by
    field_simp
  have e7 : 1 * (5 * (1 / Sr)) * (q2 * u) * (-r1 + q1 * (Sr * (1 / Sq)))
      = -5 * (r1 * (q2 * u) / Sr) + 5 * q1 * (q2 * u / Sq) := by
    field_simp
  have e8 : q1 * (Sr * (1 / Sq)) * (5 * (1 / Sr) * Sq) * (q1 * x * (1 / Sq) - 1 / Sr * (r1 * x))
      = 5 * q1 * (q1 * x / Sq) - 5 * (r1 * (q1 * x) / Sr) := by
    field_simp
  have e9 : q1 * x / Sq + q2 * u / Sq = 1 := by rw [← add_div, ← hSq]; field_simp
  rw [e5, e6, e7, e8]
  have e10 : 5 * (r1 * (q1 * x) / Sr) + 5 * (r1 * (q2 * u) / Sr) = 5 * (r1 * Sq / Sr) := by rw [hSq]; ring
  linear_combination (q1 - 5 * q1) * e9 + e10 - r1 / Sr * hu

/-- **C26.** The generated two-component function is the general formula. -/
theorem C26_uniquac_binary {x1 r1 r2 q1 q2 tau12 tau21 : ℝ} (hx0 : 0 < x1) (hx1 : x1 < 1) (hr1 : 0 < r1)
    (hr2 : 0 < r2) (hq1 : 0 < q1) (hq2 : 0 < q2) (ht12 : 0 < tau12) (ht21 : 0 < tau21) :
    let g := UNIQUACgammas ![x1, 1 - x1] ![r1, r2] ![q1, q2] (fun i j => ![![1, tau12], ![tau21, 1]] i j)
    binary x1 r1 r2 q1 q2 tau12 tau21 = (g 0, g 1) := by
  intro g
  obtain ⟨u, hu⟩ : ∃ u, u = 1 - x1 := ⟨_, rfl⟩
  have hu0 : 0 < u := by linarith
  have hxu : x1 + u = 1 := by linarith
  obtain ⟨Sq, hSq⟩ : ∃ Sq, Sq = q1 * x1 + q2 * u := ⟨_, rfl⟩
  obtain ⟨Sr, hSr⟩ : ∃ Sr, Sr = r1 * x1 + r2 * u := ⟨_, rfl⟩
  obtain ⟨W1, hW1⟩ : ∃ W1, W1 = q1 * x1 + tau21 * (q2 * u) := ⟨_, rfl⟩
  obtain ⟨W2, hW2⟩ : ∃ W2, W2 = tau12 * (q1 * x1) + q2 * u := ⟨_, rfl⟩
  have pSq : 0 < Sq := by rw [hSq]; positivity
  have pSr : 0 < Sr := by rw [hSr]; positivity
  have pW1 : 0 < W1 := by rw [hW1]; positivity
  have pW2 : 0 < W2 := by rw [hW2]; positivity
  have R1 := binary_rational (r1 := r1) hxu hSq pSr.ne' hW1 hW2 pSq.ne' pW1.ne' pW2.ne'
  have R2 := binary_rational (x := u) (u := x1) (q1 := q2) (q2 := q1) (r1 := r2) (t12 := tau21) (t21 := tau12)
    (Sq := Sq) (Sr := Sr) (W1 := W2) (W2 := W1) (by linarith) (by rw [hSq]; ring) pSr.ne'
    (by rw [hW2]; ring) (by rw [hW1]; ring) pSq.ne' pW2.ne' pW1.ne'
  -- the quantities of the code
  have c1 : x1 - 1 = -u := by rw [hu]; ring
  have c4 : -tau21 * (q2 * -u) + q1 * x1 = W1 := by rw [hW1]; ring
  have c6 : q1 * x1 + -(q2 * -u) = Sq := by rw [hSq]; ring
  have c11 : -(r2 * -u) + r1 * x1 = Sr := by rw [hSr]; ring
  have c18 : r2 * u + r1 * x1 = Sr := by rw [hSr]; ring
  have c22 : q1 * x1 + q2 * u = Sq := hSq.symm
  have c32 : tau12 * (q1 * x1) + -(q2 * -u) = W2 := by rw [hW2]; ring
  have A1 : q1 ^ 2 * x1 * (1 / W1) * (1 / Sq * Sq) * (tau21 * (q2 * u * (1 / Sq)) + q1 * x1 * (1 / Sq) - 1)
      + q1 * (5 * log (q1 * (Sr * (1 / Sq)) / r1))
      - q1 * (q2 * -u) * (1 / Sq * Sq / W2) * (-tau12 * (1 - q1 * x1 * (1 / Sq)) + q2 * u * (1 / Sq))
      - q1 * log (W1 * (1 / Sq)) + r1 * (1 / Sr) * -u - Sr / Sr ^ 2 * (r1 * x1)
      + 1 / Sq * Sq * (5 * (1 / Sr)) * (q2 * -u) * (-r1 + q1 * (Sr * (1 / Sq)))
      - q1 * (Sr * (1 / Sq)) * (5 * (1 / Sr) * Sq) * (q1 * x1 * (1 / Sq) - 1 / Sr * (r1 * x1))
      = (q1 - q1 ^ 2 * x1 / W1 - q1 * (q2 * u) * tau12 / W2 - r1 / Sr + 5 * (r1 * Sq / Sr) - 5 * q1)
        + 5 * q1 * log (q1 * (Sr * (1 / Sq)) / r1) - q1 * log (W1 * (1 / Sq)) := by
    rw [← R1]; ring
  have A2 : -q2 ^ 2 * -u * (1 / Sq * Sq / W2) * (1 / Sq * (tau12 * (q1 * x1)) + q2 * u * (1 / Sq) - 1)
      + q2 * (1 / W1) * (q1 * x1 * (1 / Sq) * Sq) * (-tau21 * (1 - q2 * u * (1 / Sq)) + q1 * x1 * (1 / Sq))
      - q2 * log (W2 * (1 / Sq)) + q2 * (5 * log (q2 * (Sr * (1 / Sq)) / r2)) - x1 * (r2 * (1 / Sr))
      + r2 * -u * (Sr / Sr ^ 2) - 5 * (1 / Sr) * (q1 * x1 * (1 / Sq) * Sq) * (q2 * (Sr * (1 / Sq)) - r2)
      + Sr * (1 / Sq) * (q2 * -u) * (5 * (1 / Sr) * Sq) * (-(r2 * u) * (1 / Sr) + q2 * u * (1 / Sq)) / u
      = (q2 - q2 ^ 2 * u / W2 - q2 * (q1 * x1) * tau21 / W1 - r2 / Sr + 5 * (r2 * Sq / Sr) - 5 * q2)
        + 5 * q2 * log (q2 * (Sr * (1 / Sq)) / r2) - q2 * log (W2 * (1 / Sq)) := by
    rw [← R2]
    have hu' := hu0.ne'
    have : Sr * (1 / Sq) * (q2 * -u) * (5 * (1 / Sr) * Sq) * (-(r2 * u) * (1 / Sr) + q2 * u * (1 / Sq)) / u
        = -(q2 * (Sr * (1 / Sq)) * (5 * (1 / Sr) * Sq) * (q2 * u * (1 / Sq) - 1 / Sr * (r2 * u))) := by
      field_simp
      ring
    rw [this]
    ring
  obtain ⟨L1, hL1⟩ : ∃ L1, L1 = log (W1 * (1 / Sq)) := ⟨_, rfl⟩
  obtain ⟨L2, hL2⟩ : ∃ L2, L2 = log (W2 * (1 / Sq)) := ⟨_, rfl⟩
  obtain ⟨M1, hM1⟩ : ∃ M1, M1 = log (q1 * (Sr * (1 / Sq)) / r1) := ⟨_, rfl⟩
  obtain ⟨M2, hM2⟩ : ∃ M2, M2 = log (q2 * (Sr * (1 / Sq)) / r2) := ⟨_, rfl⟩
  have key : x1 * (q1 - q1 ^ 2 * x1 / W1 - q1 * (q2 * u) * tau12 / W2 - r1 / Sr + 5 * (r1 * Sq / Sr) - 5 * q1)
      + u * (q2 - q2 ^ 2 * u / W2 - q2 * (q1 * x1) * tau21 / W1 - r2 / Sr + 5 * (r2 * Sq / Sr) - 5 * q2)
      = -1 := by
    have k1 : q1 ^ 2 * x1 / W1 * x1 + q2 * (q1 * x1) * tau21 / W1 * u = q1 * x1 := by
      field_simp; rw [hW1]; ring
    have k2 : q2 ^ 2 * u / W2 * u + q1 * (q2 * u) * tau12 / W2 * x1 = q2 * u := by
      field_simp; rw [hW2]; ring
    have k3 : r1 / Sr * x1 + r2 / Sr * u = 1 := by field_simp; rw [hSr]
    have k4 : r1 * Sq / Sr * x1 + r2 * Sq / Sr * u = q1 * x1 + q2 * u := by
      field_simp; rw [hSr, hSq]; ring
    linear_combination -k1 - k2 - k3 + 5 * k4
  simp only [binary, ← hu, c1, c4, c6, c11, c18, c22, c32]
  rw [A1, A2]
  simp only [← hL1, ← hL2, ← hM1, ← hM2]
  simp only [g, UNIQUACgammas, Fin.sum_univ_two, Matrix.cons_val_zero, Matrix.cons_val_one, ← hu]
  rw [← hSr, ← hSq]
  have hθ1 : q1 * x1 * (1 / Sq) * 1 + q2 * u * (1 / Sq) * tau21 = W1 * (1 / Sq) := by rw [hW1]; ring
  have hθ2 : q1 * x1 * (1 / Sq) * tau12 + q2 * u * (1 / Sq) * 1 = W2 * (1 / Sq) := by rw [hW2]; ring
  have hl1 : log (r1 * x1 * (1 / Sr) / (q1 * x1 * (1 / Sq))) = -M1 := by
    rw [hM1, ← log_inv]; congr 1; field_simp
  have hl2 : log (r2 * u * (1 / Sr) / (q2 * u * (1 / Sq))) = -M2 := by
    rw [hM2, ← log_inv]; congr 1; field_simp
  have hp1 : r1 * x1 * (1 / Sr) / x1 = r1 * (1 / Sr) := by field_simp
  have hp2 : r2 * u * (1 / Sr) / u = r2 * (1 / Sr) := by field_simp
  have hv1 : r1 * x1 * (1 / Sr) / (q1 * x1 * (1 / Sq)) = r1 * Sq / Sr / q1 := by field_simp
  have hv2 : r2 * u * (1 / Sr) / (q2 * u * (1 / Sq)) = r2 * Sq / Sr / q2 := by field_simp
  have hw1 : q1 * x1 * (1 / Sq) / (W1 * (1 / Sq)) = q1 * x1 / W1 := by field_simp
  have hw2 : q2 * u * (1 / Sq) / (W2 * (1 / Sq)) = q2 * u / W2 := by field_simp
  rw [hl1, hl2, hθ1, hθ2, ← hL1, ← hL2, hp1, hp2, hv1, hv2, hw1, hw2]
  have p1 : 0 < r1 * (1 / Sr) := by positivity
  have p2 : 0 < r2 * (1 / Sr) := by positivity
  have m1 : q1 * (r1 * Sq / Sr / q1) = r1 * Sq / Sr := by field_simp
  have m2 : q2 * (r2 * Sq / Sr / q2) = r2 * Sq / Sr := by field_simp
  refine Prod.ext ?_ ?_
  · simp only
    conv_lhs => rw [← exp_log p1, ← exp_add]
    congr 1
    linear_combination -key - 5 * m1
  · simp only
    conv_lhs => rw [← exp_log p2, ← exp_add]
    congr 1
    linear_combination -key - 5 * m2

/-! ## Non-vacuity -/

/-- A two-component mixture meeting the hypotheses of the composition theorems. -/
example (i j : Fin 2) := C26_uniquac_dgammas_dns (R := 8) (T := 300) (rs := ![1, 2]) (qs := ![1, 3])
  (taus := fun i j => ![![1, 2], ![3, 1]] i j) (x := ![1 / 4, 3 / 4]) (by norm_num) (by norm_num)
  (by intro i; fin_cases i <;> simp) (by intro i; fin_cases i <;> simp)
  (by intro i j; fin_cases i <;> fin_cases j <;> simp) (by intro i; fin_cases i <;> simp)
  (by simp [Fin.sum_univ_two]; norm_num) i j

/-- Temperature dependent parameters `τ = exp(T)` meeting the hypotheses of the temperature theorem. -/
example := C26_uniquac_temperature (R := 8) (rs := ![1, 2]) (qs := ![1, 3]) (x := ![1 / 4, 3 / 4])
  (t := fun T _ _ => exp T) (t1 := fun T _ _ => exp T) (t2 := fun T _ _ => exp T) (t3 := fun T _ _ => exp T)
  (by norm_num) (by intro i; fin_cases i <;> simp) (by intro i; fin_cases i <;> simp)
  (by intro i; fin_cases i <;> simp) (fun T _ _ _ => exp_pos T) (fun T _ _ _ => hasDerivAt_exp T)
  (fun T _ _ _ => hasDerivAt_exp T) (fun T _ _ _ => hasDerivAt_exp T) (T := 300) (by norm_num)

end Verif.Uniquac
