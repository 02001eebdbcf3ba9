import Verif.Activity.Uniquac
import Mathlib.Analysis.Complex.ExponentialBounds

/-!
# Regular solution, Flory-Huggins and Hansen models (`thermo/regular_solution.py`)

* C26: regular solution derivatives and activity coefficients.
* C54: Flory-Huggins and Hansen derivatives.

Loops that add up terms are finite sums; `trunc_exp` is the exponential (its overflow guard is not
modelled).
-/

namespace Verif.RegularSolution

open Real Finset GibbsExcess

variable {N : ℕ}

/-- A matrix of parameters. -/
abbrev Mat (N : ℕ) := Fin N → Fin N → ℝ

/-! ## Model -/

/-- `regular_solution_His` (80-91). -/
def His (SPs : Fin N → ℝ) (coeffs : Mat N) (i j : Fin N) : ℝ :=
  SPs i * SPs j * (coeffs i j + coeffs j i) + (SPs i - SPs j) * (SPs i - SPs j)

/-- `regular_solution_Hi_sums_fast` (108-117); `regular_solution_Hi_sums` (94-106) is this with `His`
written out. -/
def HiSums (Vs xsVs : Fin N → ℝ) (H : Mat N) (i : Fin N) : ℝ := Vs i * ∑ j, xsVs j * H i j

/-- `regular_solution_Aijs` (119-128). -/
noncomputable def Aijs (SPs : Fin N → ℝ) (coeffs : Mat N) (i j : Fin N) : ℝ :=
  1 / 2 * (SPs i - SPs j) * (SPs i - SPs j) + SPs i * SPs j * coeffs i j

/-- `regular_solution_GE` (133-154). -/
noncomputable def GE (SPs xsVs : Fin N → ℝ) (coeffs : Mat N) (inv : ℝ) : ℝ :=
  let tots := fun i => ∑ j, xsVs j * (SPs i - SPs j) * (SPs i - SPs j)
  let tot2s := fun i => ∑ j, xsVs j * SPs j * coeffs i j
  (∑ i, (1 / 2 * tots i + tot2s i * SPs i) * xsVs i) * inv

/-- `regular_solution_GE_from_Aijs` (156-162). -/
def GEfromA (xsVs : Fin N → ℝ) (A : Mat N) (inv : ℝ) : ℝ := (∑ i, ∑ j, xsVs i * xsVs j * A i j) * inv

/-- `regular_solution_dGE_dxs` (165-171). -/
def dGE_dxs (Vs HiSums : Fin N → ℝ) (inv GE : ℝ) (i : Fin N) : ℝ := (HiSums i - GE * Vs i) * inv

/-- `xs*Vs` (580-588). -/
def xV (Vs xs : Fin N → ℝ) (i : Fin N) : ℝ := xs i * Vs i

/-- `xsVs_sum_inv` (593). -/
noncomputable def sInv (Vs xs : Fin N → ℝ) : ℝ := 1 / ∑ i, xs i * Vs i

/-- `regular_solution_gammas` (174-213). -/
noncomputable def gammasFromArgs (R T : ℝ) (xs Vs SPs : Fin N → ℝ) (coeffs : Mat N) (i : Fin N) : ℝ :=
  let xsVs := xV Vs xs
  let inv := sInv Vs xs
  let Hs := HiSums Vs xsVs (His SPs coeffs)
  let G := GE SPs xsVs coeffs inv
  let dG := dGE_dxs Vs Hs inv G
  let xdx := G - ∑ j, xs j * dG j
  exp ((dG i + xdx) * (1 / (R * T)))

/-- `regular_solution_d2GE_dxixjs` (216-231). The code recomputes the entry of `His`. -/
def d2GE_dxixjs (Vs SPs Hs dG : Fin N → ℝ) (GE : ℝ) (coeffs : Mat N) (inv : ℝ) (i j : Fin N) : ℝ :=
  let v0 := (Vs i * GE - Hs i) * inv * inv
  let v1 := Vs i * inv
  let Hi := SPs i * SPs j * (coeffs i j + coeffs j i) + (SPs i - SPs j) * (SPs i - SPs j)
  Vs j * v0 + v1 * (Vs j * Hi - dG j)

/-- `regular_solution_d3GE_dxixjxks` (233-257). -/
def d3GE_dxixjxks (Vs SPs Hs dG : Fin N → ℝ) (GE inv : ℝ) (d2G coeffs : Mat N) (i j k : Fin N) : ℝ :=
  let thirds := -2 * Vs i * Vs j * Vs k * GE + 2 * Vs j * Vs k * Hs i
  let seconds := Vs i * (Vs j * dG k + Vs k * dG j) - Vs i * Vs j * Vs k *
    (SPs i * (SPs j * (coeffs i j + coeffs j i) + SPs k * (coeffs i k + coeffs k i))
      + (SPs i - SPs j) ^ 2 + (SPs i - SPs k) ^ 2)
  let firsts := -Vs i * d2G j k
  firsts * inv + seconds * inv * inv + thirds * inv * inv * inv

/-- `flory_huggins_GE` (259-273). -/
noncomputable def fhGE (R T : ℝ) (xs Vs : Fin N → ℝ) (A : Mat N) (xsVs : Fin N → ℝ) (inv : ℝ) : ℝ :=
  R * T * (∑ i, xs i * log (Vs i * inv)) + GEfromA xsVs A inv

/-- `flory_huggins_dGE_dT` (275-284). -/
noncomputable def fhdGE_dT (R : ℝ) (xs Vs : Fin N → ℝ) : ℝ :=
  R * ∑ i, xs i * log (Vs i / ∑ j, Vs j * xs j)

/-- `flory_huggins_d2GE_dTdxs` (286-300). -/
noncomputable def fhd2GE_dTdxs (R : ℝ) (xs Vs : Fin N → ℝ) (i : Fin N) : ℝ :=
  R * (log (Vs i / ∑ j, Vs j * xs j) - Vs i / ∑ j, Vs j * xs j)

/-- The excess Gibbs energy without the Flory-Huggins term, as recovered by the loops at 309, 329, 359. -/
noncomputable def fhStrip (R T GE : ℝ) (xs Vs : Fin N → ℝ) (inv : ℝ) : ℝ :=
  GE - ∑ i, R * T * xs i * log (Vs i * inv)

/-- `flory_huggins_dGE_dxs` (302-320). -/
noncomputable def fhdGE_dxs (R T : ℝ) (xs Vs Hs : Fin N → ℝ) (inv GE : ℝ) (i : Fin N) : ℝ :=
  dGE_dxs Vs Hs inv (fhStrip R T GE xs Vs inv) i + R * T * (log (Vs i * inv) - Vs i * inv)

/-- `flory_huggins_d2GE_dxixjs` (322-350). -/
noncomputable def fhd2GE_dxixjs (R T : ℝ) (GE : ℝ) (xs Vs SPs Hs : Fin N → ℝ) (coeffs : Mat N) (inv : ℝ)
    (i j : Fin N) : ℝ :=
  let G := fhStrip R T GE xs Vs inv
  d2GE_dxixjs Vs SPs Hs (dGE_dxs Vs Hs inv G) G coeffs inv i j
    + R * T * inv * (Vs i * inv * Vs j - Vs i - Vs j)

/-- `flory_huggins_d3GE_dxixjxks` (352-393). -/
noncomputable def fhd3GE_dxixjxks (R T : ℝ) (GE : ℝ) (xs Vs SPs Hs : Fin N → ℝ) (coeffs : Mat N) (inv : ℝ)
    (i j k : Fin N) : ℝ :=
  let G := fhStrip R T GE xs Vs inv
  let dG := dGE_dxs Vs Hs inv G
  d3GE_dxixjxks Vs SPs Hs dG G inv (d2GE_dxixjs Vs SPs Hs dG G coeffs inv) coeffs i j k
    + R * T * ((∑ m, -2 * Vs i * Vs j * Vs k * xs m * inv * inv * inv)
      + inv * inv * (Vs i * Vs j + Vs i * Vs k + Vs j * Vs k))

/-- `hansen_Aijs_His` (1520-1536). -/
noncomputable def hansen (dd dp dh : Fin N → ℝ) (alpha multiplier : ℝ) (i j : Fin N) : ℝ :=
  alpha * multiplier * ((dd i - dd j) * (dd i - dd j) + (dp i - dp j) * (1 / 4 * (dp i - dp j))
    + (dh i - dh j) * (1 / 4 * (dh i - dh j)))

/-- The clamp of the binary parameters (1117-1124, 1154-1161). -/
noncomputable def clamp (l : ℝ) : ℝ := if 10 ^ 100 < (if l < -10 ^ 100 then -10 ^ 100 else l) then 10 ^ 100
  else (if l < -10 ^ 100 then -10 ^ 100 else l)

/-- `regular_solution_gammas_binaries` (1132-1151) for one data point, with the cap `1e10` on the result. -/
noncomputable def binary (R x0 V0 V1 SP0 SP1 T lambda12 lambda21 : ℝ) : ℝ × ℝ :=
  let l01 := clamp lambda12
  let l10 := clamp lambda21
  let c0 := SP0 - SP1
  let base := (c0 * c0 + l01 * SP0 * SP1 + l10 * SP0 * SP1) * (1 / R)
  let x1 := 1 - x0
  let den_inv := 1 / (x0 * V0 + x1 * V1)
  let phi0 := x0 * V0 * den_inv
  let phi1 := x1 * V1 * den_inv
  let term := base / T
  (min (exp (V0 * phi1 * phi1 * term)) (10 ^ 10), min (exp (V1 * phi0 * phi0 * term)) (10 ^ 10))

/-- `regular_solution_gammas_binaries_jac` (1168-1199) for one data point: the rows of both activity
coefficients; the two columns (`lambda12`, `lambda21`) are equal. -/
noncomputable def binaryJac (R x0 V0 V1 SP0 SP1 T lambda12 lambda21 : ℝ) : (ℝ × ℝ) × (ℝ × ℝ) :=
  let l01 := clamp lambda12
  let l10 := clamp lambda21
  let x2 := SP0 * SP1
  let c99 := SP0 - SP1
  let c100 := l01 * x2 + l10 * x2 + c99 * c99
  let c101 := V0 * V1 * V1
  let c102 := V0 * V0 * V1
  let x1 := 1 - x0
  let c0 := V0 * x0 + V1 * x1
  let x3 := (1 / R) / (T * c0 * c0)
  let x4 := x3 * c100
  let x5 := c101 * x1 * x1
  let x6 := x2 * x3
  let x7 := x5 * x6 * exp (x4 * x5)
  let x8 := c102 * x0 * x0
  let x9 := x6 * x8 * exp (x4 * x8)
  ((x7, x7), (x9, x9))

/-! ## The expressions the models stand for -/

/-- `GE = Σ_ij x_i V_i x_j V_j A_ij / Σ_k x_k V_k`. -/
noncomputable def quad (Vs : Fin N → ℝ) (A : Mat N) (x : Fin N → ℝ) : ℝ :=
  (∑ i, ∑ j, (x i * Vs i) * (x j * Vs j) * A i j) / ∑ k, x k * Vs k

/-- Flory-Huggins: with the volume fractions `φ_i = x_i V_i/Σ x V`, `RT Σ x_i ln(φ_i/x_i)` is added;
`φ_i/x_i` is written as `V_i/Σ x V` so that the expression is smooth at `x_i = 0` (`C54_volume_fraction`). -/
noncomputable def fhSpec (R T : ℝ) (Vs : Fin N → ℝ) (A : Mat N) (x : Fin N → ℝ) : ℝ :=
  R * T * (∑ i, x i * log (Vs i / ∑ k, x k * Vs k)) + quad Vs A x

/-- **C26.** The three ways the code computes the regular solution energy agree:
`½ Σ v_i v_j (δ_i − δ_j)²/Σv + Σ v_i v_j δ_i δ_j l_ij/Σv` with `v = xV`. -/
theorem C26_regular_GE (SPs Vs x : Fin N → ℝ) (coeffs : Mat N) :
    GE SPs (xV Vs x) coeffs (sInv Vs x) = quad Vs (Aijs SPs coeffs) x ∧
    GEfromA (xV Vs x) (Aijs SPs coeffs) (sInv Vs x) = quad Vs (Aijs SPs coeffs) x ∧
    quad Vs (Aijs SPs coeffs) x = (∑ i, ∑ j, x i * Vs i * (x j * Vs j) * (1 / 2 * (SPs i - SPs j) ^ 2
      + SPs i * SPs j * coeffs i j)) / ∑ k, x k * Vs k := by
  refine ⟨?_, ?_, ?_⟩
  · simp only [GE, quad, xV, sInv, Aijs, mul_one_div]
    congr 1
    refine sum_congr rfl fun i _ => ?_
    rw [mul_sum, sum_mul, ← sum_add_distrib, sum_mul]
    exact sum_congr rfl fun j _ => by ring
  · simp only [GEfromA, quad, xV, sInv, mul_one_div]
  · simp only [quad, Aijs]
    congr 1
    exact sum_congr rfl fun i _ => sum_congr rfl fun j _ => by ring

/-! ## C26: composition derivatives -/

section Composition

variable {Vs x : Fin N → ℝ} {A H : Mat N}

theorem pd_sInv (h : ∑ k, x k * Vs k ≠ 0) (j : Fin N) :
    PD (fun x => sInv Vs x) j x (-Vs j * (sInv Vs x * sInv Vs x)) := by
  have := PD.inv (PD.linear Vs j x) h
  simp only [sInv, one_div]
  refine this.congr_d ?_
  field_simp

theorem pd_HiSums (H : Mat N) (i j : Fin N) (x : Fin N → ℝ) :
    PD (fun x => HiSums Vs (xV Vs x) H i) j x (Vs i * (Vs j * H i j)) := by
  have := PD.const_mul (Vs i) (PD.linear (fun k => Vs k * H i k) j x)
  have e : (fun x => HiSums Vs (xV Vs x) H i) = fun x => Vs i * ∑ k, x k * (Vs k * H i k) := by
    funext x
    simp only [HiSums, xV]
    congr 1
    exact sum_congr rfl fun k _ => by ring
  rw [e]
  exact this

theorem pd_num (hH : ∀ i j, H i j = A i j + A j i) (j : Fin N) (x : Fin N → ℝ) :
    PD (fun x : Fin N → ℝ => ∑ i, ∑ j, (x i * Vs i) * (x j * Vs j) * A i j) j x
      (HiSums Vs (xV Vs x) H j) := by
  have := PD.sum (s := univ) fun i _ => PD.sum (s := univ) fun k _ =>
    PD.mul_const (A i k) (PD.mul (PD.mul_const (Vs i) (PD.coord i j x)) (PD.mul_const (Vs k) (PD.coord k j x)))
  refine this.congr_d ?_
  simp only [HiSums, xV]
  have e : ∀ i k, ((if i = j then (1 : ℝ) else 0) * Vs i * (x k * Vs k) + x i * Vs i * ((if k = j then 1 else 0) * Vs k))
      * A i k = (if i = j then Vs i * (x k * Vs k) * A i k else 0)
        + if k = j then x i * Vs i * Vs k * A i k else 0 := by
    intro i k
    split <;> split <;> simp <;> ring
  simp only [e, sum_add_distrib, sum_ite_eq', mem_univ, if_true]
  rw [sum_comm]
  simp only [sum_ite_eq', mem_univ, if_true]
  rw [mul_sum, ← sum_add_distrib]
  exact sum_congr rfl fun k _ => by rw [hH]; ring

/-- The gradient of a quadratic form in the volumes, divided by the volume. -/
theorem pd_quad (hH : ∀ i j, H i j = A i j + A j i) (h : ∑ k, x k * Vs k ≠ 0) (j : Fin N) :
    PD (quad Vs A) j x (dGE_dxs Vs (HiSums Vs (xV Vs x) H) (sInv Vs x) (quad Vs A x) j) := by
  have := PD.div (pd_num (Vs := Vs) hH j x) (PD.linear Vs j x) h
  refine PD.congr_d this ?_
  simp only [dGE_dxs, quad, sInv]
  generalize (∑ i, ∑ j, (x i * Vs i) * (x j * Vs j) * A i j) = n
  field_simp

theorem pd2_quad (hH : ∀ i j, H i j = A i j + A j i) (h : ∑ k, x k * Vs k ≠ 0) (i j : Fin N) :
    PD (fun x => dGE_dxs Vs (HiSums Vs (xV Vs x) H) (sInv Vs x) (quad Vs A x) i) j x
      (Vs j * ((Vs i * quad Vs A x - HiSums Vs (xV Vs x) H i) * sInv Vs x * sInv Vs x)
        + Vs i * sInv Vs x * (Vs j * H i j - dGE_dxs Vs (HiSums Vs (xV Vs x) H) (sInv Vs x) (quad Vs A x) j)) := by
  have := PD.mul ((pd_HiSums (Vs := Vs) H i j x).sub (PD.mul_const (Vs i) (pd_quad hH h j))) (pd_sInv h j)
  refine PD.congr_d this ?_
  ring

theorem HAeq (SPs : Fin N → ℝ) (coeffs : Mat N) (i j : Fin N) :
    His SPs coeffs i j = Aijs SPs coeffs i j + Aijs SPs coeffs j i := by
  simp only [His, Aijs]; ring

/-- The derivative code of the class applied at a composition. -/
noncomputable def dGE (Vs SPs : Fin N → ℝ) (coeffs : Mat N) (x : Fin N → ℝ) : Fin N → ℝ :=
  dGE_dxs Vs (HiSums Vs (xV Vs x) (His SPs coeffs)) (sInv Vs x)
    (GEfromA (xV Vs x) (Aijs SPs coeffs) (sInv Vs x))

@[inherit_doc dGE] noncomputable def d2GE (Vs SPs : Fin N → ℝ) (coeffs : Mat N) (x : Fin N → ℝ) : Mat N :=
  d2GE_dxixjs Vs SPs (HiSums Vs (xV Vs x) (His SPs coeffs)) (dGE Vs SPs coeffs x)
    (GEfromA (xV Vs x) (Aijs SPs coeffs) (sInv Vs x)) coeffs (sInv Vs x)

@[inherit_doc dGE] noncomputable def d3GE (Vs SPs : Fin N → ℝ) (coeffs : Mat N) (x : Fin N → ℝ) :
    Fin N → Mat N :=
  d3GE_dxixjxks Vs SPs (HiSums Vs (xV Vs x) (His SPs coeffs)) (dGE Vs SPs coeffs x)
    (GEfromA (xV Vs x) (Aijs SPs coeffs) (sInv Vs x)) (sInv Vs x) (d2GE Vs SPs coeffs x) coeffs

variable {SPs : Fin N → ℝ} {coeffs : Mat N}

theorem dGE_eq : dGE Vs SPs coeffs x = dGE_dxs Vs (HiSums Vs (xV Vs x) (His SPs coeffs)) (sInv Vs x)
    (quad Vs (Aijs SPs coeffs) x) := by
  rw [dGE, (C26_regular_GE SPs Vs x coeffs).2.1]

/-- **C26.** `regular_solution_dGE_dxs`, `..._d2GE_dxixjs`, `..._d3GE_dxixjxks` are the successive
composition derivatives of the regular solution energy. -/
theorem C26_regular_derivatives (h : ∑ k, x k * Vs k ≠ 0) (i j k : Fin N) :
    PD (quad Vs (Aijs SPs coeffs)) i x (dGE Vs SPs coeffs x i) ∧
    PD (fun x => dGE Vs SPs coeffs x i) j x (d2GE Vs SPs coeffs x i j) ∧
    PD (fun x => d2GE Vs SPs coeffs x i j) k x (d3GE Vs SPs coeffs x i j k) := by
  have hH := HAeq SPs coeffs
  have g1 : ∀ i, PD (quad Vs (Aijs SPs coeffs)) i x (dGE Vs SPs coeffs x i) := by
    intro i
    rw [dGE_eq]
    exact pd_quad hH h i
  have g2 : ∀ i j, PD (fun x => dGE Vs SPs coeffs x i) j x (d2GE Vs SPs coeffs x i j) := by
    intro i j
    have := pd2_quad hH h i j
    simp only [dGE_eq]
    refine PD.congr_d this ?_
    simp only [d2GE, d2GE_dxixjs, dGE_eq, (C26_regular_GE SPs Vs x coeffs).2.1, His]
  refine ⟨g1 i, g2 i j, ?_⟩
  have e : (fun x => d2GE Vs SPs coeffs x i j) = fun x => Vs j * ((Vs i * quad Vs (Aijs SPs coeffs) x
      - HiSums Vs (xV Vs x) (His SPs coeffs) i) * sInv Vs x * sInv Vs x)
      + Vs i * sInv Vs x * (Vs j * His SPs coeffs i j - dGE Vs SPs coeffs x j) := by
    funext x
    simp only [d2GE, d2GE_dxixjs, (C26_regular_GE SPs Vs x coeffs).2.1, His]
  rw [e]
  have hs := pd_sInv h k
  have := (PD.const_mul (Vs j) (PD.mul (PD.mul ((PD.const_mul (Vs i) (g1 k)).sub
    (pd_HiSums (Vs := Vs) (His SPs coeffs) i k x)) hs) hs)).add
    (PD.mul (PD.const_mul (Vs i) hs) ((PD.const (Vs j * His SPs coeffs i j)).sub (g2 j k)))
  refine PD.congr_d this ?_
  simp only [d3GE, d3GE_dxixjxks, (C26_regular_GE SPs Vs x coeffs).2.1, His]
  ring

example (i j k : Fin 2) := C26_regular_derivatives (Vs := ![1, 2]) (x := ![1 / 4, 3 / 4]) (SPs := ![3, 5])
  (coeffs := fun i j => ![![0, 1], ![2, 0]] i j) (by simp [Fin.sum_univ_two]; norm_num) i j k

theorem sum_x_dGE (h : ∑ k, x k * Vs k ≠ 0) :
    ∑ k, x k * dGE Vs SPs coeffs x k = quad Vs (Aijs SPs coeffs) x := by
  simp only [dGE_eq, dGE_dxs]
  have e : ∀ k, x k * ((HiSums Vs (xV Vs x) (His SPs coeffs) k - quad Vs (Aijs SPs coeffs) x * Vs k) * sInv Vs x)
      = sInv Vs x * (x k * HiSums Vs (xV Vs x) (His SPs coeffs) k)
        - quad Vs (Aijs SPs coeffs) x * sInv Vs x * (x k * Vs k) := by intro k; ring
  simp only [e, sum_sub_distrib, ← mul_sum]
  have e2 : ∑ k, x k * HiSums Vs (xV Vs x) (His SPs coeffs) k
      = 2 * ∑ i, ∑ j, (x i * Vs i) * (x j * Vs j) * Aijs SPs coeffs i j := by
    simp only [HiSums, xV, HAeq]
    have : ∀ k, x k * (Vs k * ∑ j, x j * Vs j * (Aijs SPs coeffs k j + Aijs SPs coeffs j k))
        = ∑ j, x k * Vs k * (x j * Vs j) * Aijs SPs coeffs k j + ∑ j, x j * Vs j * (x k * Vs k) * Aijs SPs coeffs j k := by
      intro k
      rw [← sum_add_distrib, ← mul_assoc, mul_sum]
      exact sum_congr rfl fun j _ => by ring
    simp only [this, sum_add_distrib]
    rw [sum_comm (f := fun k j => x j * Vs j * (x k * Vs k) * Aijs SPs coeffs j k)]
    ring
  rw [e2]
  simp only [quad, sInv]
  generalize (∑ i, ∑ j, (x i * Vs i) * (x j * Vs j) * Aijs SPs coeffs i j) = n
  field_simp
  ring

/-- **C26.** The activity coefficients of the regular solution: the code's function equals the class
method, and the mole-fraction terms cancel, leaving `exp(∂GE/∂x_i/(RT))`. -/
theorem C26_regular_gammas (R T : ℝ) (h : ∑ k, x k * Vs k ≠ 0) (i : Fin N) :
    gammasFromArgs R T x Vs SPs coeffs i
      = gammas R T (quad Vs (Aijs SPs coeffs) x) x (dGE Vs SPs coeffs x) i ∧
    gammasFromArgs R T x Vs SPs coeffs i = exp (dGE Vs SPs coeffs x i / (R * T)) := by
  have h1 : gammasFromArgs R T x Vs SPs coeffs i
      = gammas R T (quad Vs (Aijs SPs coeffs) x) x (dGE Vs SPs coeffs x) i := by
    simp only [gammasFromArgs, gammas, (C26_regular_GE SPs Vs x coeffs).1, ← dGE_eq]
    congr 1
    rw [div_div, ]
  refine ⟨h1, ?_⟩
  rw [h1]
  simp only [gammas, sum_x_dGE h]
  congr 1
  rw [sub_self, add_zero, div_div]
  ring

theorem diff_sInv (h : ∑ k, x k * Vs k ≠ 0) : DifferentiableAt ℝ (fun x => sInv Vs x) x := by
  have h1 : DifferentiableAt ℝ (fun x : Fin N → ℝ => ∑ i, x i * Vs i) x := by fun_prop
  simp only [sInv, one_div]
  exact Uniquac.diff_inv h1 h

theorem diff_quad (A : Mat N) (h : ∑ k, x k * Vs k ≠ 0) : DifferentiableAt ℝ (quad Vs A) x := by
  have h1 := diff_sInv h
  have e : quad Vs A = fun x => (∑ i, ∑ j, (x i * Vs i) * (x j * Vs j) * A i j) * sInv Vs x := by
    funext x; simp only [quad, sInv]; ring
  rw [e]
  fun_prop

/-- **C26.** The regular solution activity coefficients are the mole-number derivatives of the extensive
excess Gibbs energy. -/
theorem C26_regular_partial_molar {R T : ℝ} {n : Fin N → ℝ} (hR : R ≠ 0) (hT : T ≠ 0) (hn : ∑ i, n i ≠ 0)
    (h : ∑ k, n k * Vs k ≠ 0) (i : Fin N) :
    PD (extensive (quad Vs (Aijs SPs coeffs))) i n
      (R * T * log (gammasFromArgs R T (fun i => n i / ∑ i, n i) Vs SPs coeffs i)) := by
  set xs : Fin N → ℝ := fun i => n i / ∑ i, n i with hxs
  have h' : ∑ k, xs k * Vs k ≠ 0 := by
    have : ∑ k, xs k * Vs k = (∑ k, n k * Vs k) / ∑ i, n i := by
      rw [Finset.sum_div]
      exact sum_congr rfl fun k _ => by simp only [hxs]; ring
    rw [this]
    exact div_ne_zero h hn
  obtain ⟨d, hd, _, hg⟩ := C23_gammas (R := R) (T := T) (GE := quad Vs (Aijs SPs coeffs)) hn
    (diff_quad _ h') (fun j => (C26_regular_derivatives h' j j j).1) i
  refine hd.congr_d ?_
  rw [(C26_regular_gammas R T h' i).1]
  simp only [← hxs] at hg
  rw [show gammas R T (quad Vs (Aijs SPs coeffs) xs) xs (dGE Vs SPs coeffs xs) i = exp (d / (R * T)) from hg,
    log_exp]
  field_simp

example (i : Fin 2) := C26_regular_partial_molar (R := 8) (T := 300) (Vs := ![1, 2]) (n := ![1, 3])
  (SPs := ![3, 5]) (coeffs := fun i j => ![![0, 1], ![2, 0]] i j) (by norm_num) (by norm_num)
  (by simp [Fin.sum_univ_two]; norm_num) (by simp [Fin.sum_univ_two]; norm_num) i

theorem His_symm (i j : Fin N) : His SPs coeffs i j = His SPs coeffs j i := by simp only [His]; ring

theorem d2GE_symm (i j : Fin N) : d2GE Vs SPs coeffs x i j = d2GE Vs SPs coeffs x j i := by
  have := His_symm (SPs := SPs) (coeffs := coeffs) i j
  simp only [d2GE, d2GE_dxixjs, dGE, dGE_dxs]
  rw [show SPs i * SPs j * (coeffs i j + coeffs j i) + (SPs i - SPs j) * (SPs i - SPs j)
    = SPs j * SPs i * (coeffs j i + coeffs i j) + (SPs j - SPs i) * (SPs j - SPs i) by ring]
  ring

theorem d2GE_row (h : ∑ k, x k * Vs k ≠ 0) (i : Fin N) : ∑ k, x k * d2GE Vs SPs coeffs x i k = 0 := by
  have e : ∀ k, x k * d2GE Vs SPs coeffs x i k = (x k * Vs k) * ((Vs i * quad Vs (Aijs SPs coeffs) x
      - HiSums Vs (xV Vs x) (His SPs coeffs) i) * sInv Vs x * sInv Vs x)
      + Vs i * sInv Vs x * (x k * Vs k * His SPs coeffs i k) - Vs i * sInv Vs x * (x k * dGE Vs SPs coeffs x k) := by
    intro k
    simp only [d2GE, d2GE_dxixjs, (C26_regular_GE SPs Vs x coeffs).2.1, His]
    ring
  simp only [e, sum_sub_distrib, sum_add_distrib, ← sum_mul, ← mul_sum, sum_x_dGE h]
  have e2 : HiSums Vs (xV Vs x) (His SPs coeffs) i = Vs i * ∑ k, x k * Vs k * His SPs coeffs i k := rfl
  rw [e2]
  have e3 : (∑ k, x k * Vs k) * sInv Vs x = 1 := by simp only [sInv]; field_simp
  linear_combination ((Vs i * quad Vs (Aijs SPs coeffs) x
      - Vs i * ∑ k, x k * Vs k * His SPs coeffs i k) * sInv Vs x) * e3

theorem diff_HiSums (H : Mat N) (i : Fin N) :
    DifferentiableAt ℝ (fun x => HiSums Vs (xV Vs x) H i) x := by
  simp only [HiSums, xV]; fun_prop

theorem diff_dGE_dxs (A H : Mat N) (h : ∑ k, x k * Vs k ≠ 0) (i : Fin N) :
    DifferentiableAt ℝ (fun x => dGE_dxs Vs (HiSums Vs (xV Vs x) H) (sInv Vs x) (quad Vs A x) i) x := by
  have h1 := diff_sInv h
  have h2 := diff_quad A h
  have h3 := diff_HiSums (Vs := Vs) (x := x) H i
  simp only [dGE_dxs]
  fun_prop

/-- **C26.** `dgammas_dns` (activity.py 957-990) is right for the regular solution. -/
theorem C26_regular_dgammas_dns {R T : ℝ} (hR : R ≠ 0) (hT : T ≠ 0) (h : ∑ k, x k * Vs k ≠ 0)
    (hsum : ∑ i, x i = 1) (i j : Fin N) :
    PD (fun n => gammas R T (quad Vs (Aijs SPs coeffs) fun i => n i / ∑ i, n i) (fun i => n i / ∑ i, n i)
        (fun k => dGE Vs SPs coeffs (fun i => n i / ∑ i, n i) k) i) j x
      (dgammas_dns R T x (gammas R T (quad Vs (Aijs SPs coeffs) x) x (dGE Vs SPs coeffs x))
        (d2GE Vs SPs coeffs x) i j) := by
  refine C23_dgammas_dns_partial (GE := quad Vs (Aijs SPs coeffs)) (g := fun k x => dGE Vs SPs coeffs x k)
    (h := d2GE Vs SPs coeffs x) hR hT hsum (diff_quad _ h) (fun i => ?_)
    (fun j => (C26_regular_derivatives h j j j).1) (fun i j => (C26_regular_derivatives h i j j).2.1)
    d2GE_symm (fun i j => by rw [d2GE_row h, d2GE_row h]) i j
  simp only [dGE_eq]
  exact diff_dGE_dxs _ _ h i

example (i j : Fin 2) := C26_regular_dgammas_dns (R := 8) (T := 300) (Vs := ![1, 2]) (x := ![1 / 4, 3 / 4])
  (SPs := ![3, 5]) (coeffs := fun i j => ![![0, 1], ![2, 0]] i j) (by norm_num) (by norm_num)
  (by simp [Fin.sum_univ_two]; norm_num) (by simp [Fin.sum_univ_two]; norm_num) i j

/-- **C26.** The energy does not depend on temperature, as the zero temperature derivatives say
(906-955). -/
theorem C26_regular_temperature (A : Mat N) (T : ℝ) :
    HasDerivAt (fun _ : ℝ => quad Vs A x) 0 T := hasDerivAt_const _ _

end Composition

/-! ## C26: the binary functions -/

/-- **C26.** The binary function is the general one for two components, when the result is at most the
cap `1e10` and the parameters are within the clamps. -/
theorem C26_regular_binary {R x0 V0 V1 SP0 SP1 T l12 l21 : ℝ} (h : x0 * V0 + (1 - x0) * V1 ≠ 0)
    (h1 : |l12| ≤ 10 ^ 100) (h2 : |l21| ≤ 10 ^ 100) :
    let g := gammasFromArgs R T ![x0, 1 - x0] ![V0, V1] ![SP0, SP1] (fun i j => ![![0, l12], ![l21, 0]] i j)
    binary R x0 V0 V1 SP0 SP1 T l12 l21 = (min (g 0) (10 ^ 10), min (g 1) (10 ^ 10)) := by
  intro g
  have c : ∀ l : ℝ, |l| ≤ 10 ^ 100 → clamp l = l := by
    intro l hl
    have := abs_le.mp hl
    simp only [clamp]
    rw [if_neg (by linarith [this.1] : ¬ l < -10 ^ 100), if_neg (by linarith [this.2])]
  have hs : ∑ k, (![x0, 1 - x0] : Fin 2 → ℝ) k * (![V0, V1] : Fin 2 → ℝ) k ≠ 0 := by
    simpa [Fin.sum_univ_two] using h
  have e0 := (C26_regular_gammas (SPs := ![SP0, SP1]) (coeffs := fun i j => ![![0, l12], ![l21, 0]] i j) R T hs 0).2
  have e1 := (C26_regular_gammas (SPs := ![SP0, SP1]) (coeffs := fun i j => ![![0, l12], ![l21, 0]] i j) R T hs 1).2
  simp only [binary, c l12 h1, c l21 h2, g]
  rw [e0, e1]
  obtain ⟨u, hu⟩ : ∃ u, u = 1 - x0 := ⟨_, rfl⟩
  obtain ⟨S, hS⟩ : ∃ S, S = x0 * V0 + u * V1 := ⟨_, rfl⟩
  have hS0 : S ≠ 0 := by rw [hS, hu]; exact h
  by_cases hRT : R * T = 0
  · rcases mul_eq_zero.mp hRT with h | h <;> simp [h]
  have hR : R ≠ 0 := fun e => hRT (by simp [e])
  have hT : T ≠ 0 := fun e => hRT (by simp [e])
  refine Prod.ext ?_ ?_
  · simp only
    congr 2
    simp only [dGE, dGE_dxs, HiSums, GEfromA, sInv, xV, His, Aijs, Fin.sum_univ_two, Matrix.cons_val_zero,
      Matrix.cons_val_one, ← hu, ← hS]
    have hx : x0 * V0 = S - u * V1 := by rw [hS]; ring
    simp only [hx]
    field_simp
    ring
  · simp only
    congr 2
    simp only [dGE, dGE_dxs, HiSums, GEfromA, sInv, xV, His, Aijs, Fin.sum_univ_two, Matrix.cons_val_zero,
      Matrix.cons_val_one, ← hu, ← hS]
    have hx : u * V1 = S - x0 * V0 := by rw [hS]; ring
    simp only [hx]
    field_simp
    ring

example := C26_regular_binary (R := 8) (x0 := 1 / 4) (V0 := 1) (V1 := 2) (SP0 := 3) (SP1 := 5) (T := 300)
  (l12 := 1) (l21 := 2) (by norm_num) (by norm_num) (by norm_num)

set_option maxHeartbeats 1000000 in
/-- **C26.** The Jacobian of the binary function with respect to its two parameters, for parameters
strictly within the clamps and activity coefficients below the cap `1e10`. -/
theorem C26_regular_binary_jac {R x0 V0 V1 SP0 SP1 T l12 l21 : ℝ} (h : x0 * V0 + (1 - x0) * V1 ≠ 0)
    (h1 : |l12| < 10 ^ 100) (h2 : |l21| < 10 ^ 100)
    (hc0 : (binary R x0 V0 V1 SP0 SP1 T l12 l21).1 < 10 ^ 10)
    (hc1 : (binary R x0 V0 V1 SP0 SP1 T l12 l21).2 < 10 ^ 10) :
    let J := binaryJac R x0 V0 V1 SP0 SP1 T l12 l21
    HasDerivAt (fun l => (binary R x0 V0 V1 SP0 SP1 T l l21).1) J.1.1 l12 ∧
    HasDerivAt (fun l => (binary R x0 V0 V1 SP0 SP1 T l12 l).1) J.1.2 l21 ∧
    HasDerivAt (fun l => (binary R x0 V0 V1 SP0 SP1 T l l21).2) J.2.1 l12 ∧
    HasDerivAt (fun l => (binary R x0 V0 V1 SP0 SP1 T l12 l).2) J.2.2 l21 := by
  intro J
  have c : ∀ l : ℝ, |l| < 10 ^ 100 → clamp l = l := by
    intro l hl
    have := abs_lt.mp hl
    simp only [clamp]
    rw [if_neg (by linarith [this.1] : ¬ l < -10 ^ 100), if_neg (by linarith [this.2])]
  have cn : ∀ l : ℝ, |l| < 10 ^ 100 → ∀ᶠ m in nhds l, clamp m = m := by
    intro l hl
    filter_upwards [(isOpen_lt continuous_abs continuous_const).mem_nhds hl] with m hm using c m hm
  -- a function `l ↦ min (exp (V p p ((k + l s) (1/R) / T))) cap` below the cap
  have key : ∀ (V p k s l : ℝ), min (exp (V * p * p * ((k + l * s) * (1 / R) / T))) (10 ^ 10) < 10 ^ 10 →
      HasDerivAt (fun l => min (exp (V * p * p * ((k + l * s) * (1 / R) / T))) (10 ^ 10))
        (exp (V * p * p * ((k + l * s) * (1 / R) / T)) * (V * p * p * (s * (1 / R) / T))) l := by
    intro V p k s l hm
    have hm' : exp (V * p * p * ((k + l * s) * (1 / R) / T)) < 10 ^ 10 := by
      rcases min_lt_iff.mp hm with h | h
      · exact h
      · exact absurd h (lt_irrefl _)
    have d : HasDerivAt (fun l => exp (V * p * p * ((k + l * s) * (1 / R) / T)))
        (exp (V * p * p * ((k + l * s) * (1 / R) / T)) * (V * p * p * (s * (1 / R) / T))) l := by
      refine HasDerivAt.congr_deriv (((((((hasDerivAt_id l).mul_const s).const_add k).mul_const (1 / R)).div_const
        T).const_mul (V * p * p)).exp) ?_
      simp only [id]
      ring
    refine d.congr_of_eventuallyEq ?_
    filter_upwards [d.continuousAt.eventually_lt continuousAt_const hm'] with m hm2
    exact min_eq_left hm2.le
  have hS := h
  obtain ⟨u, hu⟩ : ∃ u, u = 1 - x0 := ⟨_, rfl⟩
  have comm : V0 * x0 + V1 * (1 - x0) = x0 * V0 + (1 - x0) * V1 := by ring
  obtain ⟨S, hS'⟩ : ∃ S, S = x0 * V0 + (1 - x0) * V1 := ⟨_, rfl⟩
  rw [← hS'] at hS
  simp only [binary, c l12 h1, c l21 h2] at hc0 hc1
  refine ⟨?_, ?_, ?_, ?_⟩
  · have k := key V0 ((1 - x0) * V1 * (1 / (x0 * V0 + (1 - x0) * V1))) ((SP0 - SP1) * (SP0 - SP1) + l21 * SP0 * SP1)
      (SP0 * SP1) l12 (by convert hc0 using 6 <;> ring)
    refine (k.congr_of_eventuallyEq ?_).congr_deriv ?_
    · filter_upwards [cn l12 h1] with l hl
      simp only [binary, hl, c l21 h2]
      exact congrArg (fun z => min (exp (V0 * ((1 - x0) * V1 * (1 / (x0 * V0 + (1 - x0) * V1)))
        * ((1 - x0) * V1 * (1 / (x0 * V0 + (1 - x0) * V1))) * (z * (1 / R) / T))) (10 ^ 10))
        (by ring : (SP0 - SP1) * (SP0 - SP1) + l * SP0 * SP1 + l21 * SP0 * SP1
          = ((SP0 - SP1) * (SP0 - SP1) + l21 * SP0 * SP1) + l * (SP0 * SP1))
    · simp only [J, binaryJac, c l12 h1, c l21 h2, comm, ← hS', ← hu]
      rw [mul_comm]
      congr 1
      · field_simp
      · congr 1
        field_simp
        ring
  · have k := key V0 ((1 - x0) * V1 * (1 / (x0 * V0 + (1 - x0) * V1))) ((SP0 - SP1) * (SP0 - SP1) + l12 * SP0 * SP1)
      (SP0 * SP1) l21 (by convert hc0 using 6 <;> ring)
    refine (k.congr_of_eventuallyEq ?_).congr_deriv ?_
    · filter_upwards [cn l21 h2] with l hl
      simp only [binary, hl, c l12 h1]
      exact congrArg (fun z => min (exp (V0 * ((1 - x0) * V1 * (1 / (x0 * V0 + (1 - x0) * V1)))
        * ((1 - x0) * V1 * (1 / (x0 * V0 + (1 - x0) * V1))) * (z * (1 / R) / T))) (10 ^ 10))
        (by ring : (SP0 - SP1) * (SP0 - SP1) + l12 * SP0 * SP1 + l * SP0 * SP1
          = ((SP0 - SP1) * (SP0 - SP1) + l12 * SP0 * SP1) + l * (SP0 * SP1))
    · simp only [J, binaryJac, c l12 h1, c l21 h2, comm, ← hS', ← hu]
      rw [mul_comm]
      congr 1
      · field_simp
      · congr 1
        field_simp
        ring
  · have k := key V1 (x0 * V0 * (1 / (x0 * V0 + (1 - x0) * V1))) ((SP0 - SP1) * (SP0 - SP1) + l21 * SP0 * SP1)
      (SP0 * SP1) l12 (by convert hc1 using 6 <;> ring)
    refine (k.congr_of_eventuallyEq ?_).congr_deriv ?_
    · filter_upwards [cn l12 h1] with l hl
      simp only [binary, hl, c l21 h2]
      exact congrArg (fun z => min (exp (V1 * (x0 * V0 * (1 / (x0 * V0 + (1 - x0) * V1)))
        * (x0 * V0 * (1 / (x0 * V0 + (1 - x0) * V1))) * (z * (1 / R) / T))) (10 ^ 10))
        (by ring : (SP0 - SP1) * (SP0 - SP1) + l * SP0 * SP1 + l21 * SP0 * SP1
          = ((SP0 - SP1) * (SP0 - SP1) + l21 * SP0 * SP1) + l * (SP0 * SP1))
    · simp only [J, binaryJac, c l12 h1, c l21 h2, comm, ← hS', ← hu]
      rw [mul_comm]
      congr 1
      · field_simp
      · congr 1
        field_simp
        ring
  · have k := key V1 (x0 * V0 * (1 / (x0 * V0 + (1 - x0) * V1))) ((SP0 - SP1) * (SP0 - SP1) + l12 * SP0 * SP1)
      (SP0 * SP1) l21 (by convert hc1 using 6 <;> ring)
    refine (k.congr_of_eventuallyEq ?_).congr_deriv ?_
    · filter_upwards [cn l21 h2] with l hl
      simp only [binary, hl, c l12 h1]
      exact congrArg (fun z => min (exp (V1 * (x0 * V0 * (1 / (x0 * V0 + (1 - x0) * V1)))
        * (x0 * V0 * (1 / (x0 * V0 + (1 - x0) * V1))) * (z * (1 / R) / T))) (10 ^ 10))
        (by ring : (SP0 - SP1) * (SP0 - SP1) + l12 * SP0 * SP1 + l * SP0 * SP1
          = ((SP0 - SP1) * (SP0 - SP1) + l12 * SP0 * SP1) + l * (SP0 * SP1))
    · simp only [J, binaryJac, c l12 h1, c l21 h2, comm, ← hS', ← hu]
      rw [mul_comm]
      congr 1
      · field_simp
      · congr 1
        field_simp
        ring

example := C26_regular_binary_jac (R := 1) (x0 := 1 / 2) (V0 := 1) (V1 := 1) (SP0 := 1) (SP1 := 1) (T := 1)
  (l12 := 1) (l21 := 0) (by norm_num) (by norm_num) (by norm_num)
  (by
    have c1 : clamp 1 = 1 := by simp only [clamp]; norm_num
    have c0 : clamp 0 = 0 := by simp only [clamp]; norm_num
    have h : exp (1 / 4 : ℝ) < 10 ^ 10 :=
      lt_of_le_of_lt (exp_le_exp.mpr (by norm_num : (1 / 4 : ℝ) ≤ 1)) (by have := exp_one_lt_d9; norm_num; linarith)
    simp only [binary, c1, c0]
    refine lt_of_le_of_lt (min_le_left _ _) ?_
    norm_num at h ⊢
    exact h)
  (by
    have c1 : clamp 1 = 1 := by simp only [clamp]; norm_num
    have c0 : clamp 0 = 0 := by simp only [clamp]; norm_num
    have h : exp (1 / 4 : ℝ) < 10 ^ 10 :=
      lt_of_le_of_lt (exp_le_exp.mpr (by norm_num : (1 / 4 : ℝ) ≤ 1)) (by have := exp_one_lt_d9; norm_num; linarith)
    simp only [binary, c1, c0]
    refine lt_of_le_of_lt (min_le_left _ _) ?_
    norm_num at h ⊢
    exact h)

/-- **C26, disagreement.** The Jacobian does not follow the cap: where the activity coefficient is held at
`1e10` the function is locally constant in its parameters, while the reported slope is not zero. -/
theorem C26_regular_binary_jac_cap_fails :
    ∃ R x0 V0 V1 SP0 SP1 T l12 l21 : ℝ,
      HasDerivAt (fun l => (binary R x0 V0 V1 SP0 SP1 T l l21).1) 0 l12 ∧
      (binaryJac R x0 V0 V1 SP0 SP1 T l12 l21).1.1 ≠ 0 := by
  refine ⟨1, 0, 1, 1, 1, 1, 1, 100, 0, ?_, ?_⟩
  · have hb : (10 : ℝ) ^ 10 < exp 50 := by
      have h2 : (2 : ℝ) ≤ exp 1 := by have := add_one_le_exp (1 : ℝ); linarith
      have : (2 : ℝ) ^ 50 ≤ exp 1 ^ 50 := pow_le_pow_left₀ (by norm_num) h2 50
      have e : exp 1 ^ 50 = exp 50 := by rw [← exp_nat_mul]; norm_num
      rw [e] at this
      refine lt_of_lt_of_le ?_ this
      norm_num
    have : (fun l => (binary 1 0 1 1 1 1 1 l 0).1) =ᶠ[nhds 100] fun _ => (10 : ℝ) ^ 10 := by
      filter_upwards [isOpen_lt continuous_const continuous_id |>.mem_nhds (show (50 : ℝ) < 100 by norm_num),
        isOpen_lt continuous_id continuous_const |>.mem_nhds (show (100 : ℝ) < 200 by norm_num)] with l h1 h2
      simp only [id] at h1 h2
      have h1' : (50 : ℝ) < l := h1
      have h2' : l < 200 := h2
      have cl : clamp l = l := by
        simp only [clamp]
        rw [if_neg (by norm_num; linarith : ¬ l < -10 ^ 100), if_neg (by norm_num; linarith)]
      have c0 : clamp 0 = 0 := by simp only [clamp]; norm_num
      simp only [binary, cl, c0]
      norm_num
      refine le_trans (by norm_num at hb ⊢; exact hb.le) (exp_le_exp.mpr h1'.le)
    exact (hasDerivAt_const (100 : ℝ) ((10 : ℝ) ^ 10)).congr_of_eventuallyEq this
  · have c1 : clamp 100 = 100 := by simp only [clamp]; norm_num
    have c0 : clamp 0 = 0 := by simp only [clamp]; norm_num
    simp only [binaryJac, c1, c0]
    norm_num

/-! ## C54: Flory-Huggins and Hansen -/

section FloryHuggins

variable {Vs x SPs : Fin N → ℝ} {A coeffs : Mat N} {R T : ℝ}

/-- **C54.** For positive mole fractions the combinatorial term is `Σ x ln(φ/x)` with volume fractions `φ`. -/
theorem C54_volume_fraction (hx : ∀ i, 0 < x i) :
    fhSpec R T Vs A x
      = R * T * (∑ i, x i * log ((x i * Vs i / ∑ k, x k * Vs k) / x i)) + quad Vs A x := by
  simp only [fhSpec]
  congr 2
  refine sum_congr rfl fun i _ => ?_
  rw [show (x i * Vs i / ∑ k, x k * Vs k) / x i = Vs i / ∑ k, x k * Vs k by
    have := (hx i).ne'; field_simp]

example := C54_volume_fraction (R := 8) (T := 300) (Vs := ![1, 2]) (x := ![1 / 4, 3 / 4])
  (A := fun _ _ => 1) (by intro i; fin_cases i <;> simp)

/-- **C54.** `flory_huggins_GE` computes the expression. -/
theorem C54_GE : fhGE R T x Vs A (xV Vs x) (sInv Vs x) = fhSpec R T Vs A x := by
  simp only [fhGE, fhSpec, GEfromA, quad, xV, sInv, mul_one_div]

theorem strip_eq : fhStrip R T (fhSpec R T Vs A x) x Vs (sInv Vs x) = quad Vs A x := by
  simp only [fhStrip, fhSpec, sInv, mul_one_div]
  have : ∑ i, R * T * x i * log (Vs i / ∑ k, x k * Vs k) = R * T * ∑ i, x i * log (Vs i / ∑ k, x k * Vs k) := by
    rw [mul_sum]; exact sum_congr rfl fun i _ => by ring
  rw [this]
  ring

theorem pd_logV (hV : ∀ i, 0 < Vs i) (h : 0 < ∑ k, x k * Vs k) (i j : Fin N) :
    PD (fun x => log (Vs i * sInv Vs x)) j x (-(Vs j * sInv Vs x)) := by
  have hs : sInv Vs x ≠ 0 := by simp only [sInv]; exact (one_div_pos.mpr h).ne'
  have := PD.comp (hasDerivAt_log (mul_ne_zero (hV i).ne' hs)) (PD.const_mul (Vs i) (pd_sInv h.ne' j))
  refine PD.congr_d this ?_
  have := (hV i).ne'
  field_simp

/-- The exact gradient at any composition, normalised or not. -/
noncomputable def fhGrad (R T : ℝ) (Vs : Fin N → ℝ) (A H : Mat N) (i : Fin N) (x : Fin N → ℝ) : ℝ :=
  dGE_dxs Vs (HiSums Vs (xV Vs x) H) (sInv Vs x) (quad Vs A x) i
    + R * T * (log (Vs i * sInv Vs x) - (∑ k, x k) * (Vs i * sInv Vs x))

theorem pd_sumx (j : Fin N) (x : Fin N → ℝ) : PD (fun x : Fin N → ℝ => ∑ k, x k) j x 1 := by
  have := PD.linear (fun _ => 1) j x
  simpa using this

theorem pd_fh {H : Mat N} (hH : ∀ i j, H i j = A i j + A j i) (hV : ∀ i, 0 < Vs i)
    (h : 0 < ∑ k, x k * Vs k) (j : Fin N) : PD (fhSpec R T Vs A) j x (fhGrad R T Vs A H j x) := by
  have e : fhSpec R T Vs A = fun x => R * T * (∑ i, x i * log (Vs i * sInv Vs x)) + quad Vs A x := by
    funext x; simp only [fhSpec, sInv, mul_one_div]
  rw [e]
  have := (PD.const_mul (R * T) (PD.sum (s := univ) fun i _ => PD.mul (PD.coord i j x)
    (pd_logV hV h i j))).add (pd_quad hH h.ne' j)
  refine PD.congr_d this ?_
  simp only [fhGrad, sum_add_distrib, ite_mul, one_mul, zero_mul, sum_ite_eq', mem_univ, if_true, ← sum_mul]
  ring

theorem pd2_fh {H : Mat N} (hH : ∀ i j, H i j = A i j + A j i) (hV : ∀ i, 0 < Vs i)
    (h : 0 < ∑ k, x k * Vs k) (i j : Fin N) :
    PD (fhGrad R T Vs A H i) j x
      (Vs j * ((Vs i * quad Vs A x - HiSums Vs (xV Vs x) H i) * sInv Vs x * sInv Vs x)
        + Vs i * sInv Vs x * (Vs j * H i j - dGE_dxs Vs (HiSums Vs (xV Vs x) H) (sInv Vs x) (quad Vs A x) j)
        + R * T * (sInv Vs x * ((∑ k, x k) * (Vs i * sInv Vs x * Vs j) - Vs i - Vs j))) := by
  have := (pd2_quad hH h.ne' i j).add (PD.const_mul (R * T) ((pd_logV hV h i j).sub
    (PD.mul (pd_sumx j x) (PD.const_mul (Vs i) (pd_sInv h.ne' j)))))
  refine PD.congr_d this ?_
  ring

/-- **C54.** `flory_huggins_dGE_dxs`, `..._d2GE_dxixjs` and `..._d3GE_dxixjxks` are the successive
composition derivatives of the Flory-Huggins energy at a normalised composition: `g` and `h` are the exact
first and second derivatives everywhere, and the code's values are `g`, and the derivatives of `g` and `h`,
at `x`. -/
theorem C54_derivatives (hV : ∀ i, 0 < Vs i) (hS : 0 < ∑ k, x k * Vs k) (hx : ∑ i, x i = 1) :
    let A := Aijs SPs coeffs
    let Hs := HiSums Vs (xV Vs x) (His SPs coeffs)
    let G := fhGE R T x Vs A (xV Vs x) (sInv Vs x)
    ∃ (g : Fin N → (Fin N → ℝ) → ℝ) (h : Fin N → Fin N → (Fin N → ℝ) → ℝ),
      (∀ y, 0 < ∑ k, y k * Vs k → ∀ i, PD (fhSpec R T Vs A) i y (g i y)) ∧
      (∀ y, 0 < ∑ k, y k * Vs k → ∀ i j, PD (g i) j y (h i j y)) ∧
      (∀ i, g i x = fhdGE_dxs R T x Vs Hs (sInv Vs x) G i) ∧
      (∀ i j, h i j x = fhd2GE_dxixjs R T G x Vs SPs Hs coeffs (sInv Vs x) i j) ∧
      (∀ i j k, PD (h i j) k x (fhd3GE_dxixjxks R T G x Vs SPs Hs coeffs (sInv Vs x) i j k)) := by
  intro A Hs G
  have hH := HAeq SPs coeffs
  have hG : fhStrip R T G x Vs (sInv Vs x) = quad Vs A x := by
    simp only [G, C54_GE, strip_eq]
  refine ⟨fhGrad R T Vs A (His SPs coeffs), fun i j x =>
    d2GE Vs SPs coeffs x i j + R * T * (sInv Vs x * ((∑ k, x k) * (Vs i * sInv Vs x * Vs j) - Vs i - Vs j)),
    fun y hy i => pd_fh hH hV hy i, fun y hy i j => ?_, fun i => ?_, fun i j => ?_, fun i j k => ?_⟩
  · refine PD.congr_d (pd2_fh hH hV hy i j) ?_
    simp only [d2GE, d2GE_dxixjs, dGE_eq, (C26_regular_GE SPs Vs y coeffs).2.1, His, A]
  · simp only [fhGrad, fhdGE_dxs, hG, hx, one_mul, Hs]
  · simp only [fhd2GE_dxixjs, hG, hx, one_mul, Hs, d2GE, dGE_eq, (C26_regular_GE SPs Vs x coeffs).2.1, A]
    ring
  · have hs := pd_sInv hS.ne' k
    have := ((C26_regular_derivatives (SPs := SPs) (coeffs := coeffs) hS.ne' i j k).2.2).add
      (PD.const_mul (R * T) (PD.mul hs ((((PD.mul (pd_sumx k x) (PD.mul_const (Vs j)
        (PD.const_mul (Vs i) hs)))).sub (PD.const (Vs i))).sub (PD.const (Vs j)))))
    refine PD.congr_d this ?_
    simp only [fhd3GE_dxixjxks, hG, Hs, d3GE, d2GE, dGE_eq, (C26_regular_GE SPs Vs x coeffs).2.1, A]
    have e : ∑ m, -2 * Vs i * Vs j * Vs k * x m * sInv Vs x * sInv Vs x * sInv Vs x
        = -2 * Vs i * Vs j * Vs k * sInv Vs x * sInv Vs x * sInv Vs x * ∑ m, x m := by
      rw [mul_sum]; exact sum_congr rfl fun m _ => by ring
    rw [e, hx]
    ring

example := C54_derivatives (R := 8) (T := 300) (Vs := ![1, 2]) (x := ![1 / 4, 3 / 4]) (SPs := ![3, 5])
  (coeffs := fun i j => ![![0, 1], ![2, 0]] i j) (by intro i; fin_cases i <;> simp)
  (by simp [Fin.sum_univ_two]; norm_num) (by simp [Fin.sum_univ_two]; norm_num)

theorem diff_logV (hV : ∀ i, 0 < Vs i) (h : 0 < ∑ k, x k * Vs k) (i : Fin N) :
    DifferentiableAt ℝ (fun x => log (Vs i * sInv Vs x)) x := by
  have hs : sInv Vs x ≠ 0 := by simp only [sInv]; exact (one_div_pos.mpr h).ne'
  exact DifferentiableAt.log (f := fun x => Vs i * sInv Vs x) (x := x) ((diff_sInv h.ne').const_mul _)
    (mul_ne_zero (hV i).ne' hs)

/-- **C54.** Activity coefficients and `dgammas_dns` of Flory-Huggins: `ln γ` is the mole-number derivative
of the extensive energy, and `dgammas_dns` the derivative of `γ`. -/
theorem C54_gammas (hR : R ≠ 0) (hT : T ≠ 0) (hV : ∀ i, 0 < Vs i) (hS : 0 < ∑ k, x k * Vs k)
    (hx : ∑ i, x i = 1) (i j : Fin N) :
    let A := Aijs SPs coeffs
    let H := His SPs coeffs
    let code := fun x : Fin N → ℝ => fhdGE_dxs R T x Vs (HiSums Vs (xV Vs x) H) (sInv Vs x)
      (fhGE R T x Vs A (xV Vs x) (sInv Vs x))
    PD (extensive (fhSpec R T Vs A)) i x
      (R * T * log (gammas R T (fhGE R T x Vs A (xV Vs x) (sInv Vs x)) x (code x) i)) ∧
    PD (fun n => gammas R T (fhSpec R T Vs A fun i => n i / ∑ i, n i) (fun i => n i / ∑ i, n i)
        (fun k => fhGrad R T Vs A H k (fun i => n i / ∑ i, n i)) i) j x
      (dgammas_dns R T x (gammas R T (fhGE R T x Vs A (xV Vs x) (sInv Vs x)) x (code x))
        (fhd2GE_dxixjs R T (fhGE R T x Vs A (xV Vs x) (sInv Vs x)) x Vs SPs
          (HiSums Vs (xV Vs x) H) coeffs (sInv Vs x)) i j) := by
  intro A H code
  have hH := HAeq SPs coeffs
  have hcode : code x = fun k => fhGrad R T Vs A H k x := by
    funext k
    simp only [code, fhGrad, fhdGE_dxs, C54_GE, strip_eq, hx, one_mul]
  have dq := diff_quad A hS.ne'
  have dfh : DifferentiableAt ℝ (fhSpec R T Vs A) x := by
    have dl := diff_logV hV hS
    have e : fhSpec R T Vs A = fun x => R * T * (∑ i, x i * log (Vs i * sInv Vs x)) + quad Vs A x := by
      funext x; simp only [fhSpec, sInv, mul_one_div]
    rw [e]
    fun_prop
  constructor
  · have e : (fun i => x i / ∑ i, x i) = x := by funext i; rw [hx, div_one]
    obtain ⟨d, hd, _, hg⟩ := C23_gammas (R := R) (T := T) (GE := fhSpec R T Vs A) (n := x)
      (g := fun k => fhGrad R T Vs A H k x) (by rw [hx]; norm_num)
      (by rw [e]; exact dfh) (by rw [e]; exact fun j => pd_fh hH hV hS j) i
    refine hd.congr_d ?_
    rw [C54_GE, hcode]
    simp only [e] at hg
    rw [hg, log_exp]
    field_simp
  · rw [C54_GE, hcode]
    refine C23_dgammas_dns_partial (GE := fhSpec R T Vs A) (g := fhGrad R T Vs A H) hR hT hx dfh
      (fun k => ?_) (fun k => pd_fh hH hV hS k) (fun k m => ?_) ?_ ?_ i j
    · have dl := diff_logV hV hS k
      have dg := diff_dGE_dxs A H hS.ne' k
      have ds := diff_sInv hS.ne'
      have e : fhGrad R T Vs A H k = fun x => dGE_dxs Vs (HiSums Vs (xV Vs x) H) (sInv Vs x) (quad Vs A x) k
        + R * T * (log (Vs k * sInv Vs x) - (∑ k, x k) * (Vs k * sInv Vs x)) := rfl
      rw [e]
      fun_prop
    · refine PD.congr_d (pd2_fh hH hV hS k m) ?_
      simp only [fhd2GE_dxixjs, strip_eq, hx, one_mul, d2GE_dxixjs, H, His]
      ring
    · intro k m
      have := d2GE_symm (Vs := Vs) (x := x) (SPs := SPs) (coeffs := coeffs) k m
      simp only [fhd2GE_dxixjs, strip_eq]
      simp only [d2GE, dGE_eq, (C26_regular_GE SPs Vs x coeffs).2.1] at this
      rw [this]
      ring
    · have hz : ∀ k, ∑ m, x m * fhd2GE_dxixjs R T (fhSpec R T Vs A x) x Vs SPs
          (HiSums Vs (xV Vs x) H) coeffs (sInv Vs x) k m = -(R * T) := by
        intro k
        have h0 := d2GE_row (Vs := Vs) (x := x) (SPs := SPs) (coeffs := coeffs) hS.ne' k
        simp only [d2GE, dGE_eq, (C26_regular_GE SPs Vs x coeffs).2.1] at h0
        simp only [fhd2GE_dxixjs, strip_eq, mul_add, sum_add_distrib]
        rw [h0, zero_add]
        have e : ∀ m, x m * (R * T * sInv Vs x * (Vs k * sInv Vs x * Vs m - Vs k - Vs m))
            = R * T * sInv Vs x * (Vs k * sInv Vs x - 1) * (x m * Vs m) - R * T * sInv Vs x * Vs k * x m := by
          intro m; ring
        simp only [e, sum_sub_distrib, ← mul_sum, hx]
        have e3 : (∑ k, x k * Vs k) * sInv Vs x = 1 := by simp only [sInv]; field_simp
        linear_combination (R * T * (Vs k * sInv Vs x - 1)) * e3
      intro k m
      rw [hz, hz]

example (i j : Fin 2) := C54_gammas (R := 8) (T := 300) (Vs := ![1, 2]) (x := ![1 / 4, 3 / 4]) (SPs := ![3, 5])
  (coeffs := fun i j => ![![0, 1], ![2, 0]] i j) (by norm_num) (by norm_num) (by intro i; fin_cases i <;> simp)
  (by simp [Fin.sum_univ_two]; norm_num) (by simp [Fin.sum_univ_two]; norm_num) i j

/-- **C54, disagreement.** Away from normalised compositions `flory_huggins_dGE_dxs` is not the derivative
of `flory_huggins_GE`: the total of the mole fractions is replaced by one. -/
theorem C54_unnormalised_fails :
    ∃ (Vs x SPs : Fin 1 → ℝ) (coeffs : Mat 1), (∀ i, 0 < Vs i) ∧ (∀ i, 0 < x i) ∧
      ¬ PD (fhSpec 1 1 Vs (Aijs SPs coeffs)) 0 x
        (fhdGE_dxs 1 1 x Vs (HiSums Vs (xV Vs x) (His SPs coeffs)) (sInv Vs x)
          (fhGE 1 1 x Vs (Aijs SPs coeffs) (xV Vs x) (sInv Vs x)) 0) := by
  refine ⟨fun _ => 1, fun _ => 2, fun _ => 0, fun _ _ => 0, by intro i; norm_num, by intro i; norm_num, ?_⟩
  intro hp
  have ht := pd_fh (R := 1) (T := 1) (Vs := fun _ : Fin 1 => (1 : ℝ)) (x := fun _ => 2)
    (HAeq (fun _ => 0) fun _ _ => 0) (by intro i; norm_num) (by simp) 0
  have := PD.unique hp ht
  rw [C54_GE] at this
  simp only [fhdGE_dxs, strip_eq, fhGrad] at this
  simp [sInv] at this

/-- **C54.** `flory_huggins_dGE_dT` is the temperature derivative (the second and third are zero), and `flory_huggins_d2GE_dTdxs` is the temperature derivative of the gradient. -/
theorem C54_temperature (T : ℝ) :
    HasDerivAt (fun T => fhSpec R T Vs A x) (fhdGE_dT R x Vs) T ∧
    HasDerivAt (fun _ : ℝ => fhdGE_dT R x Vs) 0 T ∧
    (∑ i, x i = 1 → ∀ (H : Mat N) (i : Fin N),
      HasDerivAt (fun T => fhGrad R T Vs A H i x) (fhd2GE_dTdxs R x Vs i) T) := by
  refine ⟨?_, hasDerivAt_const _ _, ?_⟩
  · refine HasDerivAt.congr_deriv ((((hasDerivAt_id T).const_mul R).mul_const
      (∑ i, x i * log (Vs i / ∑ k, x k * Vs k))).add_const (quad Vs A x)) ?_
    simp only [fhdGE_dT, mul_one, mul_comm (Vs _) (x _)]
  · intro hx H i
    refine HasDerivAt.congr_deriv ((((hasDerivAt_id T).const_mul R).mul_const
      (log (Vs i * sInv Vs x) - (∑ k, x k) * (Vs i * sInv Vs x))).const_add _) ?_
    simp only [fhd2GE_dTdxs, hx, one_mul, mul_one, sInv, mul_one_div, mul_comm (x _) (Vs _)]

/-- **C54.** Hansen's matrices fit together (`His = Aijs + Aijsᵀ`), so the gradient code, shared with
Flory-Huggins, is the derivative of the Hansen energy at a normalised composition. -/
theorem C54_hansen (dd dp dh : Fin N → ℝ) (alpha : ℝ) (hV : ∀ i, 0 < Vs i) (hS : 0 < ∑ k, x k * Vs k)
    (hx : ∑ i, x i = 1) (i : Fin N) :
    PD (fhSpec R T Vs (hansen dd dp dh alpha (1 / 2))) i x
      (fhdGE_dxs R T x Vs (HiSums Vs (xV Vs x) (hansen dd dp dh alpha 1)) (sInv Vs x)
        (fhGE R T x Vs (hansen dd dp dh alpha (1 / 2)) (xV Vs x) (sInv Vs x)) i) := by
  have hH : ∀ i j, hansen dd dp dh alpha 1 i j
      = hansen dd dp dh alpha (1 / 2) i j + hansen dd dp dh alpha (1 / 2) j i := by
    intro i j; simp only [hansen]; ring
  refine PD.congr_d (pd_fh hH hV hS i) ?_
  simp only [fhGrad, fhdGE_dxs, C54_GE, strip_eq, hx, one_mul]

example (i : Fin 2) := C54_hansen (R := 8) (T := 300) (Vs := ![1, 2]) (x := ![1 / 4, 3 / 4]) ![1, 2] ![3, 4]
  ![5, 6] 1 (by intro i; fin_cases i <;> simp) (by simp [Fin.sum_univ_two]; norm_num)
  (by simp [Fin.sum_univ_two]; norm_num) i

/-- **C54.** The energy of a binary Hansen mixture is `Σ x ln(φ/x)` plus `χ`-terms with
`A₁₂ = ½ α D`, `D` the Hansen distance (a quarter weight on the polar and hydrogen bonding parts). The
class docstring (1553-1556) states `A = α D` without the half; the code has the half. -/
theorem C54_hansen_binary (V0 V1 x0 x1 alpha : ℝ) (dd dp dh : Fin 2 → ℝ) :
    quad ![V0, V1] (hansen dd dp dh alpha (1 / 2)) ![x0, x1]
      = (x0 * V0) * (x1 * V1) / (x0 * V0 + x1 * V1) * (alpha * ((dd 0 - dd 1) ^ 2
        + (dp 0 - dp 1) ^ 2 / 4 + (dh 0 - dh 1) ^ 2 / 4)) := by
  simp only [quad, hansen, Fin.sum_univ_two, Matrix.cons_val_zero, Matrix.cons_val_one]
  ring

end FloryHuggins

end Verif.RegularSolution
