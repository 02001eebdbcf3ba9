import Verif.Util.Deriv

/-!
# C33: temperature derivatives of the attraction, equations of `eos.py`

`thermo/eos.py`: `a_alpha_pure`, `a_alpha_and_derivatives_pure` of each equation of state and
`PR.d3a_alpha_dT3_pure`; `thermo/eos_alpha_functions.py`: the `*_vectorized` functions (230-1140).

The specification is `Verif.Exact`: the value returned with the derivatives is the value of `a_alpha_pure`, and
the derivatives are its true derivatives. Reals instead of floats; `x**0.5` and `sqrt` are `√`, `x**-0.5` is
`1/√x`.
-/

namespace Verif.Alpha

open Verif

noncomputable section

/-! ### Definitions -/

/-- `PR.a_alpha_pure` (7527-7528). -/
def prPure (a Tc kappa T : ℝ) : ℝ :=
  let x0 := 1 + kappa * (1 - √(T / Tc))
  a * x0 * x0

/-- `PR.a_alpha_and_derivatives_pure` (7582-7593). -/
def prFull (a Tc kappa T : ℝ) : V3 :=
  let x0 := √T
  let x1 := 1 / √Tc
  let x2 := kappa * (x0 * x1 - 1) - 1
  let x3 := a * kappa
  let x4 := x1 * x2 / x0
  ⟨a * x2 * x2, x4 * x3, 0.5 * x3 * (kappa * x1 * x1 - x4) / T⟩

/-- `PR.d3a_alpha_dT3_pure` (7629-7633). -/
def prThird (a Tc kappa T : ℝ) : ℝ :=
  let x0 := 1 / Tc
  let T_inv := 1 / T
  let x1 := √(T * x0)
  (-a) * 0.75 * kappa * (kappa * x0 - x1 * (kappa * (x1 - 1) - 1) * T_inv) * T_inv * T_inv

/-- `PRSV.a_alpha_pure` (8807-8811). -/
def prsvPure (a Tc kappa0 kappa1 T : ℝ) : ℝ :=
  let Tr := T / Tc
  let sqrtTr := √Tr
  let v := (kappa0 + kappa1 * (sqrtTr + 1) * (-Tr + 0.7)) * (-sqrtTr + 1) + 1
  a * v * v

/-- `PRSV.a_alpha_and_derivatives_pure` (8757-8775). -/
def prsvFull (a Tc kappa0 kappa1 T : ℝ) : V3 :=
  let x1 := T / Tc
  let T_inv := 1 / T
  let x2 := √x1
  let x3 := x2 - 1
  let x4 := 10 * x1 - 7
  let x5 := x2 + 1
  let x6 := 10 * kappa0 - kappa1 * x4 * x5
  let x7 := x3 * x6
  let x8 := x7 * 0.1 - 1
  let x10 := x6 * T_inv
  let x11 := kappa1 * x3
  let x12 := x4 * T_inv
  let x13 := 20 / Tc * x5 + x12 * x2
  let x14 := (-x10) * x2 + x11 * x13
  ⟨a * x8 * x8, -a * x14 * x8 * 0.1,
    a * (x14 * x14 - x2 * T_inv * (x7 - 10) * (2 * kappa1 * x13 + x10 + x11 * (40 * x1 * T_inv - x12))) * (1 / 200)⟩

/-- `PRSV2.a_alpha_pure` (9076-9081). -/
def prsv2Pure (a Tc kappa0 kappa1 kappa2 kappa3 T : ℝ) : ℝ :=
  let Tr := T / Tc
  let sqrtTr := √Tr
  let kappa := kappa0 + ((kappa1 + kappa2 * (kappa3 - Tr) * (1 - sqrtTr)) * (1 + sqrtTr) * (0.7 - Tr))
  let x0 := 1 + kappa * (1 - sqrtTr)
  a * x0 * x0

/-- `PRSV2.a_alpha_and_derivatives_pure` (9019-9047). -/
def prsv2Full (a Tc kappa0 kappa1 kappa2 kappa3 T : ℝ) : V3 :=
  let Tc_inv := 1 / Tc
  let T_inv := 1 / T
  let x1 := T * Tc_inv
  let x2 := √x1
  let x3 := x2 - 1
  let x4 := x2 + 1
  let x5 := 10 * x1 - 7
  let x6 := (-kappa3) + x1
  let x7 := kappa1 + kappa2 * x3 * x6
  let x8 := x5 * x7
  let x9 := 10 * kappa0 - x4 * x8
  let x10 := x3 * x9
  let x11 := x10 * 0.1 - 1
  let x13 := x2 * T_inv
  let x14 := x7 * Tc_inv
  let x15 := kappa2 * x4 * x5
  let x16 := 2 * (-x2 + 1) * Tc_inv + x13 * (kappa3 - x1)
  let x17 := (-x13) * x8 - x14 * (20 * x2 + 20) + x15 * x16
  let x18 := x13 * x9 + x17 * x3
  let x19 := x2 * T_inv * T_inv
  let x20 := 2 * x2 * T_inv
  ⟨a * x11 * x11, a * x11 * x18 * 0.1,
    a * (x18 * x18 + (x10 - 10) * (x17 * x20 - x19 * x9
      + x3 * (40 * kappa2 * Tc_inv * x16 * x4 + kappa2 * x16 * x20 * x5
      - 40 * T_inv * x14 * x2 - x15 * T_inv * x2 * (4 * Tc_inv - x6 * T_inv) + x19 * x8))) * (1 / 200)⟩

/-- `RK.a_alpha_pure` (9564-9566). -/
def rkPure (a Tc T : ℝ) : ℝ := a * √(Tc / T)

/-- `RK.a_alpha_and_derivatives_pure` (9539-9545). -/
def rkFull (a Tc T : ℝ) : V3 :=
  let sqrt_Tr_inv := 1 / √(T / Tc)
  let T_inv := 1 / T
  ⟨a * sqrt_Tr_inv, -0.5 * a * T_inv * sqrt_Tr_inv, 0.75 * a * T_inv * T_inv * sqrt_Tr_inv⟩

/-- `SRK.a_alpha_pure` (9899-9902). -/
def srkPure (a Tc m T : ℝ) : ℝ :=
  let sqTr := √(T / Tc)
  let x0 := m * (1 - sqTr) + 1
  a * x0 * x0

/-- `SRK.a_alpha_and_derivatives_pure` (9874-9879). -/
def srkFull (a Tc m T : ℝ) : V3 :=
  let sqTr := √(T / Tc)
  ⟨a * (m * (1 - sqTr) + 1) ^ 2, -a * m * sqTr * (m * (-sqTr + 1) + 1) / T, a * m * sqTr * (m + 1) / (2 * T * T)⟩

/-- `APISRK.a_alpha_pure` (10668-10669). -/
def apiPure (a Tc S1 S2 T : ℝ) : ℝ :=
  a * (S1 * (-√(T / Tc) + 1) + S2 * (-√(T / Tc) + 1) * (1 / √(T / Tc)) + 1) ^ 2

/-- `APISRK.a_alpha_and_derivatives_pure` (10653-10665). -/
def apiFull (a Tc S1 S2 T : ℝ) : V3 :=
  let x0 := √(T / Tc)
  let x1 := x0 - 1
  let x2 := x1 / x0
  let x3 := S2 * x2
  let x4 := S1 * x1 + x3 - 1
  let x5 := S1 * x0
  let x6 := S2 - x3 + x5
  let x7 := 3 * S2
  ⟨a * x4 * x4, a * x4 * x6 / T, a * (-x4 * (-x2 * x7 + x5 + x7) + x6 * x6) / (2 * T * T)⟩

/-- `VDW.a_alpha_pure` (9245) and `VDW.a_alpha_and_derivatives_pure` (9227); `IG` (7249, 7265) is the case
`a = 0`. -/
def vdwPure (a _T : ℝ) : ℝ := a
@[inherit_doc vdwPure] def vdwFull (a _T : ℝ) : V3 := ⟨a, 0, 0⟩

/-! ### Exactness -/

variable {a Tc T : ℝ}

theorem sqrt_split (hTc : 0 < Tc) (t : ℝ) : √t * (1 / √Tc) = √(t / Tc) := by
  rw [mul_one_div, Real.sqrt_div' _ hTc.le]

theorem inv_sqrt_sq (hTc : 0 < Tc) : 1 / √Tc * (1 / √Tc) = 1 / Tc := by
  rw [one_div_mul_one_div, Real.mul_self_sqrt hTc.le]

/-- The derivatives of `PR` in terms of `√(T/Tc)`. -/
theorem prFull_eq (hTc : 0 < Tc) (hT : 0 < T) (kappa : ℝ) : prFull a Tc kappa T
    = ⟨a * (kappa * (√(T / Tc) - 1) - 1) * (kappa * (√(T / Tc) - 1) - 1),
        √(T / Tc) * (kappa * (√(T / Tc) - 1) - 1) / T * (a * kappa),
        0.5 * (a * kappa) * (kappa / Tc - √(T / Tc) * (kappa * (√(T / Tc) - 1) - 1) / T) / T⟩ := by
  have e : ∀ k : ℝ, 1 / √Tc * k / √T = √(T / Tc) * k / T := by
    intro k
    rw [← sqrt_split hTc]
    have h := Real.mul_self_sqrt hT.le
    have h0 := Real.sqrt_pos.mpr hT
    have h1 := Real.sqrt_pos.mpr hTc
    generalize √T = w at *
    subst h
    field_simp
  simp only [prFull, sqrt_split hTc, e]
  rw [mul_assoc kappa, inv_sqrt_sq hTc, mul_one_div]

set_option maxHeartbeats 1000000 in
/-- **C33.** `PR` (and `PR78`, `PRTranslated`, `PRTranslatedPPJP`, which only change `kappa`). -/
theorem C33_PR (hTc : 0 < Tc) (hT : 0 < T) (kappa : ℝ) :
    Exact (fun t => prPure a Tc kappa t) (fun t => prFull a Tc kappa t) T := by
  refine Exact.of_near ?_ ?_ ?_
  · simp only [prFull_eq hTc hT, prPure]; ring
  · filter_upwards [eventually_gt_nhds hT] with t ht
    have hs := hasDerivAt_sqrtTr hTc ht
    obtain ⟨h1, h2⟩ := sqrtTr hTc ht
    rw [prFull_eq hTc ht]
    derive [prPure]
    field_simp
    ring
  · have hs := hasDerivAt_sqrtTr hTc hT
    obtain ⟨h1, h2⟩ := sqrtTr hTc hT
    have e : (fun t => (prFull a Tc kappa t).d) =ᶠ[nhds T]
        fun t => √(t / Tc) * (kappa * (√(t / Tc) - 1) - 1) / t * (a * kappa) := by
      filter_upwards [eventually_gt_nhds hT] with t ht
      rw [prFull_eq hTc ht]
    refine HasDerivAt.congr_of_eventuallyEq ?_ e
    rw [prFull_eq hTc hT]
    derive []
    generalize √(T / Tc) = s at *
    subst h2
    field_simp
    ring

example := C33_PR (a := 2) (Tc := 300) (T := 250) (by norm_num) (by norm_num) (1 / 2)

set_option maxHeartbeats 1000000 in
/-- **C33.** The third derivative of `PR` is the derivative of its second derivative. -/
theorem C33_PR_third (hTc : 0 < Tc) (hT : 0 < T) (kappa : ℝ) :
    HasDerivAt (deriv (deriv fun t => prPure a Tc kappa t)) (prThird a Tc kappa T) T := by
  have e : deriv (deriv fun t => prPure a Tc kappa t) =ᶠ[nhds T] fun t =>
      0.5 * (a * kappa) * (kappa / Tc - √(t / Tc) * (kappa * (√(t / Tc) - 1) - 1) / t) / t := by
    filter_upwards [eventually_gt_nhds hT] with t ht
    rw [(C33_PR hTc ht kappa).second.deriv, prFull_eq hTc ht]
  refine HasDerivAt.congr_of_eventuallyEq ?_ e
  have hs := hasDerivAt_sqrtTr hTc hT
  obtain ⟨h1, h2⟩ := sqrtTr hTc hT
  derive []
  simp only [prThird, mul_one_div]
  generalize √(T / Tc) = s at *
  subst h2
  field_simp
  ring

example := C33_PR_third (a := 2) (Tc := 300) (T := 250) (by norm_num) (by norm_num) (1 / 2)

set_option maxHeartbeats 1000000 in
/-- **C33.** `SRK` (and `SRKTranslated`, `SRKTranslatedPPJP`). -/
theorem C33_SRK (hTc : 0 < Tc) (hT : 0 < T) (m : ℝ) :
    Exact (fun t => srkPure a Tc m t) (fun t => srkFull a Tc m t) T := by
  refine Exact.of_pos (fun T hT => ?_) (fun T hT => ?_) (fun T hT => ?_) hT
  · simp only [srkFull, srkPure]; ring
  all_goals
    have hs := hasDerivAt_sqrtTr hTc hT
    obtain ⟨h1, h2⟩ := sqrtTr hTc hT
    derive [srkPure, srkFull]
    generalize √(T / Tc) = s at *
    subst h2
    field_simp
    ring

example := C33_SRK (a := 2) (Tc := 300) (T := 250) (by norm_num) (by norm_num) (1 / 2)

set_option maxHeartbeats 1000000 in
/-- **C33.** `RK`. -/
theorem C33_RK (hTc : 0 < Tc) (hT : 0 < T) : Exact (fun t => rkPure a Tc t) (fun t => rkFull a Tc t) T := by
  have e : ∀ t, rkPure a Tc t = a * (1 / √(t / Tc)) := fun t => by
    rw [rkPure, one_div, ← Real.sqrt_inv, inv_div]
  refine Exact.of_pos (fun T hT => ?_) (fun T hT => ?_) (fun T hT => ?_) hT
  · simp only [rkFull, e]
  all_goals
    have hs := hasDerivAt_sqrtTr hTc hT
    obtain ⟨h1, h2⟩ := sqrtTr hTc hT
    derive [e, rkFull]
    generalize √(T / Tc) = s at *
    subst h2
    field_simp
    ring

example := C33_RK (a := 2) (Tc := 300) (T := 250) (by norm_num) (by norm_num)

set_option maxHeartbeats 1000000 in
/-- **C33.** `APISRK`. -/
theorem C33_APISRK (hTc : 0 < Tc) (hT : 0 < T) (S1 S2 : ℝ) :
    Exact (fun t => apiPure a Tc S1 S2 t) (fun t => apiFull a Tc S1 S2 t) T := by
  refine Exact.of_pos (fun T hT => ?_) (fun T hT => ?_) (fun T hT => ?_) hT
  · obtain ⟨h1, h2⟩ := sqrtTr hTc hT
    simp only [apiFull, apiPure]
    field_simp
    ring
  all_goals
    have hs := hasDerivAt_sqrtTr hTc hT
    obtain ⟨h1, h2⟩ := sqrtTr hTc hT
    derive [apiPure, apiFull]
    generalize √(T / Tc) = s at *
    subst h2
    field_simp
    ring

example := C33_APISRK (a := 2) (Tc := 300) (T := 250) (by norm_num) (by norm_num) (1 / 2) (1 / 3)

set_option maxHeartbeats 2000000 in
/-- **C33.** `PRSV`. -/
theorem C33_PRSV (hTc : 0 < Tc) (hT : 0 < T) (kappa0 kappa1 : ℝ) :
    Exact (fun t => prsvPure a Tc kappa0 kappa1 t) (fun t => prsvFull a Tc kappa0 kappa1 t) T := by
  refine Exact.of_pos (fun T hT => ?_) (fun T hT => ?_) (fun T hT => ?_) hT
  · simp only [prsvFull, prsvPure]; ring
  all_goals
    have hs := hasDerivAt_sqrtTr hTc hT
    obtain ⟨h1, h2⟩ := sqrtTr hTc hT
    derive [prsvPure, prsvFull]
    generalize √(T / Tc) = s at *
    subst h2
    field_simp
    ring

example := C33_PRSV (a := 2) (Tc := 300) (T := 250) (by norm_num) (by norm_num) (1 / 2) (1 / 3)

set_option maxHeartbeats 4000000 in
/-- **C33.** `PRSV2`. -/
theorem C33_PRSV2 (hTc : 0 < Tc) (hT : 0 < T) (kappa0 kappa1 kappa2 kappa3 : ℝ) :
    Exact (fun t => prsv2Pure a Tc kappa0 kappa1 kappa2 kappa3 t)
      (fun t => prsv2Full a Tc kappa0 kappa1 kappa2 kappa3 t) T := by
  refine Exact.of_pos (fun T hT => ?_) (fun T hT => ?_) (fun T hT => ?_) hT
  · simp only [prsv2Full, prsv2Pure, mul_one_div]; ring
  all_goals
    have hs := hasDerivAt_sqrtTr hTc hT
    obtain ⟨h1, h2⟩ := sqrtTr hTc hT
    derive [prsv2Pure, prsv2Full, mul_one_div]
    generalize √(T / Tc) = s at *
    subst h2
    field_simp
    ring

example := C33_PRSV2 (a := 2) (Tc := 300) (T := 250) (by norm_num) (by norm_num) (1 / 2) (1 / 3) 1 2

/-- **C33.** `VDW`, `IG`: constant attraction. -/
theorem C33_VDW (a T : ℝ) : Exact (fun t => vdwPure a t) (fun t => vdwFull a t) T :=
  ⟨rfl, hasDerivAt_const _ _, by simpa [vdwPure, vdwFull] using hasDerivAt_const T (0 : ℝ)⟩

/-! ### Vectorized versions

One pass of the loops for component `i`; the loops write `a_alphas[i]`, `da_alpha_dTs[i]`, `d2a_alpha_dT2s[i]` for
each `i` independently. -/

/-- `PR_a_alphas_vectorized` (272-279). -/
def prVec {N : ℕ} (T : ℝ) (Tcs ais kappas : Fin N → ℝ) (i : Fin N) : ℝ :=
  let x0_inv := 1 / √T
  let x0 := T * x0_inv
  let x1 := 1 / √(Tcs i)
  let x2 := kappas i * (x0 * x1 - 1) - 1
  ais i * x2 * x2

/-- `PR_a_alpha_and_derivatives_vectorized` (338-357). -/
def prVecFull {N : ℕ} (T : ℝ) (Tcs ais kappas : Fin N → ℝ) (i : Fin N) : V3 :=
  let x0_inv := 1 / √T
  let x0 := T * x0_inv
  let T_inv := x0_inv * x0_inv
  let x0T_inv := x0_inv * T_inv
  let x5 := 0.5 * T_inv
  let x6 := 0.5 * x0T_inv
  let x1 := 1 / √(Tcs i)
  let x2 := kappas i * (x0 * x1 - 1) - 1
  let x3 := ais i * kappas i
  let x4 := x1 * x2
  ⟨ais i * x2 * x2, x4 * x3 * x0_inv, x3 * (x5 * x1 * x1 * kappas i - x4 * x6)⟩

/-- `SRK_a_alphas_vectorized` (399-405). -/
def srkVec {N : ℕ} (T : ℝ) (Tcs ais ms : Fin N → ℝ) (i : Fin N) : ℝ :=
  let sqrtT := √T
  let x0 := ms i * (1 - sqrtT / √(Tcs i)) + 1
  ais i * x0 * x0

/-- `SRK_a_alpha_and_derivatives_vectorized` (465-484). -/
def srkVecFull {N : ℕ} (T : ℝ) (Tcs ais ms : Fin N → ℝ) (i : Fin N) : V3 :=
  let sqrtnT := 1 / √T
  let sqrtT := T * sqrtnT
  let T_inv := sqrtnT * sqrtnT
  let x10 := 0.5 * T_inv * T_inv
  let nT_inv := (-T_inv)
  let x1 := sqrtT / √(Tcs i)
  let x2 := ais i * ms i * x1
  let x3 := ms i * (1 - x1) + 1
  ⟨ais i * x3 * x3, x2 * nT_inv * x3, x2 * x10 * (ms i + 1)⟩

/-- `RK_a_alphas_vectorized` (522-524). -/
def rkVec {N : ℕ} (T : ℝ) (Tcs ais : Fin N → ℝ) (i : Fin N) : ℝ := ais i * √(Tcs i) * (1 / √T)

/-- `RK_a_alpha_and_derivatives_vectorized` (580-592). -/
def rkVecFull {N : ℕ} (T : ℝ) (Tcs ais : Fin N → ℝ) (i : Fin N) : V3 :=
  let T_root_inv := 1 / √T
  let T_inv := T_root_inv * T_root_inv
  let T_15_inv := T_inv * T_root_inv
  let T_25_inv := T_inv * T_15_inv
  let x0 := (-0.5) * T_15_inv
  let x1 := 0.75 * T_25_inv
  let Tc_05 := √(Tcs i)
  let aiTc_05 := ais i * Tc_05
  ⟨aiTc_05 * T_root_inv, aiTc_05 * x0, aiTc_05 * x1⟩

/-- `PRSV_a_alphas_vectorized` (638-647). -/
def prsvVec {N : ℕ} (T : ℝ) (Tcs ais kappa0s kappa1s : Fin N → ℝ) (i : Fin N) : ℝ :=
  let sqrtT := √T
  let Tc_inv_root := 1 / √(Tcs i)
  let Tc_inv := Tc_inv_root * Tc_inv_root
  let x0 := Tc_inv_root * sqrtT
  let x2 := 1 + (kappa0s i + kappa1s i * (x0 + 1) * (0.7 - T * Tc_inv)) * (1 - x0)
  ais i * x2 * x2

/-- `PRSV_a_alpha_and_derivatives_vectorized` (740-773). -/
def prsvVecFull {N : ℕ} (T : ℝ) (Tcs ais kappa0s kappa1s : Fin N → ℝ) (i : Fin N) : V3 :=
  let sqrtT := √T
  let T_inv := 1 / T
  let Tc_inv_root := 1 / √(Tcs i)
  let Tc_inv := Tc_inv_root * Tc_inv_root
  let x1 := T * Tc_inv
  let x2 := sqrtT * Tc_inv_root
  let x3 := x2 - 1
  let x4 := 10 * x1 - 7
  let x5 := x2 + 1
  let x6 := 10 * kappa0s i - kappa1s i * x4 * x5
  let x7 := x3 * x6
  let x8 := x7 * 0.1 - 1
  let x10 := x6 * T_inv
  let x11 := kappa1s i * x3
  let x12 := x4 * T_inv
  let x13 := 20 * Tc_inv * x5 + x12 * x2
  let x14 := (-x10) * x2 + x11 * x13
  ⟨ais i * x8 * x8, -ais i * x14 * x8 * 0.1,
    ais i * 0.005 * (x14 * x14 - x2 * T_inv * (x7 - 10)
      * (2 * kappa1s i * x13 + x10 + x11 * (40 * Tc_inv - x12)))⟩

/-- `PRSV2_a_alphas_vectorized` (821-832). -/
def prsv2Vec {N : ℕ} (T : ℝ) (Tcs ais kappa0s kappa1s kappa2s kappa3s : Fin N → ℝ) (i : Fin N) : ℝ :=
  let sqrtT := √T
  let Tc_inv_root := 1 / √(Tcs i)
  let Tr_sqrt := sqrtT * Tc_inv_root
  let Tr := T * Tc_inv_root * Tc_inv_root
  let kappa := kappa0s i + ((kappa1s i + kappa2s i * (kappa3s i - Tr) * (1 - Tr_sqrt)) * (1 + Tr_sqrt) * (0.7 - Tr))
  let x0 := 1 + kappa * (1 - Tr_sqrt)
  ais i * x0 * x0

/-- `PRSV2_a_alpha_and_derivatives_vectorized` (964-1007). -/
def prsv2VecFull {N : ℕ} (T : ℝ) (Tcs ais kappa0s kappa1s kappa2s kappa3s : Fin N → ℝ) (i : Fin N) : V3 :=
  let sqrtT := √T
  let T_inv := 1 / T
  let Tc_inv_root := 1 / √(Tcs i)
  let Tc_inv := Tc_inv_root * Tc_inv_root
  let x1 := T * Tc_inv
  let x2 := sqrtT * Tc_inv_root
  let x3 := x2 - 1
  let x4 := x2 + 1
  let x5 := 10 * x1 - 7
  let x6 := (-kappa3s i) + x1
  let x7 := kappa1s i + kappa2s i * x3 * x6
  let x8 := x5 * x7
  let x9 := 10 * kappa0s i - x4 * x8
  let x10 := x3 * x9
  let x11 := x10 * 0.1 - 1
  let x13 := x2 * T_inv
  let x14 := x7 * Tc_inv
  let x15 := kappa2s i * x4 * x5
  let x16 := 2 * (-x2 + 1) * Tc_inv + x13 * (kappa3s i - x1)
  let x17 := (-x13) * x8 - x14 * (20 * x2 + 20) + x15 * x16
  let x18 := x13 * x9 + x17 * x3
  let x19 := x2 * T_inv * T_inv
  let x20 := 2 * x2 * T_inv
  ⟨ais i * x11 * x11, ais i * x11 * x18 * 0.1,
    ais i * (x18 * x18 + (x10 - 10) * (x17 * x20 - x19 * x9
      + x3 * (40 * kappa2s i * Tc_inv * x16 * x4 + kappa2s i * x16 * x20 * x5
      - 40 * T_inv * x14 * x2 - x15 * T_inv * x2 * (4 * Tc_inv - x6 * T_inv) + x19 * x8))) * 0.005⟩

/-- `APISRK_a_alphas_vectorized` (1048-1056). -/
def apiVec {N : ℕ} (T : ℝ) (Tcs ais S1s S2s : Fin N → ℝ) (i : Fin N) : ℝ :=
  let sqrtT := √T
  let rtTr := 1 / √(Tcs i)
  let x0 := (-rtTr) * sqrtT + 1
  let x1 := 1 / (rtTr * sqrtT)
  let x2 := S1s i * x0 + S2s i * x0 * x1 + 1
  ais i * x2 * x2

/-- `APISRK_a_alpha_and_derivatives_vectorized` (1120-1139). -/
def apiVecFull {N : ℕ} (T : ℝ) (Tcs ais S1s S2s : Fin N → ℝ) (i : Fin N) : V3 :=
  let T_inv := 1 / T
  let c0 := T_inv * T_inv * 0.5
  let x0 := √(T / Tcs i)
  let x1 := x0 - 1
  let x2 := x1 / x0
  let x3 := S2s i * x2
  let x4 := S1s i * x1 + x3 - 1
  let x5 := S1s i * x0
  let x6 := S2s i - x3 + x5
  let x7 := 3 * S2s i
  ⟨ais i * x4 * x4, ais i * x4 * x6 * T_inv, ais i * (-x4 * (-x2 * x7 + x5 + x7) + x6 * x6) * c0⟩

theorem V3.ext' {x y : V3} (h0 : x.v = y.v) (h1 : x.d = y.d) (h2 : x.d2 = y.d2) : x = y := by
  cases x; cases y; simp_all

set_option maxHeartbeats 2000000 in
/-- **C33.** Each vectorized function returns for every component what the single-component method returns for
that component's parameters, so its derivatives are exact as well. -/
theorem C33_vectorized {N : ℕ} (hT : 0 < T) (Tcs ais k0 k1 k2 k3 : Fin N → ℝ) (i : Fin N) (hTc : 0 < Tcs i) :
    prVec T Tcs ais k0 i = prPure (ais i) (Tcs i) (k0 i) T ∧
    prVecFull T Tcs ais k0 i = prFull (ais i) (Tcs i) (k0 i) T ∧
    srkVec T Tcs ais k0 i = srkPure (ais i) (Tcs i) (k0 i) T ∧
    srkVecFull T Tcs ais k0 i = srkFull (ais i) (Tcs i) (k0 i) T ∧
    rkVec T Tcs ais i = rkPure (ais i) (Tcs i) T ∧
    rkVecFull T Tcs ais i = rkFull (ais i) (Tcs i) T ∧
    prsvVec T Tcs ais k0 k1 i = prsvPure (ais i) (Tcs i) (k0 i) (k1 i) T ∧
    prsvVecFull T Tcs ais k0 k1 i = prsvFull (ais i) (Tcs i) (k0 i) (k1 i) T ∧
    prsv2Vec T Tcs ais k0 k1 k2 k3 i = prsv2Pure (ais i) (Tcs i) (k0 i) (k1 i) (k2 i) (k3 i) T ∧
    prsv2VecFull T Tcs ais k0 k1 k2 k3 i = prsv2Full (ais i) (Tcs i) (k0 i) (k1 i) (k2 i) (k3 i) T ∧
    apiVec T Tcs ais k0 k1 i = apiPure (ais i) (Tcs i) (k0 i) (k1 i) T ∧
    apiVecFull T Tcs ais k0 k1 i = apiFull (ais i) (Tcs i) (k0 i) (k1 i) T := by
  have h1 := Real.sqrt_pos.mpr hT
  have h2 := Real.sqrt_pos.mpr hTc
  have e1 := Real.mul_self_sqrt hT.le
  have e2 := Real.mul_self_sqrt hTc.le
  have e3 : √(T / Tcs i) = √T / √(Tcs i) := Real.sqrt_div' _ hTc.le
  have e4 : √(Tcs i / T) = √(Tcs i) / √T := Real.sqrt_div' _ hT.le
  have e5 : √(T * (1 / Tcs i)) = √T / √(Tcs i) := by rw [mul_one_div, e3]
  refine ⟨?_, ?_, ?_, ?_, ?_, ?_, ?_, ?_, ?_, ?_, ?_, ?_⟩
  all_goals
    simp only [prVec, prPure, prVecFull, prFull, srkVec, srkPure, srkVecFull, srkFull, rkVec, rkPure, rkVecFull,
      rkFull, prsvVec, prsvPure, prsvVecFull, prsvFull, prsv2Vec, prsv2Pure, prsv2VecFull, prsv2Full, apiVec, apiPure,
      apiVecFull, apiFull, e3, e4, e5, V3.mk.injEq]
    try generalize √T = w at *
    try generalize √(Tcs i) = c at *
    try rw [← e1]
    try rw [← e2]
    try clear e1 e2 e3 e4 e5
    try first
      | (field_simp; done)
      | (field_simp; ring1)
      | (refine ⟨?_, ?_, ?_⟩ <;> first | trivial | rfl | ring1 | (field_simp; done) | (field_simp; ring1))

example := C33_vectorized (N := 2) (T := 250) (by norm_num) ![300, 400] ![1, 2] ![1, 2] ![3, 4] ![5, 6] ![7, 8] 0
  (by norm_num)

/-! ### Third derivative of the subclasses of `PR` -/

/-- `PRSV` keeps the temperature dependent `kappa` as an attribute (8652) and inherits
`PR.d3a_alpha_dT3_pure`, which reads it. -/
def prsvThird (a Tc kappa0 kappa1 T : ℝ) : ℝ :=
  prThird a Tc (kappa0 + kappa1 * (1 + √(T / Tc)) * (0.7 - T / Tc)) T

/-- **C33.** What the third derivative of `PRSV` is: that of the attraction with `kappa` frozen at the value of the
temperature, so it is right exactly where `kappa` does not vary (`kappa1 = 0`). -/
theorem C33_PRSV_third_partial {a Tc T : ℝ} (hTc : 0 < Tc) (hT : 0 < T) (kappa0 kappa1 : ℝ) :
    HasDerivAt (deriv (deriv fun t => a * (1 + (kappa0 + kappa1 * (1 + √(T / Tc)) * (0.7 - T / Tc))
      * (1 - √(t / Tc))) ^ 2)) (prsvThird a Tc kappa0 kappa1 T) T ∧
    HasDerivAt (deriv (deriv fun t => prsvPure a Tc kappa0 0 t)) (prsvThird a Tc kappa0 0 T) T := by
  have key : ∀ k, (fun t => prPure a Tc k t) = fun t => a * (1 + k * (1 - √(t / Tc))) ^ 2 := by
    intro k; funext t; simp only [prPure]; ring
  constructor
  · rw [← key]
    exact C33_PR_third hTc hT _
  · have e : (fun t => prsvPure a Tc kappa0 0 t) = fun t => prPure a Tc kappa0 t := by
      funext t; simp only [prsvPure, prPure]; ring
    rw [e, prsvThird, zero_mul, zero_mul, add_zero]
    exact C33_PR_third hTc hT _

example := C33_PRSV_third_partial (a := 1) (Tc := 500) (T := 300) (by norm_num) (by norm_num) 0.4 0.1

set_option maxHeartbeats 2000000 in
/-- **C33, disagreement.** The third derivative of `PRSV` treats `kappa` as a constant: at the critical
temperature it misses the contribution of `kappa1`. It is wrong already for `kappa0 = 0`, `kappa1 = 1`. -/
theorem C33_PRSV_third_fails : ∃ D, HasDerivAt (deriv (deriv fun t => prsvPure 1 1 0 1 t)) D 1 ∧
    prsvThird 1 1 0 1 1 ≠ D := by
  have e : deriv (deriv fun t => prsvPure 1 1 0 1 t) =ᶠ[nhds 1] fun t => (prsvFull 1 1 0 1 t).d2 := by
    filter_upwards [eventually_gt_nhds one_pos] with t ht
    rw [(C33_PRSV one_pos ht 0 1).second.deriv]
  have hs := hasDerivAt_sqrtTr one_pos one_pos
  suffices h : ∃ D, HasDerivAt (fun t => (prsvFull 1 1 0 1 t).d2) D 1 ∧ prsvThird 1 1 0 1 1 ≠ D by
    obtain ⟨D, h1, h2⟩ := h
    exact ⟨D, h1.congr_of_eventuallyEq e, h2⟩
  simp only [prsvFull]
  refine ⟨3.6, ?_, ?_⟩
  · derive []
    norm_num
  · norm_num [prsvThird, prThird]

end

end Verif.Alpha
