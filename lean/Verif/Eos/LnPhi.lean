import Verif.Eos.Departure
import Verif.Eos.MixDerivs
import Verif.Util.Deriv
import Verif.Util.Partial
import Mathlib.Analysis.Calculus.ImplicitFunction.ProdDomain
import Mathlib.Analysis.Calculus.ContDiff.RCLike
import Mathlib.Analysis.Calculus.ContDiff.Operations

/-!
# Fugacity coefficients of mixtures (`thermo/eos_mix_methods.py`)

* `eos_mix_dV_dzs` (744-781), `G_dep_lnphi_d_helper` (784-833), `eos_mix_lnphis_general` (1351-1368);
* the closed forms `PR_lnphis` (1284-1316), `SRK_lnphis` (1318-1336), `VDW_lnphis` (1338-1349);
* the choice of the volume in `eos_mix_a_alpha_volume` (835-874).

The specification: the logarithmic fugacity coefficient of component `i` is `∂(n ln φ)/∂n_i` at constant
temperature and pressure, `φ` the fugacity coefficient of the mixture, where the molar volume follows the
equation of state. Real numbers; lists of length `N` are functions on `Fin N`.

Simplified: `x6 == 0` is replaced by `1e-100` (793-795): modelled; the gas constant is a parameter
(`R_inv`, `R2_inv` are `1/R`, `1/R²`), `root_two = √2`; `catanh(x).real` is `reAtanh`.
-/

namespace Verif.LnPhi

open Verif.Cubic Verif.Departure Verif.MixDerivs Filter Topology

variable {N : ℕ}

/-! ### The code -/

/-- `eos_mix_dV_dzs` (744-781). -/
noncomputable def dVdzs (R T P Z b delta epsilon a : ℝ) (db ddelta deps da : Fin N → ℝ) : Fin N → ℝ :=
  let RT := R * T
  let V := Z * RT / P
  let x0V := delta * V
  let Vmb := V - b
  let x5 := Vmb * Vmb
  let x1x5 := a * x5
  let x0x1x5 := delta * x1x5
  let t0 := V * x1x5
  let x6 := epsilon * x1x5
  let x9 := V * V
  let x7 := x9 * t0
  let x8 := epsilon * t0
  let x10 := x0V + epsilon + x9
  let x10x10 := x10 * x10
  let x11 := RT * x10 * x10x10
  let x13 := x0x1x5 * x9
  let x7x8 := x7 + x8
  let t2 := -1 / (x0V * x0x1x5 + delta * x6 - x11 + 3 * x13 + x7x8 + x7x8)
  let t1 := t2 * x10x10 * x5
  let t3 := x0V * x1x5
  let t4 := x1x5 * x9
  let t5 := t2 * (t3 + t4 + x6)
  let t6 := t2 * (x13 + x7x8)
  let x11t2 := x11 * t2
  fun i => t5 * deps i - t1 * da i + x11t2 * db i + t6 * ddelta i

/-- `G_dep_lnphi_d_helper` (784-833). -/
noncomputable def dHelper (R T P b delta epsilon a Z : ℝ) (db deps ddelta dV da : Fin N → ℝ) (G : Bool) :
    Fin N → ℝ :=
  let RT := R * T
  let V := Z * RT / P
  let x2 := 1 / RT
  let x6 := open Classical in if delta * delta - 4 * epsilon = 0 then 1e-100 else delta * delta - 4 * epsilon
  let x7 := 1 / √x6
  let x9 := V + V
  let x10 := delta + x9
  let x11 := x2 + x2
  let x12 := x11 * reAtanh (x10 * x7)
  let x15 := x7 * x7
  let s := if G then RT else 1
  let t1 := P * x2 * s
  let t2 := x11 * x15 * a / (x10 * x10 * x15 - 1) * s
  let t3 := x12 * a * x15 * x7 * s
  let t4 := x12 * x7 * s
  let t5 := 1 / (V - b) * s
  let t6 := delta + x9
  let c0 := t1 + t2 * 2 - t5
  fun i =>
    let x13 := ddelta i
    let x14 := x13 * delta - 2 * deps i
    let x16 := x14 * x15
    dV i * c0 - t4 * da i + t5 * db i + t2 * (x13 - x16 * t6) + x14 * t3

/-- `eos_mix_lnphis_general` (1351-1368). -/
noncomputable def lnphisGeneral (R T P Z b delta epsilon a : ℝ) (db da ddelta deps : Fin N → ℝ) : Fin N → ℝ :=
  let V := Z * R * T / P
  let dV := dVdzs R T P Z b delta epsilon a db ddelta deps da
  let dl := dHelper R T P b delta epsilon a Z db deps ddelta dV da false
  let lnphi := eosLnphi R T P V b delta epsilon a
  fun i => lnphi + dl i

/-- `PR_lnphis` (1284-1316); `buf` is the list passed in. The early exit is inside the loop (1310-1312), so only
the first entry is written. -/
noncomputable def prLnphis (R T P Z b a : ℝ) (bs rows buf : Fin N → ℝ) : Fin N → ℝ :=
  open Classical in
  let T_inv := 1 / T
  let P_T := P * T_inv
  let A := a * P_T * (1 / R ^ 2) * T_inv
  let B := b * P_T * (1 / R)
  let x0 := if Z - B ≤ 0 then 0 else Real.log (Z - B)
  let root_two_B := B * √2
  let two_root_two_B := root_two_B + root_two_B
  let ZB := Z + B
  let to_log := (ZB + root_two_B) / (ZB - root_two_B)
  let x4 := if to_log ≤ 0 then 0 else A * Real.log to_log
  let to_div := a * two_root_two_B
  if to_div ≠ 0 then
    let t50 := (x4 + x4) / to_div
    let t51 := (x4 + (Z - 1) * two_root_two_B) / (b * two_root_two_B)
    fun i => bs i * t51 - x0 - t50 * rows i
  else fun i => if (i : ℕ) = 0 then 0 else buf i

/-- `SRK_lnphis` (1318-1336). -/
noncomputable def srkLnphis (R T P Z b a : ℝ) (bs rows : Fin N → ℝ) : Fin N → ℝ :=
  let RT := T * R
  let P_RT := P / RT
  let A := a * P / (RT * RT)
  let B := b * P / RT
  let B_inv := 1 / B
  let A_B := A * B_inv
  let t0 := Real.log (Z - B)
  let t3 := Real.log (1 + B / Z)
  let Z_minus_one_over_B := (Z - 1) * B_inv
  let two_over_a_alpha := 2 / a
  let x0 := A_B * B_inv * t3
  let x1 := A_B * two_over_a_alpha * t3
  let x2 := (Z_minus_one_over_B + x0) * P_RT
  fun i => bs i * x2 - t0 - x1 * rows i

/-- `VDW_lnphis` (1338-1349). -/
noncomputable def vdwLnphis (R T P Z b a : ℝ) (bs roots : Fin N → ℝ) : Fin N → ℝ :=
  let V := Z * R * T / P
  let sqrt_a := √a
  let t1 := Real.log (Z * (1 - b / V))
  let t2 := 2 * sqrt_a / (R * T * V)
  let t3 := 1 / (V - b)
  fun i => bs i * t3 - t1 - t2 * roots i

/-- `RK_lnphis_fastest` (1413-1431) after the choice of the volume. -/
noncomputable def rkFastest (R T P Z : ℝ) (zs bs : Fin N → ℝ) (a : ℝ) (rows : Fin N → ℝ) : Fin N → ℝ :=
  let b := ∑ i, bs i * zs i
  let delta := b
  let epsilon := 0
  lnphisGeneral R T P Z b delta epsilon a (dbDns b bs) (daDns a rows) (dbDns b bs) fun _ => 0

/-- `PR_translated_lnphis_fastest` (1434-1455) after the choice of the volume. -/
noncomputable def prtFastest (R T P Z : ℝ) (zs b0s bs cs : Fin N → ℝ) (a : ℝ) (rows : Fin N → ℝ) : Fin N → ℝ :=
  let b0 := ∑ i, b0s i * zs i
  let c := ∑ i, cs i * zs i
  let b := b0 - c
  let delta := 2 * (c + b0)
  let epsilon := (-b0) * b0 + c * (c + b0 + b0)
  lnphisGeneral R T P Z b delta epsilon a (dbDns b bs) (daDns a rows) (prtDdeltaDns b0s cs delta) (prtDepsDns b c b0s cs)

/-- `SRK_translated_lnphis_fastest` (1458-1479) after the choice of the volume. -/
noncomputable def srktFastest (R T P Z : ℝ) (zs b0s bs cs : Fin N → ℝ) (a : ℝ) (rows : Fin N → ℝ) : Fin N → ℝ :=
  let b0 := ∑ i, b0s i * zs i
  let c := ∑ i, cs i * zs i
  let b := b0 - c
  let delta := c + c + b0
  let epsilon := c * (b0 + c)
  lnphisGeneral R T P Z b delta epsilon a (dbDns b bs) (daDns a rows) (srktDdeltaDns b0s cs delta)
    (srktDepsDns b c b0s cs)

/-- The choice of the volume in `eos_mix_a_alpha_volume` (839-872). `V1 = 0` marks a single root; `G` is the Gibbs energy
departure of a volume. -/
noncomputable def pickVolume (g l : Bool) (V0 V1 V2 b : ℝ) (G : ℝ → ℝ) : ℝ :=
  open Classical in
  let low := if V1 ≠ 0 then
      let x := if V0 > V1 ∧ V1 > b then V1 else V0
      if x > V2 ∧ V2 > b then V2 else x
    else V0
  let high := if V1 ≠ 0 then
      let x := if V0 < V1 ∧ V1 > b then V1 else V0
      if x < V2 ∧ V2 > b then V2 else x
    else V0
  if l = true ∧ g = true then
    if low ≠ high then (if G low < G high then low else high) else V0
  else if g = false then low
  else high

/-! ### Specification -/

/-- Logarithmic fugacity coefficient of a fluid at its molar volume: `Z - 1 - ln(P (V - b)/(R T)) - ∫ …`, for an equation with two
distinct poles. `C32_lnphi` derives it from the departure functions. -/
noncomputable def lnPhi (R T P V b delta epsilon a : ℝ) : ℝ :=
  P * V / (R * T) - 1 - Real.log (P * (V - b) / (R * T)) -
    a / (R * T * √(delta ^ 2 - 4 * epsilon)) *
      Real.log ((2 * V + delta + √(delta ^ 2 - 4 * epsilon)) / (2 * V + delta - √(delta ^ 2 - 4 * epsilon)))

/-- The same for the van der Waals equation. -/
noncomputable def lnPhiVdw (R T P V b a : ℝ) : ℝ :=
  P * V / (R * T) - 1 - Real.log (P * (V - b) / (R * T)) - a / (R * T * V)

/-- Equation parameters as functions of the mole numbers. -/
structure Params (N : ℕ) where
  /-- covolume -/
  b : (Fin N → ℝ) → ℝ
  /-- linear coefficient -/
  delta : (Fin N → ℝ) → ℝ
  /-- constant coefficient -/
  epsilon : (Fin N → ℝ) → ℝ
  /-- attraction -/
  a : (Fin N → ℝ) → ℝ

/-- Pressure of the mixture of composition `n` at molar volume `V`. -/
noncomputable def Params.p (m : Params N) (R T : ℝ) (n : Fin N → ℝ) (V : ℝ) : ℝ :=
  pressure R T (m.b n) (m.delta n) (m.epsilon n) (m.a n) V

/-- `v` is a continuous branch of molar volumes at pressure `P` near the composition `z`. -/
structure Branch (m : Params N) (R T P : ℝ) (z : Fin N → ℝ) (v : (Fin N → ℝ) → ℝ) : Prop where
  cont : ContinuousAt v z
  solves : ∀ᶠ n in 𝓝 z, m.p R T n (v n) = P

/-- A mechanically regular state of the equation: physical volume, two poles below it, finite compressibility. -/
structure Regular (R T P V b delta epsilon a : ℝ) : Prop where
  hR : 0 < R
  hT : 0 < T
  hP : 0 < P
  hb : b < V
  disc : 0 < delta ^ 2 - 4 * epsilon
  q : √(delta ^ 2 - 4 * epsilon) < 2 * V + delta
  solves : pressure R T b delta epsilon a V = P
  slope : -(R * T) / (V - b) ^ 2 + a * (2 * V + delta) / (V ^ 2 + delta * V + epsilon) ^ 2 ≠ 0

/-- Peng-Robinson mixture. -/
noncomputable def prParams (bs : Fin N → ℝ) (A : Fin N → Fin N → ℝ) : Params N where
  b := lin bs
  delta n := 2 * lin bs n
  epsilon n := prEps (lin bs n)
  a := quad A

/-- Soave-Redlich-Kwong and Redlich-Kwong mixture. -/
noncomputable def srkParams (bs : Fin N → ℝ) (A : Fin N → Fin N → ℝ) : Params N where
  b := lin bs
  delta := lin bs
  epsilon _ := 0
  a := quad A

/-- Van der Waals mixture. -/
noncomputable def vdwParams (bs : Fin N → ℝ) (A : Fin N → Fin N → ℝ) : Params N where
  b := lin bs
  delta _ := 0
  epsilon _ := 0
  a := quad A

/-- Translated Peng-Robinson mixture. -/
noncomputable def prtParams (b0s cs : Fin N → ℝ) (A : Fin N → Fin N → ℝ) : Params N where
  b n := lin b0s n - lin cs n
  delta n := 2 * (lin cs n + lin b0s n)
  epsilon n := prtEps (lin b0s n) (lin cs n)
  a := quad A

/-- Translated Soave-Redlich-Kwong mixture. -/
noncomputable def srktParams (b0s cs : Fin N → ℝ) (A : Fin N → Fin N → ℝ) : Params N where
  b n := lin b0s n - lin cs n
  delta n := 2 * lin cs n + lin b0s n
  epsilon n := srktEps (lin b0s n) (lin cs n)
  a := quad A

/-! ### Auxiliary facts -/

theorem Regular.qpos {R T P V b delta epsilon a : ℝ} (h : Regular R T P V b delta epsilon a) :
    0 < V ^ 2 + delta * V + epsilon := by
  have h1 := h.q
  have h2 := Real.sqrt_nonneg (delta ^ 2 - 4 * epsilon)
  have h3 := Real.sq_sqrt h.disc.le
  nlinarith

/-- `eos_lnphi` is the specified function. -/
theorem eosLnphi_eq {R T P V b delta epsilon a : ℝ} (hRT : 0 < R * T) (hP : 0 < P) (hb : b < V)
    (hd : 0 < delta ^ 2 - 4 * epsilon) (hq : √(delta ^ 2 - 4 * epsilon) < 2 * V + delta) :
    eosLnphi R T P V b delta epsilon a = lnPhi R T P V b delta epsilon a := by
  have hr : 0 < √(delta ^ 2 - 4 * epsilon) := Real.sqrt_pos.mpr hd
  have hVb : 0 < V - b := sub_pos.mpr hb
  have e : delta * delta - 4 * epsilon = delta ^ 2 - 4 * epsilon := by ring
  simp only [eosLnphi, lnPhi, e]
  generalize √(delta ^ 2 - 4 * epsilon) = r at *
  have ez : 2 * V * (1 / r) + delta * (1 / r) = (2 * V + delta) / r := by ring
  rw [ez]
  have hz0 : 0 < 2 * V + delta := hr.trans hq
  generalize 2 * V + delta = z at *
  have hm : 0 < z - r := sub_pos.mpr hq
  have e1 : 1 + 4 * (z / r) / ((1 - z / r) * (1 - z / r)) = ((z + r) / (z - r)) ^ 2 := by
    have h1 : 1 - z / r = -(z - r) / r := by field_simp; ring
    rw [h1]
    field_simp
    ring
  rw [e1, Real.log_pow]
  have e2 : R * T / (P * (V - b)) = (P * (V - b) / (R * T))⁻¹ := by rw [inv_div]
  rw [e2, Real.log_inv]
  generalize Real.log ((z + r) / (z - r)) = L
  generalize Real.log (P * (V - b) / (R * T)) = M
  push_cast
  field_simp
  ring

/-- `Re atanh` above one. -/
theorem reAtanh_eq {z r : ℝ} (hr : 0 < r) (hz : r < z) : reAtanh (z * (1 / r)) = 1 / 2 * Real.log ((z + r) / (z - r)) := by
  unfold reAtanh
  have hm : 0 < z - r := sub_pos.mpr hz
  have e : (1 + z * (1 / r)) / (1 - z * (1 / r)) = -((z + r) / (z - r)) := by
    have h1 : 1 - z * (1 / r) = -((z - r) / r) := by field_simp; ring
    have h2 : 1 + z * (1 / r) = (z + r) / r := by field_simp; ring
    rw [h1, h2]; field_simp
  rw [e, abs_neg, abs_of_pos (div_pos (by linarith) hm)]

/-- The volume as a function of the equation's parameters (implicit function theorem). -/
theorem volume_branch {R T P V b delta epsilon a : ℝ} (h : V - b ≠ 0) (hq : V ^ 2 + delta * V + epsilon ≠ 0)
    (hp : pressure R T b delta epsilon a V = P)
    (hs : -(R * T) / (V - b) ^ 2 + a * (2 * V + delta) / (V ^ 2 + delta * V + epsilon) ^ 2 ≠ 0) :
    ∃ ψ : ℝ × ℝ × ℝ × ℝ → ℝ, DifferentiableAt ℝ ψ (b, delta, epsilon, a) ∧ ψ (b, delta, epsilon, a) = V ∧
      (∀ᶠ u in 𝓝 (b, delta, epsilon, a), pressure R T u.1 u.2.1 u.2.2.1 u.2.2.2 (ψ u) = P) ∧
      ∀ᶠ w in 𝓝 ((b, delta, epsilon, a), V), pressure R T w.1.1 w.1.2.1 w.1.2.2.1 w.1.2.2.2 w.2 = P → ψ w.1 = w.2 := by
  let f : (ℝ × ℝ × ℝ × ℝ) × ℝ → ℝ := fun w => pressure R T w.1.1 w.1.2.1 w.1.2.2.1 w.1.2.2.2 w.2
  have hc : ContDiffAt ℝ 1 f ((b, delta, epsilon, a), V) := by
    unfold f pressure
    refine ContDiffAt.sub (ContDiffAt.div (by fun_prop) (by fun_prop) h) (ContDiffAt.div (by fun_prop) (by fun_prop) hq)
  have hst : HasStrictFDerivAt f _ ((b, delta, epsilon, a), V) := hc.hasStrictFDerivAt one_ne_zero
  have hdV : HasDerivAt (fun v => pressure R T b delta epsilon a v)
      (-(R * T) / (V - b) ^ 2 + a * (2 * V + delta) / (V ^ 2 + delta * V + epsilon) ^ 2) V := by
    unfold pressure
    eapply HasDerivAt.congr_deriv
    · hd
    · simp; ring
  have hpart : (fderiv ℝ f ((b, delta, epsilon, a), V)) (0, 1) =
      -(R * T) / (V - b) ^ 2 + a * (2 * V + delta) / (V ^ 2 + delta * V + epsilon) ^ 2 := by
    have hcurve : HasDerivAt (fun v : ℝ => (((b, delta, epsilon, a), v) : (ℝ × ℝ × ℝ × ℝ) × ℝ)) (0, 1) V :=
      (hasDerivAt_const V _).prodMk (hasDerivAt_id' V)
    exact (hst.hasFDerivAt.comp_hasDerivAt V hcurve).unique hdV
  have hinv : ((fderiv ℝ f ((b, delta, epsilon, a), V)) ∘L .inr ℝ (ℝ × ℝ × ℝ × ℝ) ℝ).IsInvertible := by
    refine ⟨ContinuousLinearEquiv.smulLeft (Units.mk0 _ hs), ?_⟩
    ext
    simp [hpart]
  refine ⟨hst.implicitFunctionOfProdDomain hinv,
    (hst.hasStrictFDerivAt_implicitFunctionOfProdDomain hinv).hasFDerivAt.differentiableAt,
    (hst.eventually_apply_eq_iff_implicitFunctionOfProdDomain hinv).self_of_nhds.mp rfl, ?_, ?_⟩
  · refine (hst.eventually_apply_implicitFunctionOfProdDomain hinv).mono fun u hu => ?_
    exact hu.trans hp
  · refine (hst.eventually_apply_eq_iff_implicitFunctionOfProdDomain hinv).mono fun w hw hpw => ?_
    exact hw.1 (hpw.trans hp.symm)

/-- A branch of volumes along a curve is differentiable. -/
theorem path_diff {R T P t : ℝ} {b delta epsilon a v : ℝ → ℝ} {db ddelta deps da : ℝ}
    (hVb : v t - b t ≠ 0) (hq : v t ^ 2 + delta t * v t + epsilon t ≠ 0)
    (hslope : -(R * T) / (v t - b t) ^ 2 + a t * (2 * v t + delta t) / (v t ^ 2 + delta t * v t + epsilon t) ^ 2 ≠ 0)
    (hb : HasDerivAt b db t) (hdelta : HasDerivAt delta ddelta t) (heps : HasDerivAt epsilon deps t) (ha : HasDerivAt a da t)
    (hv : ContinuousAt v t) (hp : ∀ᶠ s in 𝓝 t, pressure R T (b s) (delta s) (epsilon s) (a s) (v s) = P) :
    DifferentiableAt ℝ v t := by
  obtain ⟨ψ, h1, -, -, h4⟩ := volume_branch hVb hq hp.self_of_nhds hslope
  have hcurve : HasDerivAt (fun s => (b s, delta s, epsilon s, a s)) (db, ddelta, deps, da) t :=
    hb.prodMk (hdelta.prodMk (heps.prodMk ha))
  have hcont : Tendsto (fun s => ((b s, delta s, epsilon s, a s), v s)) (𝓝 t)
      (𝓝 ((b t, delta t, epsilon t, a t), v t)) := hcurve.continuousAt.prodMk_nhds hv
  have he : v =ᶠ[𝓝 t] fun s => ψ (b s, delta s, epsilon s, a s) := by
    filter_upwards [hp, hcont.eventually h4] with s hs1 hs2
    exact (hs2 hs1).symm
  exact (h1.comp t hcurve.differentiableAt).congr_of_eventuallyEq he

/-- Derivative of the volume along a curve of parameters at constant temperature and pressure. -/
theorem path_volume {R T P t : ℝ} {b delta epsilon a v : ℝ → ℝ} {db ddelta deps da : Fin N → ℝ} {i : Fin N}
    (h : Regular R T P (v t) (b t) (delta t) (epsilon t) (a t)) (hb : HasDerivAt b (db i) t)
    (hdelta : HasDerivAt delta (ddelta i) t) (heps : HasDerivAt epsilon (deps i) t) (ha : HasDerivAt a (da i) t)
    (hv : ContinuousAt v t) (hp : ∀ᶠ s in 𝓝 t, pressure R T (b s) (delta s) (epsilon s) (a s) (v s) = P) :
    HasDerivAt v (dVdzs R T P (P * v t / (R * T)) (b t) (delta t) (epsilon t) (a t) db ddelta deps da i) t := by
  have hd := (path_diff (sub_pos.mpr h.hb).ne' h.qpos.ne' h.slope hb hdelta heps ha hv hp).hasDerivAt
  have hVb : v t - b t ≠ 0 := (sub_pos.mpr h.hb).ne'
  have hq := h.qpos.ne'
  have hR := h.hR
  have hT := h.hT
  have hP := h.hP
  have hP1 : HasDerivAt (fun s => pressure R T (b s) (delta s) (epsilon s) (a s) (v s))
      ((-(R * T) / (v t - b t) ^ 2 + a t * (2 * v t + delta t) / (v t ^ 2 + delta t * v t + epsilon t) ^ 2) * deriv v t
        + (R * T / (v t - b t) ^ 2 * db i - da i / (v t ^ 2 + delta t * v t + epsilon t)
          + a t * (ddelta i * v t + deps i) / (v t ^ 2 + delta t * v t + epsilon t) ^ 2)) t := by
    unfold pressure
    have hqd : HasDerivAt (fun s => v s ^ 2 + delta s * v s + epsilon s)
        (2 * v t * deriv v t + (ddelta i * v t + delta t * deriv v t) + deps i) t := by
      refine (((hd.pow 2).add (hdelta.mul hd)).add heps).congr_deriv ?_
      norm_num
    refine (((hasDerivAt_const t (R * T)).div (hd.sub hb) hVb).sub (ha.div hqd hq)).congr_deriv ?_
    generalize v t ^ 2 + delta t * v t + epsilon t = Q at *
    generalize deriv v t = v' at *
    simp only [Pi.sub_apply]
    field_simp
    ring
  have h0 := hP1.unique ((hasDerivAt_const t P).congr_of_eventuallyEq hp)
  refine hd.congr_deriv ?_
  have hs := h.slope
  have eV : P * v t / (R * T) * (R * T) / P = v t := by field_simp
  simp only [dVdzs, eV]
  generalize deriv v t = v' at *
  generalize v t = V at *
  generalize b t = b at *
  generalize delta t = δ at *
  generalize epsilon t = ε at *
  generalize a t = a at *
  obtain ⟨K, hK⟩ : ∃ K, K = -(R * T) * (V ^ 2 + δ * V + ε) ^ 2 + a * (2 * V + δ) * (V - b) ^ 2 := ⟨_, rfl⟩
  have hK0 : K ≠ 0 := by
    intro hK0
    apply hs
    rw [div_add_div _ _ (pow_ne_zero 2 hVb) (pow_ne_zero 2 hq), div_eq_zero_iff]
    left
    rw [← hK0, hK]; ring
  have h1 : K * v' = -(R * T * (V ^ 2 + δ * V + ε) ^ 2 * db i - da i * (V ^ 2 + δ * V + ε) * (V - b) ^ 2
      + a * (ddelta i * V + deps i) * (V - b) ^ 2) := by
    rw [hK]
    generalize V ^ 2 + δ * V + ε = Q at *
    generalize V - b = W at *
    field_simp at h0
    linear_combination h0
  have eD : δ * V * (δ * (a * ((V - b) * (V - b)))) + δ * (ε * (a * ((V - b) * (V - b)))) -
      R * T * (δ * V + ε + V * V) * ((δ * V + ε + V * V) * (δ * V + ε + V * V)) +
      3 * (δ * (a * ((V - b) * (V - b))) * (V * V)) + (V * V * (V * (a * ((V - b) * (V - b)))) +
      ε * (V * (a * ((V - b) * (V - b))))) + (V * V * (V * (a * ((V - b) * (V - b)))) +
      ε * (V * (a * ((V - b) * (V - b))))) = (V ^ 2 + δ * V + ε) * K := by rw [hK]; ring
  rw [eD]
  have e2 : δ * V + ε + V * V = V ^ 2 + δ * V + ε := by ring
  rw [e2]
  have e3 : v' = -(R * T * (V ^ 2 + δ * V + ε) ^ 2 * db i - da i * (V ^ 2 + δ * V + ε) * (V - b) ^ 2
      + a * (ddelta i * V + deps i) * (V - b) ^ 2) / K := by
    rw [eq_div_iff hK0, mul_comm]; exact h1
  have e4 : δ * V * (a * ((V - b) * (V - b))) + a * ((V - b) * (V - b)) * (V * V) + ε * (a * ((V - b) * (V - b))) =
      a * (V - b) ^ 2 * (V ^ 2 + δ * V + ε) := by ring
  have e5 : δ * (a * ((V - b) * (V - b))) * (V * V) + (V * V * (V * (a * ((V - b) * (V - b)))) +
      ε * (V * (a * ((V - b) * (V - b))))) = a * (V - b) ^ 2 * V * (V ^ 2 + δ * V + ε) := by ring
  rw [e3, e4, e5]
  clear e3 e4 e5 eD h1 h0 hK
  generalize V ^ 2 + δ * V + ε = Q at *
  field_simp
  ring

/-- Derivative of the logarithmic fugacity coefficient along a curve of parameters and volumes. -/
theorem path_lnphi {R T P t : ℝ} {b delta epsilon a v : ℝ → ℝ} {db ddelta deps dv da : Fin N → ℝ} {i : Fin N}
    (hR : 0 < R) (hT : 0 < T) (hP : 0 < P) (hbV : b t < v t) (hdisc : 0 < delta t ^ 2 - 4 * epsilon t)
    (hq : √(delta t ^ 2 - 4 * epsilon t) < 2 * v t + delta t) (hb : HasDerivAt b (db i) t)
    (hdelta : HasDerivAt delta (ddelta i) t) (heps : HasDerivAt epsilon (deps i) t) (ha : HasDerivAt a (da i) t)
    (hv : HasDerivAt v (dv i) t) :
    HasDerivAt (fun s => lnPhi R T P (v s) (b s) (delta s) (epsilon s) (a s))
      (dHelper R T P (b t) (delta t) (epsilon t) (a t) (P * v t / (R * T)) db deps ddelta dv da false i) t := by
  have hr : 0 < √(delta t ^ 2 - 4 * epsilon t) := Real.sqrt_pos.mpr hdisc
  have hVb : 0 < v t - b t := sub_pos.mpr hbV
  have hrd : HasDerivAt (fun s => √(delta s ^ 2 - 4 * epsilon s))
      ((delta t * ddelta i - 2 * deps i) / √(delta t ^ 2 - 4 * epsilon t)) t := by
    refine (((hdelta.pow 2).sub (heps.const_mul 4)).sqrt hdisc.ne').congr_deriv ?_
    simp
    field_simp
    ring
  have e : delta t * delta t - 4 * epsilon t = delta t ^ 2 - 4 * epsilon t := by ring
  have eV : P * v t / (R * T) * (R * T) / P = v t := by field_simp
  have e1 : delta t + (v t + v t) = 2 * v t + delta t := by ring
  simp only [dHelper, e, if_neg hdisc.ne', eV, e1, Bool.false_eq_true, if_false, mul_one]
  rw [reAtanh_eq hr hq]
  have hz : HasDerivAt (fun s => 2 * v s + delta s) (2 * dv i + ddelta i) t := (hv.const_mul 2).add hdelta
  have hm : 0 < 2 * v t + delta t - √(delta t ^ 2 - 4 * epsilon t) := sub_pos.mpr hq
  have hp : 0 < 2 * v t + delta t + √(delta t ^ 2 - 4 * epsilon t) := by linarith
  have hl1 : HasDerivAt (fun s => Real.log (P * (v s - b s) / (R * T))) ((dv i - db i) / (v t - b t)) t := by
    refine ((((hv.sub hb).const_mul P).div_const (R * T)).log (by simp; exact ⟨⟨hP.ne', hVb.ne'⟩, hR.ne', hT.ne'⟩)).congr_deriv ?_
    simp only [Pi.sub_apply]
    field_simp
  have hl2 := ((hz.add hrd).div (hz.sub hrd) hm.ne').log (div_pos hp hm).ne'
  have hmain := (((hv.const_mul P).div_const (R * T)).sub_const 1).sub hl1 |>.sub
    ((ha.div (hrd.const_mul (R * T)) (by positivity)).mul hl2)
  refine hmain.congr_deriv ?_
  simp only [Pi.add_apply, Pi.sub_apply, Pi.div_apply]
  generalize Real.log _ = L
  generalize √(delta t ^ 2 - 4 * epsilon t) = r at *
  have hden : (2 * v t + delta t) * (2 * v t + delta t) * (1 / r * (1 / r)) - 1 =
      (2 * v t + delta t - r) * (2 * v t + delta t + r) / r ^ 2 := by field_simp; ring
  rw [hden]
  generalize hzz : 2 * v t + delta t = z at *
  have hVb' := hVb.ne'
  have hm' := hm.ne'
  have hp' := hp.ne'
  field_simp
  ring

theorem update_tendsto (z : Fin N → ℝ) (i : Fin N) : Tendsto (fun s => Function.update z i s) (𝓝 (z i)) (𝓝 z) := by
  have h : Continuous fun s : ℝ => Function.update z i s := continuous_const.update i continuous_id
  have := h.tendsto (z i)
  rwa [Function.update_eq_self] at this

section Main

variable {m : Params N} {R T P : ℝ} {z : Fin N → ℝ} {v : (Fin N → ℝ) → ℝ} {db ddelta deps dv da : Fin N → ℝ}
  {i : Fin N}

/-- **C55.** `eos_mix_dV_dzs` is the derivative of the molar volume with respect to a mole fraction (or mole
number) at constant temperature and pressure, on every continuous branch of solutions of the equation of state. -/
theorem C55_volume (hv : Branch m R T P z v)
    (h : Regular R T P (v z) (m.b z) (m.delta z) (m.epsilon z) (m.a z)) (hb : PD m.b i z (db i))
    (hdelta : PD m.delta i z (ddelta i)) (heps : PD m.epsilon i z (deps i)) (ha : PD m.a i z (da i)) :
    PD v i z (dVdzs R T P (P * v z / (R * T)) (m.b z) (m.delta z) (m.epsilon z) (m.a z) db ddelta deps da i) := by
  have ht := update_tendsto z i
  have hc : ContinuousAt (fun s => v (Function.update z i s)) (z i) := by
    have : ContinuousAt v (Function.update z i (z i)) := by rw [Function.update_eq_self]; exact hv.cont
    exact ContinuousAt.comp this (continuous_const.update i continuous_id).continuousAt
  have hp : ∀ᶠ s in 𝓝 (z i), pressure R T (m.b (Function.update z i s)) (m.delta (Function.update z i s))
      (m.epsilon (Function.update z i s)) (m.a (Function.update z i s)) (v (Function.update z i s)) = P :=
    ht.eventually hv.solves
  have := path_volume (t := z i) (b := fun s => m.b (Function.update z i s))
    (delta := fun s => m.delta (Function.update z i s)) (epsilon := fun s => m.epsilon (Function.update z i s))
    (a := fun s => m.a (Function.update z i s)) (v := fun s => v (Function.update z i s))
    (db := db) (ddelta := ddelta) (deps := deps) (da := da) (i := i) (R := R) (T := T) (P := P)
    (by simpa only [Function.update_eq_self] using h) hb hdelta heps ha hc hp
  unfold PD
  simpa only [Function.update_eq_self] using this

/-- **C55.** Through every regular state there is such a branch. -/
theorem C55_branch_exists {V : ℝ} (h : Regular R T P V (m.b z) (m.delta z) (m.epsilon z) (m.a z))
    (cb : ContinuousAt m.b z) (cd : ContinuousAt m.delta z) (ce : ContinuousAt m.epsilon z) (ca : ContinuousAt m.a z) :
    ∃ v, Branch m R T P z v ∧ v z = V := by
  obtain ⟨ψ, h1, h2, h3, -⟩ := volume_branch (sub_pos.mpr h.hb).ne' h.qpos.ne' h.solves h.slope
  have hc : ContinuousAt (fun n => (m.b n, m.delta n, m.epsilon n, m.a n)) z :=
    cb.prodMk (cd.prodMk (ce.prodMk ca))
  refine ⟨fun n => ψ (m.b n, m.delta n, m.epsilon n, m.a n), ⟨?_, ?_⟩, h2⟩
  · exact ContinuousAt.comp (g := ψ) h1.continuousAt hc
  · exact hc.eventually h3

/-- **C55.** `G_dep_lnphi_d_helper` with `G = False`: the derivative of the mixture's logarithmic fugacity
coefficient, for any derivative of the volume that is supplied. -/
theorem C55_helper (h : Regular R T P (v z) (m.b z) (m.delta z) (m.epsilon z) (m.a z)) (hb : PD m.b i z (db i))
    (hdelta : PD m.delta i z (ddelta i)) (heps : PD m.epsilon i z (deps i)) (ha : PD m.a i z (da i))
    (hv : PD v i z (dv i)) :
    PD (fun n => lnPhi R T P (v n) (m.b n) (m.delta n) (m.epsilon n) (m.a n)) i z
      (dHelper R T P (m.b z) (m.delta z) (m.epsilon z) (m.a z) (P * v z / (R * T)) db deps ddelta dv da false i) := by
  have := path_lnphi (t := z i) (b := fun s => m.b (Function.update z i s))
    (delta := fun s => m.delta (Function.update z i s)) (epsilon := fun s => m.epsilon (Function.update z i s))
    (a := fun s => m.a (Function.update z i s)) (v := fun s => v (Function.update z i s))
    (db := db) (ddelta := ddelta) (deps := deps) (da := da) (dv := dv) (i := i) h.hR h.hT h.hP
    (by simpa only [Function.update_eq_self] using h.hb) (by simpa only [Function.update_eq_self] using h.disc)
    (by simpa only [Function.update_eq_self] using h.q) hb hdelta heps ha hv
  unfold PD
  simpa only [Function.update_eq_self] using this

/-- The flag `G` multiplies by `R T`. -/
theorem dHelper_true {R T P b delta epsilon a Z : ℝ} (i : Fin N) :
    dHelper R T P b delta epsilon a Z db deps ddelta dv da true i =
      R * T * dHelper R T P b delta epsilon a Z db deps ddelta dv da false i := by
  simp only [dHelper, if_true, Bool.false_eq_true, if_false]
  ring

/-- **C55.** With `G = True` it is the derivative of the Gibbs energy departure `R T ln φ`. -/
theorem C55_helper_G (h : Regular R T P (v z) (m.b z) (m.delta z) (m.epsilon z) (m.a z)) (hb : PD m.b i z (db i))
    (hdelta : PD m.delta i z (ddelta i)) (heps : PD m.epsilon i z (deps i)) (ha : PD m.a i z (da i))
    (hv : PD v i z (dv i)) :
    PD (fun n => R * T * lnPhi R T P (v n) (m.b n) (m.delta n) (m.epsilon n) (m.a n)) i z
      (dHelper R T P (m.b z) (m.delta z) (m.epsilon z) (m.a z) (P * v z / (R * T)) db deps ddelta dv da true i) := by
  rw [dHelper_true]
  exact (C55_helper h hb hdelta heps ha hv).const_mul (R * T)

/-- **C55.** `eos_mix_lnphis_general`: the logarithmic fugacity coefficient of each component is the derivative of
`n ln φ` with respect to its mole number at constant temperature and pressure. -/
theorem C55_general (hz : ∑ k, z k = 1) (hv : Branch m R T P z v)
    (h : Regular R T P (v z) (m.b z) (m.delta z) (m.epsilon z) (m.a z)) (hb : PD m.b i z (db i))
    (hdelta : PD m.delta i z (ddelta i)) (heps : PD m.epsilon i z (deps i)) (ha : PD m.a i z (da i)) :
    PD (fun n => (∑ k, n k) * lnPhi R T P (v n) (m.b n) (m.delta n) (m.epsilon n) (m.a n)) i z
      (lnphisGeneral R T P (P * v z / (R * T)) (m.b z) (m.delta z) (m.epsilon z) (m.a z) db da ddelta deps i) := by
  have h1 := C55_volume hv h hb hdelta heps ha
  have h2 := C55_helper (dv := fun _ => dVdzs R T P (P * v z / (R * T)) (m.b z) (m.delta z) (m.epsilon z) (m.a z)
    db ddelta deps da i) h hb hdelta heps ha h1
  refine ((pd_total z i).mul h2).congr_d ?_
  have hR := h.hR
  have hT := h.hT
  have hP := h.hP
  have eV : P * v z / (R * T) * R * T / P = v z := by field_simp
  simp only [lnphisGeneral, eV, eosLnphi_eq (mul_pos hR hT) hP h.hb h.disc h.q, hz, one_mul]
  rfl

end Main

/-! ### Closed form -/

/-- On a solution of the equation of state the derivative of the volume drops out. -/
theorem general_closed {R T P V b delta epsilon a : ℝ} (h : Regular R T P V b delta epsilon a)
    (db da ddelta deps : Fin N → ℝ) (i : Fin N) :
    lnphisGeneral R T P (P * V / (R * T)) b delta epsilon a db da ddelta deps i =
      P * V / (R * T) - 1 - Real.log (P * (V - b) / (R * T)) -
        (a + da i - a * (ddelta i * delta - 2 * deps i) / (delta ^ 2 - 4 * epsilon)) /
          (R * T * √(delta ^ 2 - 4 * epsilon)) *
          Real.log ((2 * V + delta + √(delta ^ 2 - 4 * epsilon)) / (2 * V + delta - √(delta ^ 2 - 4 * epsilon))) +
        db i / (V - b) + a / (2 * (R * T) * (V ^ 2 + delta * V + epsilon)) *
          (ddelta i - (ddelta i * delta - 2 * deps i) * (2 * V + delta) / (delta ^ 2 - 4 * epsilon)) := by
  have hR := h.hR
  have hT := h.hT
  have hP := h.hP
  have hr : 0 < √(delta ^ 2 - 4 * epsilon) := Real.sqrt_pos.mpr h.disc
  have hsq := Real.sq_sqrt h.disc.le
  have hVb : 0 < V - b := sub_pos.mpr h.hb
  have eV : P * V / (R * T) * R * T / P = V := by field_simp
  have eV2 : P * V / (R * T) * (R * T) / P = V := by field_simp
  have e : delta * delta - 4 * epsilon = delta ^ 2 - 4 * epsilon := by ring
  have e1 : delta + (V + V) = 2 * V + delta := by ring
  simp only [lnphisGeneral, eV, eosLnphi_eq (mul_pos hR hT) hP h.hb h.disc h.q, dHelper, eV2, e, if_neg h.disc.ne', e1,
    Bool.false_eq_true, if_false, mul_one, reAtanh_eq hr h.q, lnPhi]
  generalize dVdzs R T P (P * V / (R * T)) b delta epsilon a db ddelta deps da i = w
  generalize Real.log ((2 * V + delta + √(delta ^ 2 - 4 * epsilon)) / (2 * V + delta - √(delta ^ 2 - 4 * epsilon))) = L
  generalize Real.log _ = M
  have hQ := h.qpos
  have hden : (2 * V + delta) * (2 * V + delta) * (1 / √(delta ^ 2 - 4 * epsilon) * (1 / √(delta ^ 2 - 4 * epsilon))) - 1 =
      4 * (V ^ 2 + delta * V + epsilon) / (delta ^ 2 - 4 * epsilon) := by
    have : 1 / √(delta ^ 2 - 4 * epsilon) * (1 / √(delta ^ 2 - 4 * epsilon)) = 1 / (delta ^ 2 - 4 * epsilon) := by
      rw [← hsq]; field_simp; rw [Real.sqrt_sq hr.le]
    rw [this]
    have := h.disc.ne'
    field_simp
    ring
  rw [hden]
  have hc : P * (1 / (R * T)) + (1 / (R * T) + 1 / (R * T)) * (1 / √(delta ^ 2 - 4 * epsilon) * (1 / √(delta ^ 2 - 4 * epsilon))) *
      a / (4 * (V ^ 2 + delta * V + epsilon) / (delta ^ 2 - 4 * epsilon)) * 2 - 1 / (V - b) = 0 := by
    have h3 := h.solves
    unfold pressure at h3
    rw [← h3]
    rw [← hsq, Real.sqrt_sq hr.le]
    generalize √(delta ^ 2 - 4 * epsilon) = r at *
    generalize V ^ 2 + delta * V + epsilon = Q at *
    field_simp
    ring
  rw [hc]
  rw [← hsq]
  rw [Real.sqrt_sq hr.le]
  generalize √(delta ^ 2 - 4 * epsilon) = r at *
  generalize V ^ 2 + delta * V + epsilon = Q at *
  field_simp
  ring

/-! ### The named equations -/

section Named

variable {R T P : ℝ} {z : Fin N → ℝ} {v : (Fin N → ℝ) → ℝ} {bs b0s cs : Fin N → ℝ} {A : Fin N → Fin N → ℝ}

/-- States of the Peng-Robinson equation. -/
theorem regular_pr {V b a : ℝ} (hR : 0 < R) (hT : 0 < T) (hP : 0 < P) (hb : 0 < b) (hV : b < V)
    (hp : pressure R T b (2 * b) (prEps b) a V = P)
    (hs : -(R * T) / (V - b) ^ 2 + a * (2 * V + 2 * b) / (V ^ 2 + 2 * b * V + prEps b) ^ 2 ≠ 0) :
    Regular R T P V b (2 * b) (prEps b) a := by
  have e : (2 * b) ^ 2 - 4 * prEps b = 8 * b ^ 2 := by unfold prEps; ring
  refine ⟨hR, hT, hP, hV, ?_, ?_, hp, hs⟩
  · rw [e]; positivity
  · rw [e, Real.sqrt_lt' (by linarith)]
    nlinarith

/-- States of the Soave-Redlich-Kwong equation. -/
theorem regular_srk {V b a : ℝ} (hR : 0 < R) (hT : 0 < T) (hP : 0 < P) (hb : 0 < b) (hV : b < V)
    (hp : pressure R T b b 0 a V = P)
    (hs : -(R * T) / (V - b) ^ 2 + a * (2 * V + b) / (V ^ 2 + b * V + 0) ^ 2 ≠ 0) :
    Regular R T P V b b 0 a := by
  refine ⟨hR, hT, hP, hV, by simp; positivity, ?_, hp, hs⟩
  rw [mul_zero, sub_zero, Real.sqrt_sq hb.le]
  linarith

/-- `PR_lnphis` is the general routine with the derivatives of the Peng-Robinson equation. -/
theorem pr_general {V b a : ℝ} (h : Regular R T P V b (2 * b) (prEps b) a) (hb : 0 < b) (ha : a ≠ 0)
    (bs rows buf : Fin N → ℝ) (i : Fin N) :
    prLnphis R T P (P * V / (R * T)) b a bs rows buf i =
      lnphisGeneral R T P (P * V / (R * T)) b (2 * b) (prEps b) a (dbDns b bs) (daDns a rows)
        (prDdeltaDns bs b) (prDepsDns b bs) i := by
  rw [general_closed h]
  have hR := h.hR
  have hT := h.hT
  have hP := h.hP
  have hV := h.hb
  have hVb : 0 < V - b := sub_pos.mpr hV
  have h2 : 0 < √(2 : ℝ) := by positivity
  have h22 : √(2 : ℝ) ^ 2 = 2 := Real.sq_sqrt (by norm_num)
  have e : (2 * b) ^ 2 - 4 * prEps b = 8 * b ^ 2 := by unfold prEps; ring
  have er : √((2 * b) ^ 2 - 4 * prEps b) = 2 * √2 * b := by
    rw [e, show 8 * b ^ 2 = (2 * √2 * b) ^ 2 by rw [mul_pow, mul_pow, h22]; ring, Real.sqrt_sq (by positivity)]
  have hq : 2 * √2 * b < 2 * V + 2 * b := by have := h.q; rwa [er] at this
  have hm : 0 < V + b - √2 * b := by linarith
  rw [er, e]
  have eB : P * V / (R * T) - b * (P * (1 / T)) * (1 / R) = P * (V - b) / (R * T) := by field_simp
  have eL : (P * V / (R * T) + b * (P * (1 / T)) * (1 / R) + b * (P * (1 / T)) * (1 / R) * √2) /
      (P * V / (R * T) + b * (P * (1 / T)) * (1 / R) - b * (P * (1 / T)) * (1 / R) * √2) =
      (2 * V + 2 * b + 2 * √2 * b) / (2 * V + 2 * b - 2 * √2 * b) := by
    have h1 : P * V / (R * T) + b * (P * (1 / T)) * (1 / R) + b * (P * (1 / T)) * (1 / R) * √2 =
        P / (R * T) * (V + b + √2 * b) := by field_simp
    have h3 : P * V / (R * T) + b * (P * (1 / T)) * (1 / R) - b * (P * (1 / T)) * (1 / R) * √2 =
        P / (R * T) * (V + b - √2 * b) := by field_simp
    rw [h1, h3, mul_div_mul_left _ _ (by positivity : P / (R * T) ≠ 0)]
    rw [show 2 * V + 2 * b + 2 * √2 * b = 2 * (V + b + √2 * b) by ring,
      show 2 * V + 2 * b - 2 * √2 * b = 2 * (V + b - √2 * b) by ring, mul_div_mul_left _ _ two_ne_zero]
  have hpos1 : ¬ P * (V - b) / (R * T) ≤ 0 := not_le.mpr (by positivity)
  have hpos2 : ¬ (2 * V + 2 * b + 2 * √2 * b) / (2 * V + 2 * b - 2 * √2 * b) ≤ 0 :=
    not_le.mpr (div_pos (by nlinarith) (by linarith))
  have hdiv : a * (b * (P * (1 / T)) * (1 / R) * √2 + b * (P * (1 / T)) * (1 / R) * √2) ≠ 0 := by
    have : 0 < b * (P * (1 / T)) * (1 / R) * √2 := by positivity
    exact mul_ne_zero ha (by linarith)
  simp only [prLnphis, eB, eL, if_neg hpos1, if_neg hpos2]
  rw [if_pos hdiv]
  simp only [dbDns, daDns, prDdeltaDns, prDepsDns]
  have hs := h.solves
  unfold pressure at hs
  have hQ := h.qpos
  have eQ : V ^ 2 + 2 * b * V + prEps b = V ^ 2 + 2 * b * V - b ^ 2 := by unfold prEps; ring
  rw [eQ] at hs hQ ⊢
  generalize Real.log (P * (V - b) / (R * T)) = M
  generalize Real.log ((2 * V + 2 * b + 2 * √2 * b) / (2 * V + 2 * b - 2 * √2 * b)) = L
  -- the volume part
  have hZ : P * V / (R * T) - 1 = b / (V - b) - a * V / (R * T * (V ^ 2 + 2 * b * V - b ^ 2)) := by
    rw [← hs]; field_simp; ring
  rw [hZ]
  generalize √(2 : ℝ) = r at *
  generalize hQQ : V ^ 2 + 2 * b * V - b ^ 2 = Q at *
  field_simp
  ring

/-- `SRK_lnphis` is the general routine with the derivatives of the Soave-Redlich-Kwong equation. -/
theorem srk_general {V b a : ℝ} (h : Regular R T P V b b 0 a) (hb : 0 < b) (ha : a ≠ 0) (bs rows : Fin N → ℝ) (i : Fin N) :
    srkLnphis R T P (P * V / (R * T)) b a bs rows i =
      lnphisGeneral R T P (P * V / (R * T)) b b 0 a (dbDns b bs) (daDns a rows) (dbDns b bs) (fun _ => 0) i := by
  rw [general_closed h]
  have hR := h.hR
  have hT := h.hT
  have hP := h.hP
  have hV := h.hb
  have hVb : 0 < V - b := sub_pos.mpr hV
  have hV0 : 0 < V := hb.trans hV
  have e : b ^ 2 - 4 * 0 = b ^ 2 := by ring
  rw [e, Real.sqrt_sq hb.le]
  have eB : P * V / (R * T) - b * P / (T * R) = P * (V - b) / (R * T) := by field_simp
  have eL : 1 + b * P / (T * R) / (P * V / (R * T)) = (2 * V + b + b) / (2 * V + b - b) := by
    rw [show 2 * V + b - b = 2 * V by ring]; field_simp; ring
  simp only [srkLnphis, eB, eL, dbDns, daDns]
  have hs := h.solves
  unfold pressure at hs
  have hQ := h.qpos
  have eQ : V ^ 2 + b * V + 0 = V * (V + b) := by ring
  rw [eQ] at hs hQ ⊢
  generalize Real.log (P * (V - b) / (R * T)) = M
  generalize Real.log _ = L
  have hVpb : 0 < V + b := by linarith
  have hZ : P * V / (R * T) - 1 = b / (V - b) - a / (R * T * (V + b)) := by
    rw [← hs]; field_simp; ring
  rw [hZ]
  field_simp
  ring

variable {i : Fin N}

/-- **C55.** `PR_lnphis`: fugacity coefficients of a Peng-Robinson mixture are the mole number derivatives of
`n ln φ`, for all numbers of components, compositions, temperatures and pressures with a nonzero attraction. -/
theorem C55_PR (hz : ∑ k, z k = 1) (hA : ∀ i j, A i j = A j i) (hv : Branch (prParams bs A) R T P z v)
    (h : Regular R T P (v z) (lin bs z) (2 * lin bs z) (prEps (lin bs z)) (quad A z)) (hb : 0 < lin bs z)
    (ha : quad A z ≠ 0) (buf : Fin N → ℝ) :
    PD (fun n => (∑ k, n k) * lnPhi R T P (v n) (lin bs n) (2 * lin bs n) (prEps (lin bs n)) (quad A n)) i z
      (prLnphis R T P (P * v z / (R * T)) (lin bs z) (quad A z) bs (rowsA A z) buf i) := by
  rw [pr_general h hb ha]
  exact C55_general (m := prParams bs A) hz hv h ((C41_covolume hz bs).1 i) ((C41_PR_delta hz bs).2.1 i)
    ((C41_PR_epsilon hz bs).2.2.2.1 i) ((C41_attraction hz hA).2.2.1 i)

/-- **C55.** `SRK_lnphis`. -/
theorem C55_SRK (hz : ∑ k, z k = 1) (hA : ∀ i j, A i j = A j i) (hv : Branch (srkParams bs A) R T P z v)
    (h : Regular R T P (v z) (lin bs z) (lin bs z) 0 (quad A z)) (hb : 0 < lin bs z) (ha : quad A z ≠ 0) :
    PD (fun n => (∑ k, n k) * lnPhi R T P (v n) (lin bs n) (lin bs n) 0 (quad A n)) i z
      (srkLnphis R T P (P * v z / (R * T)) (lin bs z) (quad A z) bs (rowsA A z) i) := by
  rw [srk_general h hb ha]
  exact C55_general (m := srkParams bs A) hz hv h ((C41_covolume hz bs).1 i) ((C41_covolume hz bs).1 i)
    (PD.const 0) ((C41_attraction hz hA).2.2.1 i)

theorem lin_code (hz : ∑ k, z k = 1) (l : Fin N → ℝ) : ∑ k, l k * z k = lin l z := by
  unfold lin; rw [hz, div_one]; exact Finset.sum_congr rfl fun k _ => mul_comm _ _

/-- **C55.** `RK_lnphis_fastest`. -/
theorem C55_RK (hz : ∑ k, z k = 1) (hA : ∀ i j, A i j = A j i) (hv : Branch (srkParams bs A) R T P z v)
    (h : Regular R T P (v z) (lin bs z) (lin bs z) 0 (quad A z)) :
    PD (fun n => (∑ k, n k) * lnPhi R T P (v n) (lin bs n) (lin bs n) 0 (quad A n)) i z
      (rkFastest R T P (P * v z / (R * T)) z bs (quad A z) (rowsA A z) i) := by
  simp only [rkFastest, lin_code hz]
  exact C55_general (m := srkParams bs A) hz hv h ((C41_covolume hz bs).1 i) ((C41_covolume hz bs).1 i)
    (PD.const 0) ((C41_attraction hz hA).2.2.1 i)

/-- **C55.** `PR_translated_lnphis_fastest`. -/
theorem C55_PR_translated (hz : ∑ k, z k = 1) (hA : ∀ i j, A i j = A j i) (hbs : ∀ i, bs i = b0s i - cs i)
    (hv : Branch (prtParams b0s cs A) R T P z v)
    (h : Regular R T P (v z) (lin b0s z - lin cs z) (2 * (lin cs z + lin b0s z)) (prtEps (lin b0s z) (lin cs z))
      (quad A z)) :
    PD (fun n => (∑ k, n k) * lnPhi R T P (v n) (lin b0s n - lin cs n) (2 * (lin cs n + lin b0s n))
        (prtEps (lin b0s n) (lin cs n)) (quad A n)) i z
      (prtFastest R T P (P * v z / (R * T)) z b0s bs cs (quad A z) (rowsA A z) i) := by
  have e : (-lin b0s z) * lin b0s z + lin cs z * (lin cs z + lin b0s z + lin b0s z) = prtEps (lin b0s z) (lin cs z) := by
    unfold prtEps; ring
  simp only [prtFastest, lin_code hz, e]
  refine C55_general (m := prtParams b0s cs A) hz hv h ?_ ((C41_translated_delta hz b0s cs).2.1 i)
    ((C41_PR_translated_epsilon hz b0s cs).2.2.2.1 i) ((C41_attraction hz hA).2.2.1 i)
  refine (((C41_covolume hz b0s).1 i).sub ((C41_covolume hz cs).1 i)).congr_d ?_
  simp only [dbDns, hbs]; ring

/-- **C55.** `SRK_translated_lnphis_fastest`. -/
theorem C55_SRK_translated (hz : ∑ k, z k = 1) (hA : ∀ i j, A i j = A j i) (hbs : ∀ i, bs i = b0s i - cs i)
    (hv : Branch (srktParams b0s cs A) R T P z v)
    (h : Regular R T P (v z) (lin b0s z - lin cs z) (2 * lin cs z + lin b0s z) (srktEps (lin b0s z) (lin cs z))
      (quad A z)) :
    PD (fun n => (∑ k, n k) * lnPhi R T P (v n) (lin b0s n - lin cs n) (2 * lin cs n + lin b0s n)
        (srktEps (lin b0s n) (lin cs n)) (quad A n)) i z
      (srktFastest R T P (P * v z / (R * T)) z b0s bs cs (quad A z) (rowsA A z) i) := by
  have e : lin cs z * (lin b0s z + lin cs z) = srktEps (lin b0s z) (lin cs z) := by unfold srktEps; ring
  have e2 : lin cs z + lin cs z + lin b0s z = 2 * lin cs z + lin b0s z := by ring
  simp only [srktFastest, lin_code hz, e, e2]
  refine C55_general (m := srktParams b0s cs A) hz hv h ?_ ((C41_translated_delta hz b0s cs).2.2.2.2.2.1 i)
    ((C41_SRK_translated_epsilon hz b0s cs).2.2.2.1 i) ((C41_attraction hz hA).2.2.1 i)
  refine (((C41_covolume hz b0s).1 i).sub ((C41_covolume hz cs).1 i)).congr_d ?_
  simp only [dbDns, hbs]; ring

/-- The van der Waals fugacity coefficients with the row sums of the attraction. -/
theorem vdw_rows (hz : ∑ k, z k = 1) (hA : ∀ i j, A i j = A j i) (hR : 0 < R) (hT : 0 < T) (hP : 0 < P)
    (hb : 0 < lin bs z) (hbV : lin bs z < v z) (hv : Branch (vdwParams bs A) R T P z v)
    (hs : -(R * T) / (v z - lin bs z) ^ 2 + 2 * quad A z / v z ^ 3 ≠ 0) :
    PD (fun n => (∑ k, n k) * lnPhiVdw R T P (v n) (lin bs n) (quad A n)) i z
      (bs i / (v z - lin bs z) - Real.log (P * (v z - lin bs z) / (R * T)) - 2 * rowsA A z i / (R * T * v z)) := by
  have hVb : 0 < v z - lin bs z := sub_pos.mpr hbV
  have hV0 : 0 < v z := hb.trans hbV
  have hpb : PD (lin bs) i z (bs i - lin bs z) := (C41_covolume hz bs).1 i
  have hpa : PD (quad A) i z (2 * rowsA A z i - 2 * quad A z) :=
    ((C41_attraction hz hA).2.2.1 i).congr_d (by simp only [daDns]; ring)
  have hvd : DifferentiableAt ℝ (fun s => v (Function.update z i s)) (z i) := by
    have hc : ContinuousAt (fun s => v (Function.update z i s)) (z i) := by
      have : ContinuousAt v (Function.update z i (z i)) := by rw [Function.update_eq_self]; exact hv.cont
      exact ContinuousAt.comp this (continuous_const.update i continuous_id).continuousAt
    refine path_diff (t := z i) (R := R) (T := T) (P := P) (b := fun s => lin bs (Function.update z i s)) (delta := fun _ => 0) (epsilon := fun _ => 0)
      (a := fun s => quad A (Function.update z i s)) (v := fun s => v (Function.update z i s)) ?_ ?_ ?_ hpb
      (hasDerivAt_const _ 0) (hasDerivAt_const _ 0) hpa hc ((update_tendsto z i).eventually hv.solves)
    · simp only [Function.update_eq_self]; exact hVb.ne'
    · simp only [Function.update_eq_self]; simp; exact hV0.ne'
    · simp only [Function.update_eq_self]
      convert hs using 2
      field_simp
      ring
  have hpv : PD v i z (deriv (fun s => v (Function.update z i s)) (z i)) := hvd.hasDerivAt
  generalize deriv (fun s => v (Function.update z i s)) (z i) = v' at hpv
  have hlog : PD (fun n => Real.log (P * (v n - lin bs n) / (R * T))) i z ((v' - (bs i - lin bs z)) / (v z - lin bs z)) := by
    have h1 := ((hpv.sub hpb).const_mul P).mul_const (1 / (R * T))
    have h2 := PD.comp (f := Real.log) (Real.hasDerivAt_log (x := P * (v z - lin bs z) * (1 / (R * T))) (by positivity)) h1
    simp only [mul_one_div] at h2
    refine h2.congr_d ?_
    field_simp
  have hmain := (pd_total z i).mul ((((hpv.const_mul P).mul_const (1 / (R * T))).sub (PD.const 1)).sub hlog |>.sub
    (hpa.div (hpv.const_mul (R * T)) (by positivity)))
  simp only [mul_one_div] at hmain
  refine hmain.congr_d ?_
  have hp : R * T / (v z - lin bs z) - quad A z / v z ^ 2 = P := by
    have := hv.solves.self_of_nhds
    simpa [Params.p, vdwParams, pressure] using this
  rw [hz]
  generalize Real.log _ = M
  rw [← hp]
  field_simp
  ring

/-- **C55.** `VDW_lnphis` uses `√a √a_i` in place of the row sum; it is right when the two agree, in particular when all
interaction parameters vanish. -/
theorem C55_VDW_partial (hz : ∑ k, z k = 1) (hR : 0 < R) (hT : 0 < T) (hP : 0 < P)
    (hb : 0 < lin bs z) (hbV : lin bs z < v z) {roots : Fin N → ℝ} (hr : 0 ≤ ∑ k, z k * roots k)
    (hv : Branch (vdwParams bs fun i j => roots i * roots j) R T P z v)
    (hs : -(R * T) / (v z - lin bs z) ^ 2 + 2 * quad (fun i j => roots i * roots j) z / v z ^ 3 ≠ 0) :
    PD (fun n => (∑ k, n k) * lnPhiVdw R T P (v n) (lin bs n) (quad (fun i j => roots i * roots j) n)) i z
      (vdwLnphis R T P (P * v z / (R * T)) (lin bs z) (quad (fun i j => roots i * roots j) z) bs roots i) := by
  have hVb : 0 < v z - lin bs z := sub_pos.mpr hbV
  have hV0 : 0 < v z := hb.trans hbV
  refine (vdw_rows (A := fun i j => roots i * roots j) hz (fun i j => mul_comm _ _) hR hT hP hb hbV hv hs).congr_d ?_
  have hq : quad (fun i j => roots i * roots j) z = (∑ k, z k * roots k) ^ 2 := by
    unfold quad
    rw [hz, one_pow, div_one, pow_two, Finset.sum_mul_sum]
    exact Finset.sum_congr rfl fun i _ => Finset.sum_congr rfl fun j _ => by ring
  have hrow : rowsA (fun i j => roots i * roots j) z i = roots i * ∑ k, z k * roots k := by
    unfold rowsA
    rw [Finset.mul_sum]
    exact Finset.sum_congr rfl fun j _ => by ring
  have eV : P * v z / (R * T) * R * T / P = v z := by field_simp
  have eL : P * v z / (R * T) * (1 - lin bs z / v z) = P * (v z - lin bs z) / (R * T) := by field_simp
  simp only [vdwLnphis, eV, eL]
  rw [hrow, hq, Real.sqrt_sq hr]
  ring

end Named

/-! ### Sums -/

/-- **C40.** The mole fraction average of the logarithmic fugacity coefficients is the mixture's (`lnphi` of the phase),
whenever the supplied derivatives are those of functions of the composition alone. -/
theorem C40_sum {R T P V b delta epsilon a : ℝ} (h : Regular R T P V b delta epsilon a) {z db da ddelta deps : Fin N → ℝ}
    (hz : ∑ k, z k = 1) (h1 : ∑ k, z k * db k = 0) (h2 : ∑ k, z k * da k = 0) (h3 : ∑ k, z k * ddelta k = 0)
    (h4 : ∑ k, z k * deps k = 0) :
    ∑ k, z k * lnphisGeneral R T P (P * V / (R * T)) b delta epsilon a db da ddelta deps k =
      lnPhi R T P V b delta epsilon a := by
  have hlin : ∀ k, lnphisGeneral R T P (P * V / (R * T)) b delta epsilon a db da ddelta deps k =
      lnphisGeneral R T P (P * V / (R * T)) b delta epsilon a (fun _ => 0) (fun _ => 0) (fun _ => 0) (fun _ => 0) k
      + (lnphisGeneral R T P (P * V / (R * T)) b delta epsilon a (fun _ => 1) (fun _ => 0) (fun _ => 0) (fun _ => 0) k
        - lnphisGeneral R T P (P * V / (R * T)) b delta epsilon a (fun _ => 0) (fun _ => 0) (fun _ => 0) (fun _ => 0) k) * db k
      + (lnphisGeneral R T P (P * V / (R * T)) b delta epsilon a (fun _ => 0) (fun _ => 1) (fun _ => 0) (fun _ => 0) k
        - lnphisGeneral R T P (P * V / (R * T)) b delta epsilon a (fun _ => 0) (fun _ => 0) (fun _ => 0) (fun _ => 0) k) * da k
      + (lnphisGeneral R T P (P * V / (R * T)) b delta epsilon a (fun _ => 0) (fun _ => 0) (fun _ => 1) (fun _ => 0) k
        - lnphisGeneral R T P (P * V / (R * T)) b delta epsilon a (fun _ => 0) (fun _ => 0) (fun _ => 0) (fun _ => 0) k) * ddelta k
      + (lnphisGeneral R T P (P * V / (R * T)) b delta epsilon a (fun _ => 0) (fun _ => 0) (fun _ => 0) (fun _ => 1) k
        - lnphisGeneral R T P (P * V / (R * T)) b delta epsilon a (fun _ => 0) (fun _ => 0) (fun _ => 0) (fun _ => 0) k) * deps k := by
    intro k
    simp only [general_closed h]
    ring
  have hz0 : ∀ k : Fin N, lnphisGeneral R T P (P * V / (R * T)) b delta epsilon a (fun _ => 0) (fun _ => 0) (fun _ => 0)
      (fun _ => 0) k = lnPhi R T P V b delta epsilon a := by
    intro k
    rw [general_closed h]
    unfold lnPhi
    ring
  have hc : ∀ (c d e f : ℝ) (k k' : Fin N), lnphisGeneral R T P (P * V / (R * T)) b delta epsilon a (fun _ => c) (fun _ => d)
      (fun _ => e) (fun _ => f) k = lnphisGeneral R T P (P * V / (R * T)) b delta epsilon a (fun _ => c) (fun _ => d)
      (fun _ => e) (fun _ => f) k' := by
    intro c d e f k k'
    rw [general_closed h, general_closed h]
  rcases Nat.eq_zero_or_pos N with rfl | hN
  · simp at hz
  have k0 : Fin N := ⟨0, hN⟩
  have hall : ∀ k, z k * lnphisGeneral R T P (P * V / (R * T)) b delta epsilon a db da ddelta deps k =
      z k * lnPhi R T P V b delta epsilon a
      + (lnphisGeneral R T P (P * V / (R * T)) b delta epsilon a (fun _ => 1) (fun _ => 0) (fun _ => 0) (fun _ => 0) k0
        - lnPhi R T P V b delta epsilon a) * (z k * db k)
      + (lnphisGeneral R T P (P * V / (R * T)) b delta epsilon a (fun _ => 0) (fun _ => 1) (fun _ => 0) (fun _ => 0) k0
        - lnPhi R T P V b delta epsilon a) * (z k * da k)
      + (lnphisGeneral R T P (P * V / (R * T)) b delta epsilon a (fun _ => 0) (fun _ => 0) (fun _ => 1) (fun _ => 0) k0
        - lnPhi R T P V b delta epsilon a) * (z k * ddelta k)
      + (lnphisGeneral R T P (P * V / (R * T)) b delta epsilon a (fun _ => 0) (fun _ => 0) (fun _ => 0) (fun _ => 1) k0
        - lnPhi R T P V b delta epsilon a) * (z k * deps k) := by
    intro k
    rw [hlin k, hz0 k, hc 1 0 0 0 k k0, hc 0 1 0 0 k k0, hc 0 0 1 0 k k0, hc 0 0 0 1 k k0]
    ring
  rw [Finset.sum_congr rfl fun k _ => hall k]
  simp only [Finset.sum_add_distrib, ← Finset.mul_sum, ← Finset.sum_mul, h1, h2, h3, h4, hz]
  ring

/-- **C40.** The same for `PR_lnphis`. -/
theorem C40_PR_sum {R T P V : ℝ} {z bs : Fin N → ℝ} {A : Fin N → Fin N → ℝ} (hz : ∑ k, z k = 1)
    (h : Regular R T P V (lin bs z) (2 * lin bs z) (prEps (lin bs z)) (quad A z)) (hb : 0 < lin bs z)
    (ha : quad A z ≠ 0) (buf : Fin N → ℝ) :
    ∑ k, z k * prLnphis R T P (P * V / (R * T)) (lin bs z) (quad A z) bs (rowsA A z) buf k =
      lnPhi R T P V (lin bs z) (2 * lin bs z) (prEps (lin bs z)) (quad A z) := by
  simp only [pr_general h hb ha]
  have hl : ∑ k, z k * bs k = lin bs z := by unfold lin; rw [hz, div_one]
  have hq : ∑ k, z k * rowsA A z k = quad A z := by
    rw [← quadz_rows]; unfold quad quadz; rw [hz, one_pow, div_one]
  have hb0 : ∑ k, z k * dbDns (lin bs z) bs k = 0 := by
    simp only [dbDns, mul_sub, Finset.sum_sub_distrib, ← Finset.sum_mul, hz, hl]; ring
  refine C40_sum h hz hb0 ?_ ?_ ?_
  · have : ∀ k, z k * daDns (quad A z) (rowsA A z) k = 2 * (z k * rowsA A z k) - z k * (2 * quad A z) := by
      intro k; simp only [daDns]; ring
    simp only [this, Finset.sum_sub_distrib, ← Finset.mul_sum, ← Finset.sum_mul, hz, hq]; ring
  · have : ∀ k, z k * prDdeltaDns bs (lin bs z) k = 2 * (z k * dbDns (lin bs z) bs k) := by
      intro k; simp only [prDdeltaDns, dbDns]; ring
    simp only [this, ← Finset.mul_sum, hb0]; ring
  · have : ∀ k, z k * prDepsDns (lin bs z) bs k = -2 * lin bs z * (z k * dbDns (lin bs z) bs k) := by
      intro k; simp only [prDepsDns, dbDns]; ring
    simp only [this, ← Finset.mul_sum, hb0]; ring

/-- **C40.** The same for `SRK_lnphis`. -/
theorem C40_SRK_sum {R T P V : ℝ} {z bs : Fin N → ℝ} {A : Fin N → Fin N → ℝ} (hz : ∑ k, z k = 1)
    (h : Regular R T P V (lin bs z) (lin bs z) 0 (quad A z)) (hb : 0 < lin bs z) (ha : quad A z ≠ 0) :
    ∑ k, z k * srkLnphis R T P (P * V / (R * T)) (lin bs z) (quad A z) bs (rowsA A z) k =
      lnPhi R T P V (lin bs z) (lin bs z) 0 (quad A z) := by
  simp only [srk_general h hb ha]
  have hl : ∑ k, z k * bs k = lin bs z := by unfold lin; rw [hz, div_one]
  have hq : ∑ k, z k * rowsA A z k = quad A z := by
    rw [← quadz_rows]; unfold quad quadz; rw [hz, one_pow, div_one]
  have hb0 : ∑ k, z k * dbDns (lin bs z) bs k = 0 := by
    simp only [dbDns, mul_sub, Finset.sum_sub_distrib, ← Finset.sum_mul, hz, hl]; ring
  refine C40_sum h hz hb0 ?_ hb0 (by simp)
  have : ∀ k, z k * daDns (quad A z) (rowsA A z) k = 2 * (z k * rowsA A z k) - z k * (2 * quad A z) := by
    intro k; simp only [daDns]; ring
  simp only [this, Finset.sum_sub_distrib, ← Finset.mul_sum, ← Finset.sum_mul, hz, hq]; ring

/-- **C40.** `VDW_lnphis` sums to the mixture value exactly when `√a` is the mole fraction average of the `√a_i`, as without
interaction parameters. -/
theorem C40_VDW_sum_partial {R T P V a : ℝ} {z bs roots : Fin N → ℝ} (hz : ∑ k, z k = 1) (hR : 0 < R) (hT : 0 < T)
    (hP : 0 < P) (hb : 0 < lin bs z) (hbV : lin bs z < V) (hp : pressure R T (lin bs z) 0 0 a V = P) (ha : 0 < a) :
    ∑ k, z k * vdwLnphis R T P (P * V / (R * T)) (lin bs z) a bs roots k = lnPhiVdw R T P V (lin bs z) a ↔
      √a = ∑ k, z k * roots k := by
  have hVb : 0 < V - lin bs z := sub_pos.mpr hbV
  have hV0 : 0 < V := hb.trans hbV
  have eV : P * V / (R * T) * R * T / P = V := by field_simp
  have eL : P * V / (R * T) * (1 - lin bs z / V) = P * (V - lin bs z) / (R * T) := by field_simp
  have hl : ∑ k, z k * bs k = lin bs z := by unfold lin; rw [hz, div_one]
  simp only [vdwLnphis, eV, eL]
  have hall : ∀ k, z k * (bs k * (1 / (V - lin bs z)) - Real.log (P * (V - lin bs z) / (R * T)) -
      2 * √a / (R * T * V) * roots k) = z k * bs k * (1 / (V - lin bs z)) -
      z k * Real.log (P * (V - lin bs z) / (R * T)) - 2 * √a / (R * T * V) * (z k * roots k) := by intro k; ring
  simp only [hall, Finset.sum_sub_distrib, ← Finset.sum_mul, ← Finset.mul_sum, hl, hz]
  have hp' : R * T / (V - lin bs z) - a / V ^ 2 = P := by simpa [pressure] using hp
  have hZ : P * V / (R * T) - 1 = lin bs z / (V - lin bs z) - a / (R * T * V) := by
    rw [← hp']; field_simp; ring
  unfold lnPhiVdw
  rw [hZ]
  have hs : 0 < √a := Real.sqrt_pos.mpr ha
  have hss : √a * √a = a := Real.mul_self_sqrt ha.le
  generalize Real.log _ = M
  generalize ∑ k, z k * roots k = S
  have key : lin bs z * (1 / (V - lin bs z)) - 1 * M - 2 * √a / (R * T * V) * S -
      (lin bs z / (V - lin bs z) - a / (R * T * V) - M - a / (R * T * V)) = 2 * √a / (R * T * V) * (√a - S) := by
    have : a / (R * T * V) = √a * √a / (R * T * V) := by rw [hss]
    rw [this]; ring
  rw [← sub_eq_zero, key, mul_eq_zero]
  have hne : 2 * √a / (R * T * V) ≠ 0 := by positivity
  constructor
  · rintro (h | h)
    · exact absurd h hne
    · linarith
  · intro h; right; linarith

/-- Both sides of `C40_VDW_sum_partial` occur: a van der Waals state, where the average of the roots agrees for equal roots and
zero interaction, and differs for `k₁₂ = 1`. -/
example : pressure (1 : ℝ) 1 1 0 0 1 2 = 3 / 4 ∧ √(1 : ℝ) = 1 / 2 * √1 + 1 / 2 * √1 ∧
    √(1 / 2 : ℝ) ≠ 1 / 2 * √1 + 1 / 2 * √1 := by
  refine ⟨by norm_num [pressure], by norm_num, fun h => ?_⟩
  have h1 : √(1 / 2 : ℝ) ^ 2 = 1 / 2 := Real.sq_sqrt (by norm_num)
  rw [h] at h1
  norm_num at h1

/-! ### Choice of the volume -/

/-- The physical roots returned by the solver. -/
def physRoots (V0 V1 V2 b : ℝ) : Set ℝ := {x | (x = V0 ∨ V1 ≠ 0 ∧ (x = V1 ∨ x = V2)) ∧ b < x}

theorem pick_low {V0 V1 V2 b : ℝ} (h0 : b < V0) (G : ℝ → ℝ) (l : Bool) :
    IsLeast (physRoots V0 V1 V2 b) (pickVolume false l V0 V1 V2 b G) := by
  unfold pickVolume physRoots
  dsimp only
  rw [if_neg (by simp), if_pos rfl]
  by_cases h1 : V1 = 0
  · rw [if_neg (not_not.mpr h1)]
    refine ⟨⟨.inl rfl, h0⟩, ?_⟩
    rintro x ⟨hx | hx, -⟩
    · exact hx.ge
    · exact absurd h1 hx.1
  · rw [if_pos h1]
    by_cases c1 : V0 > V1 ∧ V1 > b
    · rw [if_pos c1]
      by_cases c2 : V1 > V2 ∧ V2 > b
      · rw [if_pos c2]
        refine ⟨⟨.inr ⟨h1, .inr rfl⟩, c2.2⟩, ?_⟩
        rintro x ⟨hx | ⟨-, hx | hx⟩, hb⟩ <;> subst hx <;> linarith [c1.1, c2.1]
      · rw [if_neg c2]
        refine ⟨⟨.inr ⟨h1, .inl rfl⟩, c1.2⟩, ?_⟩
        rintro x ⟨hx | ⟨-, hx | hx⟩, hb⟩ <;> subst hx
        · exact c1.1.le
        · exact le_rfl
        · by_contra hc; exact c2 ⟨not_le.mp hc, hb⟩
    · rw [if_neg c1]
      by_cases c2 : V0 > V2 ∧ V2 > b
      · rw [if_pos c2]
        refine ⟨⟨.inr ⟨h1, .inr rfl⟩, c2.2⟩, ?_⟩
        rintro x ⟨hx | ⟨-, hx | hx⟩, hb⟩ <;> subst hx
        · exact c2.1.le
        · have := not_lt.mp fun hc => c1 ⟨hc, hb⟩
          linarith [c2.1]
        · exact le_rfl
      · rw [if_neg c2]
        refine ⟨⟨.inl rfl, h0⟩, ?_⟩
        rintro x ⟨hx | ⟨-, hx | hx⟩, hb⟩ <;> subst hx
        · exact le_rfl
        · exact not_lt.mp fun hc => c1 ⟨hc, hb⟩
        · exact not_lt.mp fun hc => c2 ⟨hc, hb⟩

theorem pick_high {V0 V1 V2 b : ℝ} (h0 : b < V0) (G : ℝ → ℝ) :
    IsGreatest (physRoots V0 V1 V2 b) (pickVolume true false V0 V1 V2 b G) := by
  unfold pickVolume physRoots
  dsimp only
  rw [if_neg (by simp), if_neg (by simp)]
  by_cases h1 : V1 = 0
  · rw [if_neg (not_not.mpr h1)]
    refine ⟨⟨.inl rfl, h0⟩, ?_⟩
    rintro x ⟨hx | hx, -⟩
    · exact hx.le
    · exact absurd h1 hx.1
  · rw [if_pos h1]
    by_cases c1 : V0 < V1 ∧ V1 > b
    · rw [if_pos c1]
      by_cases c2 : V1 < V2 ∧ V2 > b
      · rw [if_pos c2]
        refine ⟨⟨.inr ⟨h1, .inr rfl⟩, c2.2⟩, ?_⟩
        rintro x ⟨hx | ⟨-, hx | hx⟩, hb⟩ <;> subst hx <;> linarith [c1.1, c2.1]
      · rw [if_neg c2]
        refine ⟨⟨.inr ⟨h1, .inl rfl⟩, c1.2⟩, ?_⟩
        rintro x ⟨hx | ⟨-, hx | hx⟩, hb⟩ <;> subst hx
        · exact c1.1.le
        · exact le_rfl
        · by_contra hc; exact c2 ⟨not_le.mp hc, hb⟩
    · rw [if_neg c1]
      by_cases c2 : V0 < V2 ∧ V2 > b
      · rw [if_pos c2]
        refine ⟨⟨.inr ⟨h1, .inr rfl⟩, c2.2⟩, ?_⟩
        rintro x ⟨hx | ⟨-, hx | hx⟩, hb⟩ <;> subst hx
        · exact c2.1.le
        · have := not_lt.mp fun hc => c1 ⟨hc, hb⟩
          linarith [c2.1]
        · exact le_rfl
      · rw [if_neg c2]
        refine ⟨⟨.inl rfl, h0⟩, ?_⟩
        rintro x ⟨hx | ⟨-, hx | hx⟩, hb⟩ <;> subst hx
        · exact le_rfl
        · exact not_lt.mp fun hc => c1 ⟨hc, hb⟩
        · exact not_lt.mp fun hc => c2 ⟨hc, hb⟩

/-- **C59.** The volume used for the fugacity coefficients: the least physical root for a liquid, the greatest for a
gas, and when the phase is not prescribed the one of these two with the lower Gibbs energy, provided the first root is
physical. -/
theorem C59_volume_choice {V0 V1 V2 b : ℝ} (h0 : b < V0) (G : ℝ → ℝ) :
    (∀ l, IsLeast (physRoots V0 V1 V2 b) (pickVolume false l V0 V1 V2 b G)) ∧
    IsGreatest (physRoots V0 V1 V2 b) (pickVolume true false V0 V1 V2 b G) ∧
    ∃ lo hi, IsLeast (physRoots V0 V1 V2 b) lo ∧ IsGreatest (physRoots V0 V1 V2 b) hi ∧
      (pickVolume true true V0 V1 V2 b G = lo ∨ pickVolume true true V0 V1 V2 b G = hi) ∧
      G (pickVolume true true V0 V1 V2 b G) ≤ G lo ∧ G (pickVolume true true V0 V1 V2 b G) ≤ G hi := by
  refine ⟨fun l => pick_low h0 G l, pick_high h0 G, _, _, pick_low h0 G true, pick_high h0 G, ?_⟩
  have hl := pick_low (V1 := V1) (V2 := V2) h0 G true
  have hh := pick_high (V1 := V1) (V2 := V2) h0 G
  have h00 : V0 ∈ physRoots V0 V1 V2 b := ⟨.inl rfl, h0⟩
  have hlo := hl.2 h00
  have hhi := hh.2 h00
  have e : ∀ r, r = pickVolume true true V0 V1 V2 b G → r =
      open Classical in
      if pickVolume false true V0 V1 V2 b G ≠ pickVolume true false V0 V1 V2 b G then
        (if G (pickVolume false true V0 V1 V2 b G) < G (pickVolume true false V0 V1 V2 b G) then
          pickVolume false true V0 V1 V2 b G else pickVolume true false V0 V1 V2 b G) else V0 := by
    intro r hr
    rw [hr]
    simp [pickVolume]
  have hr := e _ rfl
  generalize pickVolume true true V0 V1 V2 b G = r at *
  generalize pickVolume false true V0 V1 V2 b G = lo at *
  generalize pickVolume true false V0 V1 V2 b G = hi at *
  subst hr
  by_cases hne : lo = hi
  · rw [if_neg (not_not.mpr hne)]
    subst hne
    have : V0 = lo := le_antisymm hhi hlo
    subst this
    exact ⟨.inl rfl, le_rfl, le_rfl⟩
  · rw [if_pos hne]
    by_cases hG : G lo < G hi
    · rw [if_pos hG]; exact ⟨.inl rfl, le_rfl, hG.le⟩
    · rw [if_neg hG]; exact ⟨.inr rfl, not_lt.mp hG, le_rfl⟩

example : pickVolume true true 2 5 3 1 (fun x => x) = 2 ∧ pickVolume true true 2 5 3 1 (fun x => -x) = 5 ∧
    pickVolume false true 4 5 (1 / 2) 1 (fun x => x) = 4 := by
  norm_num [pickVolume]

/-- **C59.** If the first root lies below the covolume and another is physical, the liquid choice still returns the
first one. -/
theorem C59_volume_choice_fails : ∃ V0 V1 V2 b : ℝ, (physRoots V0 V1 V2 b).Nonempty ∧
    pickVolume false true V0 V1 V2 b (fun x => x) ∉ physRoots V0 V1 V2 b := by
  refine ⟨1 / 2, 3, 4, 1, ⟨3, .inr ⟨by norm_num, .inl rfl⟩, by norm_num⟩, ?_⟩
  norm_num [pickVolume, physRoots]

/-! ### Instances and failures -/

theorem lin_cont (l : Fin N → ℝ) {z : Fin N → ℝ} (hz : ∑ k, z k = 1) : ContinuousAt (lin l) z := by
  unfold lin
  exact ContinuousAt.div (Continuous.continuousAt (by fun_prop)) (Continuous.continuousAt (by fun_prop))
    (by rw [hz]; exact one_ne_zero)

theorem quad_cont (A : Fin N → Fin N → ℝ) {z : Fin N → ℝ} (hz : ∑ k, z k = 1) : ContinuousAt (quad A) z := by
  unfold quad
  exact ContinuousAt.div (Continuous.continuousAt (by fun_prop)) (Continuous.continuousAt (by fun_prop))
    (by rw [hz]; norm_num)

/-- An equimolar binary. -/
noncomputable def half : Fin 2 → ℝ := ![1 / 2, 1 / 2]

theorem half_sum : ∑ k, half k = 1 := by norm_num [half, Fin.sum_univ_two]

theorem half_lin (x y : ℝ) : lin ![x, y] half = (x + y) / 2 := by
  unfold lin; rw [half_sum]; simp [half, Fin.sum_univ_two]; ring

theorem half_quad (x y w : ℝ) : quad ![![x, y], ![y, w]] half = (x + 2 * y + w) / 4 := by
  unfold quad; rw [half_sum]; simp [half, Fin.sum_univ_two]; ring

theorem bin_symm (x y w : ℝ) (i j : Fin 2) : (![![x, y], ![y, w]] : Fin 2 → Fin 2 → ℝ) i j = ![![x, y], ![y, w]] j i := by
  fin_cases i <;> fin_cases j <;> rfl

/-- Hypotheses of `C55_PR`, of `C55_general`, `C55_volume`, `C55_helper`, `C40_PR_sum`: a binary with different covolumes
and a binary interaction parameter. -/
example : ∃ (P : ℝ) (v : (Fin 2 → ℝ) → ℝ), Branch (prParams ![1, 3] ![![1, 1 / 2], ![1 / 2, 2]]) 1 1 P half v ∧
    Regular 1 1 P (v half) (lin ![1, 3] half) (2 * lin ![1, 3] half) (prEps (lin ![1, 3] half))
      (quad ![![1, 1 / 2], ![1 / 2, 2]] half) ∧ 0 < lin ![1, 3] half ∧ quad ![![1, 1 / 2], ![1 / 2, 2]] half ≠ 0 := by
  have hl := half_lin 1 3
  have hq := half_quad 1 (1 / 2) 2
  have hreg : Regular 1 1 (1 / 2 - 1 / 28) 4 (lin ![1, 3] half) (2 * lin ![1, 3] half) (prEps (lin ![1, 3] half))
      (quad ![![1, 1 / 2], ![1 / 2, 2]] half) := by
    rw [hl, hq]
    refine regular_pr (by norm_num) (by norm_num) (by norm_num) (by norm_num) (by norm_num) ?_ ?_ <;>
      norm_num [pressure, prEps]
  obtain ⟨v, hv, hv4⟩ := C55_branch_exists (m := prParams ![1, 3] ![![1, 1 / 2], ![1 / 2, 2]]) (z := half) hreg
    (lin_cont _ half_sum) ((lin_cont _ half_sum).const_mul 2)
    (by unfold prParams prEps; exact ((lin_cont _ half_sum).pow 2).neg) (quad_cont _ half_sum)
  refine ⟨_, v, hv, by rw [hv4]; exact hreg, by rw [hl]; norm_num, by rw [hq]; norm_num⟩

/-- Hypotheses of `C55_SRK` and `C55_RK`. -/
example : ∃ (P : ℝ) (v : (Fin 2 → ℝ) → ℝ), Branch (srkParams ![1, 3] ![![1, 1 / 2], ![1 / 2, 2]]) 1 1 P half v ∧
    Regular 1 1 P (v half) (lin ![1, 3] half) (lin ![1, 3] half) 0
      (quad ![![1, 1 / 2], ![1 / 2, 2]] half) ∧ 0 < lin ![1, 3] half ∧ quad ![![1, 1 / 2], ![1 / 2, 2]] half ≠ 0 := by
  have hl := half_lin 1 3
  have hq := half_quad 1 (1 / 2) 2
  have hreg : Regular 1 1 (1 / 2 - 1 / 24) 4 (lin ![1, 3] half) (lin ![1, 3] half) 0
      (quad ![![1, 1 / 2], ![1 / 2, 2]] half) := by
    rw [hl, hq]
    refine regular_srk (by norm_num) (by norm_num) (by norm_num) (by norm_num) (by norm_num) ?_ ?_ <;>
      norm_num [pressure]
  obtain ⟨v, hv, hv4⟩ := C55_branch_exists (m := srkParams ![1, 3] ![![1, 1 / 2], ![1 / 2, 2]]) (z := half) hreg
    (lin_cont _ half_sum) (lin_cont _ half_sum) continuousAt_const (quad_cont _ half_sum)
  refine ⟨_, v, hv, by rw [hv4]; exact hreg, by rw [hl]; norm_num, by rw [hq]; norm_num⟩

/-- Hypotheses of `C55_PR_translated`. -/
example : ∃ (P : ℝ) (v : (Fin 2 → ℝ) → ℝ), Branch (prtParams ![1, 3] ![0, 1] ![![1, 1 / 2], ![1 / 2, 2]]) 1 1 P half v ∧
    Regular 1 1 P (v half) (lin ![1, 3] half - lin ![0, 1] half) (2 * (lin ![0, 1] half + lin ![1, 3] half))
      (prtEps (lin ![1, 3] half) (lin ![0, 1] half)) (quad ![![1, 1 / 2], ![1 / 2, 2]] half) := by
  have hl := half_lin 1 3
  have hc := half_lin 0 1
  have hq := half_quad 1 (1 / 2) 2
  have hreg : Regular 1 1 (2 / 5 - 4 / 137) 4 (lin ![1, 3] half - lin ![0, 1] half)
      (2 * (lin ![0, 1] half + lin ![1, 3] half)) (prtEps (lin ![1, 3] half) (lin ![0, 1] half))
      (quad ![![1, 1 / 2], ![1 / 2, 2]] half) := by
    rw [hl, hq, hc]
    refine ⟨by norm_num, by norm_num, by norm_num, by norm_num, by norm_num [prtEps], ?_, by norm_num [pressure, prtEps],
      by norm_num [prtEps]⟩
    rw [Real.sqrt_lt' (by norm_num)]
    norm_num [prtEps]
  obtain ⟨v, hv, hv4⟩ := C55_branch_exists (m := prtParams ![1, 3] ![0, 1] ![![1, 1 / 2], ![1 / 2, 2]]) (z := half) hreg
    ((lin_cont _ half_sum).sub (lin_cont _ half_sum)) (((lin_cont _ half_sum).add (lin_cont _ half_sum)).const_mul 2)
    (by
      unfold prtParams prtEps
      exact (((lin_cont _ half_sum).pow 2).add (((lin_cont _ half_sum).const_mul 2).mul (lin_cont _ half_sum))).sub
        ((lin_cont _ half_sum).pow 2)) (quad_cont _ half_sum)
  exact ⟨_, v, hv, by rw [hv4]; exact hreg⟩

/-- Hypotheses of `C55_SRK_translated`. -/
example : ∃ (P : ℝ) (v : (Fin 2 → ℝ) → ℝ), Branch (srktParams ![1, 3] ![0, 1] ![![1, 1 / 2], ![1 / 2, 2]]) 1 1 P half v ∧
    Regular 1 1 P (v half) (lin ![1, 3] half - lin ![0, 1] half) (2 * lin ![0, 1] half + lin ![1, 3] half)
      (srktEps (lin ![1, 3] half) (lin ![0, 1] half)) (quad ![![1, 1 / 2], ![1 / 2, 2]] half) := by
  have hl := half_lin 1 3
  have hc := half_lin 0 1
  have hq := half_quad 1 (1 / 2) 2
  have hreg : Regular 1 1 (2 / 5 - 4 / 117) 4 (lin ![1, 3] half - lin ![0, 1] half)
      (2 * lin ![0, 1] half + lin ![1, 3] half) (srktEps (lin ![1, 3] half) (lin ![0, 1] half))
      (quad ![![1, 1 / 2], ![1 / 2, 2]] half) := by
    rw [hl, hq, hc]
    refine ⟨by norm_num, by norm_num, by norm_num, by norm_num, by norm_num [srktEps], ?_, by norm_num [pressure, srktEps],
      by norm_num [srktEps]⟩
    rw [Real.sqrt_lt' (by norm_num)]
    norm_num [srktEps]
  obtain ⟨v, hv, hv4⟩ := C55_branch_exists (m := srktParams ![1, 3] ![0, 1] ![![1, 1 / 2], ![1 / 2, 2]]) (z := half) hreg
    ((lin_cont _ half_sum).sub (lin_cont _ half_sum)) (((lin_cont _ half_sum).const_mul 2).add (lin_cont _ half_sum))
    (by
      unfold srktParams srktEps
      exact (lin_cont _ half_sum).mul ((lin_cont _ half_sum).add (lin_cont _ half_sum))) (quad_cont _ half_sum)
  exact ⟨_, v, hv, by rw [hv4]; exact hreg⟩

/-- A van der Waals branch. -/
theorem vdw_branch_exists {bs z : Fin N → ℝ} {A : Fin N → Fin N → ℝ} {R T P V : ℝ} (hz : ∑ k, z k = 1)
    (hb : 0 < lin bs z) (hbV : lin bs z < V) (hp : pressure R T (lin bs z) 0 0 (quad A z) V = P)
    (hs : -(R * T) / (V - lin bs z) ^ 2 + 2 * quad A z / V ^ 3 ≠ 0) :
    ∃ v, Branch (vdwParams bs A) R T P z v ∧ v z = V := by
  have hV : 0 < V := hb.trans hbV
  obtain ⟨ψ, h1, h2, h3, -⟩ := volume_branch (sub_pos.mpr hbV).ne' (by simp; exact hV.ne') hp
    (by convert hs using 2; field_simp; ring)
  have hc : ContinuousAt (fun n => (lin bs n, (0 : ℝ), (0 : ℝ), quad A n)) z :=
    (lin_cont bs hz).prodMk (continuousAt_const.prodMk (continuousAt_const.prodMk (quad_cont A hz)))
  refine ⟨fun n => ψ (lin bs n, 0, 0, quad A n), ⟨?_, ?_⟩, h2⟩
  · exact ContinuousAt.comp (g := ψ) h1.continuousAt hc
  · exact hc.eventually h3

/-- Hypotheses of `C55_VDW_partial`. -/
example : ∃ (P : ℝ) (v : (Fin 2 → ℝ) → ℝ),
    Branch (vdwParams ![1, 3] fun i j => (![1, 3] : Fin 2 → ℝ) i * (![1, 3] : Fin 2 → ℝ) j) 1 1 P half v ∧ 0 < P ∧
    lin ![1, 3] half < v half ∧ 0 ≤ ∑ k, half k * (![1, 3] : Fin 2 → ℝ) k ∧
    -(1 * 1) / (v half - lin ![1, 3] half) ^ 2 +
      2 * quad (fun i j => (![1, 3] : Fin 2 → ℝ) i * (![1, 3] : Fin 2 → ℝ) j) half / v half ^ 3 ≠ 0 := by
  have hl := half_lin 1 3
  have hq : quad (fun i j => (![1, 3] : Fin 2 → ℝ) i * (![1, 3] : Fin 2 → ℝ) j) half = 4 := by
    unfold quad; rw [half_sum]; norm_num [half, Fin.sum_univ_two]
  obtain ⟨v, hv, h4⟩ := vdw_branch_exists (bs := ![1, 3]) (z := half)
    (A := fun i j => (![1, 3] : Fin 2 → ℝ) i * (![1, 3] : Fin 2 → ℝ) j) (R := 1) (T := 1) (P := 1 / 4) (V := 4) half_sum
    (by rw [hl]; norm_num) (by rw [hl]; norm_num) (by rw [hl, hq]; norm_num [pressure]) (by rw [hl, hq]; norm_num)
  exact ⟨_, v, hv, by norm_num, by rw [h4, hl]; norm_num, by norm_num [half, Fin.sum_univ_two],
    by rw [h4, hl, hq]; norm_num⟩

/-- **C55.** With a binary interaction parameter (here `k₁₂ = 1`, attractions one) the van der Waals routine is wrong. -/
theorem C55_VDW_fails : ∃ (P : ℝ) (v : (Fin 2 → ℝ) → ℝ),
    Branch (vdwParams ![1, 1] ![![1, 0], ![0, 1]]) 1 1 P half v ∧ 0 < P ∧ lin ![1, 1] half < v half ∧
    ¬ PD (fun n => (∑ k, n k) * lnPhiVdw 1 1 P (v n) (lin ![1, 1] n) (quad ![![1, 0], ![0, 1]] n)) 0 half
      (vdwLnphis 1 1 P (P * v half / (1 * 1)) (lin ![1, 1] half) (quad ![![1, 0], ![0, 1]] half) ![1, 1] ![√1, √1] 0) := by
  have hl := half_lin 1 1
  have hq := half_quad 1 0 1
  have hs : -((1 : ℝ) * 1) / (2 - lin ![1, 1] half) ^ 2 + 2 * quad ![![1, 0], ![0, 1]] half / 2 ^ 3 ≠ 0 := by
    rw [hl, hq]; norm_num
  obtain ⟨v, hv, h4⟩ := vdw_branch_exists (bs := ![1, 1]) (z := half) (A := ![![1, 0], ![0, 1]]) (R := 1) (T := 1)
    (P := 7 / 8) (V := 2) half_sum (by rw [hl]; norm_num) (by rw [hl]; norm_num)
    (by rw [hl, hq]; norm_num [pressure]) hs
  refine ⟨7 / 8, v, hv, by norm_num, by rw [h4, hl]; norm_num, fun hbad => ?_⟩
  have hgood := vdw_rows (i := 0) half_sum (bin_symm 1 0 1) one_pos one_pos (by norm_num : (0 : ℝ) < 7 / 8)
    (by rw [hl]; norm_num) (by rw [h4, hl]; norm_num) hv (by rw [h4]; exact hs)
  have heq := hbad.unique hgood
  have hrow : rowsA ![![1, 0], ![0, 1]] half 0 = 1 / 2 := by norm_num [rowsA, half, Fin.sum_univ_two]
  simp only [vdwLnphis, h4, hl, hq, hrow] at heq
  norm_num at heq
  have h2 : √(2 : ℝ) ^ 2 = 2 := Real.sq_sqrt (by norm_num)
  have h3 : 0 < √(2 : ℝ) := by positivity
  field_simp at heq
  nlinarith

/-- **C55.** Without attraction `PR_lnphis` returns zero for the first component and leaves the other entries of the list
it was given, although the fugacity coefficients are not one. -/
theorem C55_PR_no_attraction_fails : ∃ (P : ℝ) (v : (Fin 2 → ℝ) → ℝ),
    Branch (prParams ![1, 1] ![![0, 0], ![0, 0]]) 1 1 P half v ∧
    Regular 1 1 P (v half) (lin ![1, 1] half) (2 * lin ![1, 1] half) (prEps (lin ![1, 1] half))
      (quad ![![0, 0], ![0, 0]] half) ∧
    (∀ buf, prLnphis 1 1 P (P * v half / (1 * 1)) (lin ![1, 1] half) (quad ![![0, 0], ![0, 0]] half) ![1, 1]
      (rowsA ![![0, 0], ![0, 0]] half) buf = ![0, buf 1]) ∧
    PD (fun n => (∑ k, n k) * lnPhi 1 1 P (v n) (lin ![1, 1] n) (2 * lin ![1, 1] n) (prEps (lin ![1, 1] n))
      (quad ![![0, 0], ![0, 0]] n)) 0 half 1 := by
  have hl := half_lin 1 1
  have hq := half_quad 0 0 0
  have hreg : Regular 1 1 1 2 (lin ![1, 1] half) (2 * lin ![1, 1] half) (prEps (lin ![1, 1] half))
      (quad ![![0, 0], ![0, 0]] half) := by
    rw [hl, hq]
    refine regular_pr (by norm_num) (by norm_num) (by norm_num) (by norm_num) (by norm_num) ?_ ?_ <;>
      norm_num [pressure, prEps]
  obtain ⟨v, hv, h2⟩ := C55_branch_exists (m := prParams ![1, 1] ![![0, 0], ![0, 0]]) (z := half) hreg
    (lin_cont _ half_sum) ((lin_cont _ half_sum).const_mul 2)
    (by unfold prParams prEps; exact ((lin_cont _ half_sum).pow 2).neg) (quad_cont _ half_sum)
  refine ⟨1, v, hv, by rw [h2]; exact hreg, fun buf => ?_, ?_⟩
  · funext i
    rw [hq]
    fin_cases i <;> simp [prLnphis]
  · have hz := half_sum
    have := C55_general (i := 0) (m := prParams ![1, 1] ![![0, 0], ![0, 0]]) hz hv (by rw [h2]; exact hreg)
      ((C41_covolume hz ![1, 1]).1 0) ((C41_PR_delta hz ![1, 1]).2.1 0)
      ((C41_PR_epsilon hz ![1, 1]).2.2.2.1 0) ((C41_attraction hz (bin_symm 0 0 0)).2.2.1 0)
    refine PD.congr_d this ?_
    rw [h2]
    have hrow : rowsA ![![0, 0], ![0, 0]] half 0 = 0 := by norm_num [rowsA, half, Fin.sum_univ_two]
    have hc := general_closed hreg (dbDns (lin ![1, 1] half) ![1, 1]) (daDns (quad ![![0, 0], ![0, 0]] half)
      (rowsA ![![0, 0], ![0, 0]] half)) (prDdeltaDns ![1, 1] (lin ![1, 1] half)) (prDepsDns (lin ![1, 1] half) ![1, 1]) 0
    refine Eq.trans hc ?_
    simp only [dbDns, daDns, hrow, hq, hl]
    norm_num

end Verif.LnPhi
