import Verif.Eos.LnPhi

/-!
# Closed-form derivatives of the fugacity coefficients of mixtures (`thermo/eos_mix.py`)

* `PRMIX.dlnphis_dT` (7115-7203), `PRMIX.dlnphis_dP` (7205-7259), `PRMIX.dlnphis_dzs` (7401-7558);
* `SRKMIX.dlnphis_dT` (8809-8883), `SRKMIX.dlnphis_dP` (8885-8939);
* `VDWMIX.dlnphis_dT` (10230-10289), `VDWMIX.dlnphis_dP` (10291-10345);
* `GCEOSMIX.dlnphis_dzs` (5668-5694) and which of the two composition derivatives the translated classes
  inherit (7892-7895: `d_lnphi_dzs` is overridden, `dlnphis_dzs` is not).

The specification: the derivative of what `fugacity_coefficients` returns (`prLnphis`, `srkLnphis`, `vdwLnphis`, shown in
`C55_*` to be the fugacity coefficients), along temperature, pressure or any path of compositions, while the compressibility
factor follows the equation of state.

Simplified: real numbers; `1/x` at `x = 0` raises in Python and is `0` here unless the definition returns an `Option`; the gas
constant is a parameter; `phase` only selects `Z` and its derivative, which are parameters; lists are functions on `Fin N`.
-/

namespace Verif.MixClosed

open Verif.Cubic Verif.MixDerivs Verif.LnPhi Filter Topology

variable {N : ℕ}

/-! ### The code -/

/-- `PRMIX.dlnphis_dT` (7115-7203). `dZ`, `aT`, `rowsT` are the temperature derivatives of `Z`, `a_alpha` and its rows. The
division by `x55` (7190) is never used but raises when `x55` is zero. -/
noncomputable def prDT (R T P Z dZ b a aT : ℝ) (bs rows rowsT : Fin N → ℝ) : Option (Fin N → ℝ) :=
  open Classical in
  let T_inv := 1 / T
  let x2 := T_inv * T_inv
  let x3 := 1 / R
  let x4 := P * b * x3
  let x5 := x2 * x4
  let x8 := x4 * T_inv
  let x10 := a
  let x11 := 1 / a
  let x12 := aT
  let x13 := √2
  let x14 := 1 / b
  let x15 := x13 + 1
  let x16 := Z + x15 * x8
  let x17 := x13 - 1
  let x18 := x16 / (x17 * x8 - Z)
  let x19 := Real.log (-x18)
  let x13x14 := x13 * x14
  let x10x13x14_4 := 1 / 4 * x10 * x13x14
  let x19x3 := x19 * x3
  let x24 := x10x13x14_4 * x19x3 * x2
  let x25 := 1 / 4 * x12 * x13x14 * x19x3 * T_inv
  let x26 := x10x13x14_4 * x3 * T_inv * ((-dZ) + x15 * x5 - x18 * (dZ + x17 * x5)) / x16
  let x50 := (-(1 / 2)) * x13x14 * x19x3 * T_inv
  let x51 := (-x11) * x12
  let x52 := (dZ + x5) / (x8 - Z)
  let x53 := 2 * x11
  let x55 := x24 - x25 + x26
  let x57 := x53 * x55
  let x58 := x14 * (dZ - x55)
  let x59 := x57 / x50 + x51
  if a = 0 ∨ x50 = 0 ∨ x55 = 0 then none
  else some fun i => x52 + bs i * x58 + x50 * (x59 * rows i + rowsT i)

/-- `PRMIX.dlnphis_dP` (7205-7259). -/
noncomputable def prDP (R T P Z dZ b a : ℝ) (bs rows : Fin N → ℝ) : Fin N → ℝ :=
  let T_inv := 1 / T
  let x2 := 1 / b
  let x6 := b * (1 / R) * T_inv
  let x8 := P * x6
  let x9 := (dZ - x6) / (x8 - Z)
  let x13 := Z + (√2 + 1) * x8
  let x15 := a * √2 * x2 * (1 / R) * T_inv * (dZ + (√2 + 1) * x6 + x13 * (dZ - (√2 - 1) * x6) / ((√2 - 1) * x8 - Z)) / (4 * x13)
  let x16 := dZ + x15
  let x50 := -2 / a
  fun i =>
    let x3 := bs i * x2
    let x10 := x50 * rows i
    x16 * x3 + x15 * x10 + x9

/-- `dZ_dxs` of `PRMIX.dlnphis_dzs` (7455-7486). -/
noncomputable def prDZ (R T P Z b a : ℝ) (bs rows : Fin N → ℝ) (k : Fin N) : ℝ :=
  let RT_inv := 1 / R * (1 / T)
  let A := a * P * RT_inv * RT_inv
  let B := b * P * RT_inv
  let dB := P * RT_inv * bs k
  let dA := (P + P) * RT_inv * RT_inv * rows k
  let inv := 1 / (3 * Z * Z - 2 * Z * (1 - B) + (A - 3 * B * B - 2 * B))
  let t15 := A - 2 * B - 3 * B * B + 2 * (3 * B + 1) * Z - Z * Z
  ((B - Z) * dA + t15 * dB) * inv

/-- `dE_dxs` before mirroring (7508-7531). -/
noncomputable def prDE (R T P b a : ℝ) (bs rows : Fin N → ℝ) (A' : Fin N → Fin N → ℝ) (i k : Fin N) : ℝ :=
  let RT_inv := 1 / R * (1 / T)
  let A := a * P * RT_inv * RT_inv
  let B := b * P * RT_inv
  let dB := P * RT_inv * bs k
  let dA := (P + P) * RT_inv * RT_inv * rows k
  let t1 := 1 / (2 * √2 * a * b * B)
  let t2 := t1 * A / (a * b)
  let t50 := B * dA - A * dB
  let t32 := 2 * a * (b * b)
  let t33 := 4 * (b * b)
  let t34 := t1 * (1 / B) * a
  let t35 := (-t1) * (1 / B) * (b + b)
  let t30 := t34 * bs i + t35 * rows i
  let t31 := t33 * rows i
  t30 * t50 + t2 * (t31 * rows k - t32 * A' i k - bs i * bs k * (a * a))

/-- `PRMIX.dlnphis_dzs` (7401-7558): the entry of row `i` and column `k`. `A'` is `a_alpha_ijs`, `rows` is `a_alpha_j_rows`. -/
noncomputable def prDzs (R T P Z b a : ℝ) (bs rows : Fin N → ℝ) (A' : Fin N → Fin N → ℝ) (i k : Fin N) : ℝ :=
  let RT_inv := 1 / R * (1 / T)
  let A := a * P * RT_inv * RT_inv
  let B := b * P * RT_inv
  let C := 1 / (Z - B)
  let G := (Z + (1 + √2) * B) / (Z + (1 - √2) * B)
  let E := (-A) / (2 * √2 * B) * (2 / a * rows i - bs i * (1 / b))
  let dB := P * RT_inv * bs k
  let dZ := prDZ R T P Z b a bs rows k
  let dC := (-1) / ((Z - B) * (Z - B)) * (dZ - dB)
  let t55 := b * dZ - bs k * (Z - 1)
  let dD := bs i * (1 / b * (1 / b)) * t55
  let dE := if k ≤ i then prDE R T P b a bs rows A' i k else prDE R T P b a bs rows A' k i
  let t59 := Z + (1 - √2) * B
  let dG := 2 * √2 / (t59 * t59) * (Z * dB - B * dZ)
  1 / C * dC + dD + Real.log G * dE + E * (1 / G) * dG

/-- `SRKMIX.dlnphis_dT` (8809-8883). -/
noncomputable def srkDT (R T P Z dZ b a aT : ℝ) (bs rows rowsT : Fin N → ℝ) : Fin N → ℝ :=
  let T_inv := 1 / T
  let x2 := T_inv * T_inv
  let x4 := P * b * (1 / R)
  let x6 := x4 * T_inv
  let x8 := a
  let x9 := 1 / x8
  let x10 := aT
  let x11 := 1 / b
  let x12 := 1 / Z
  let x13 := x12 * x6 + 1
  let x14 := Real.log x13
  let x19 := x11 * x14 * x2 * (1 / R) * x8
  let x20 := x10 * x11 * x14 * (1 / R) * T_inv
  let x21 := P * x12 * x2 * x8 * (dZ * x12 + T_inv) / (R ^ 2 * x13)
  let x50 := (-x11) * x14 * (1 / R) * T_inv
  let x51 := (-2) * x10
  let x52 := (dZ + x2 * x4) / (x6 - Z)
  fun i =>
    let x7 := rows i
    let x15 := x50 * (x51 * x7 * x9 + 2 * rowsT i) + x52
    let x16 := bs i * x11
    let x18 := (-x16) + 2 * x7 * x9
    dZ * x16 + x15 + x18 * (x19 - x20 + x21)

/-- `SRKMIX.dlnphis_dP` (8885-8939). -/
noncomputable def srkDP (R T P Z dZ b a : ℝ) (bs rows : Fin N → ℝ) : Fin N → ℝ :=
  let RT_inv := 1 / T * (1 / R)
  let x2 := 1 / b
  let x4 := b * RT_inv
  let x5 := P * x4
  let x6 := (dZ - x4) / (x5 - Z)
  let x9 := 1 / Z
  let x10 := a * x9 * (P * dZ * x9 - 1) * RT_inv * RT_inv / (x5 * x9 + 1)
  let x50 := 2 / a
  fun i =>
    let x8 := x50 * rows i
    let x3 := bs i * x2
    dZ * x3 + x10 * (x8 - x3) + x6

/-- `VDWMIX.dlnphis_dT` (10230-10289); `ais` are the attraction parameters of the components. -/
noncomputable def vdwDT (R T P Z dZ b a aT : ℝ) (bs ais : Fin N → ℝ) : Fin N → ℝ :=
  let T_inv := 1 / T
  let T_inv2 := T_inv * T_inv
  let R2_inv := 1 / R ^ 2
  let x0 := a
  let x4 := 1 / Z
  let x5 := 4 * P * R2_inv * x4 * T_inv2 * T_inv
  let x8 := 2 * P * R2_inv * T_inv2 * dZ / Z ^ 2
  let x9 := P * R2_inv * x4 * T_inv2 * aT / x0
  let x10 := 1 / P
  let x11 := R * x10 * (T * dZ + Z) / ((-R) * T * x10 * Z + b) ^ 2
  let x13 := b * T_inv * (1 / R)
  let x14 := P * x13 * x4 - 1
  let x15 := x4 * (P * x13 * (T_inv + x4 * dZ) - x14 * dZ) / x14
  fun i =>
    let x1 := √(ais i * x0)
    (-bs i) * x11 + x1 * x5 + x1 * x8 - x1 * x9 + x15

/-- `VDWMIX.dlnphis_dP` (10291-10345). -/
noncomputable def vdwDP (R T P Z dZ b a : ℝ) (bs ais : Fin N → ℝ) : Fin N → ℝ :=
  let T_inv := 1 / T
  let RT_inv := T_inv * (1 / R)
  let R2_inv := 1 / R ^ 2
  let x3 := T_inv * T_inv
  let x5 := 1 / Z
  let x6 := 2 * R2_inv * x3 * x5
  let x8 := 2 * P * R2_inv * x3 * dZ * x5 * x5
  let x9 := 1 / P
  let x10 := Z * x9
  let x11 := R * T * x9 * ((-x10) + dZ) / ((-R) * T * x10 + b) ^ 2
  let x12 := P * x5
  let x13 := b * RT_inv
  let x14 := x12 * x13 - 1
  let x15 := (-x5) * ((-x13) * (x12 * dZ - 1) + x14 * dZ) / x14
  fun i =>
    let x1 := √(ais i * a)
    (-bs i) * x11 - x1 * x6 + x1 * x8 + x15

/-- `GCEOSMIX.dlnphis_dzs` (5668-5694): `d2xs_to_dxdn_partials` of the second composition derivatives `d2` of the mixture
logarithmic fugacity coefficient. -/
noncomputable def generalDzs (d2 : Fin N → Fin N → ℝ) (zs : Fin N → ℝ) (i j : Fin N) : ℝ :=
  d2 i j - ∑ k, zs k * d2 j k

/-! ### Closed forms -/

/-- Contribution of a component with covolume `bi` and attraction row `S`, Peng-Robinson. -/
noncomputable def prL (R T Z b a bi S B : ℝ) : ℝ :=
  bi * (Z - 1) / b - Real.log (Z - B) - √2 / (4 * (R * T)) * (2 * S / b - a * bi / b ^ 2) *
    (Real.log (Z + (√2 + 1) * B) - Real.log (Z - (√2 - 1) * B))

theorem sqrt_two_gt : 1 < √2 := by
  rw [Real.lt_sqrt] <;> norm_num

theorem sqrt_two_lt : √2 < 2 := by
  rw [Real.sqrt_lt'] <;> norm_num

theorem sqrt_two_sq : √2 ^ 2 = 2 := Real.sq_sqrt (by norm_num)

theorem den_pos {Z B : ℝ} (hB : 0 < B) (h : B < Z) : 0 < Z - (√2 - 1) * B := by
  nlinarith [sqrt_two_lt]

theorem num_pos {Z B : ℝ} (hB : 0 < B) (h : B < Z) : 0 < Z + (√2 + 1) * B := by
  nlinarith [sqrt_two_gt]

theorem prLn_closed {R T P Z b a : ℝ} (hR : 0 < R) (hT : 0 < T) (hb : 0 < b) (hP : 0 < P) (ha : a ≠ 0)
    (hZ : P * b / (R * T) < Z) (bs rows buf : Fin N → ℝ) (i : Fin N) :
    prLnphis R T P Z b a bs rows buf i = prL R T Z b a (bs i) (rows i) (P * b / (R * T)) := by
  have hB : 0 < P * b / (R * T) := by positivity
  have e : b * (P * (1 / T)) * (1 / R) = P * b / (R * T) := by field_simp
  have eA : a * (P * (1 / T)) * (1 / R ^ 2) * (1 / T) = a / b * (P * b / (R * T)) / (R * T) := by field_simp
  simp only [prLnphis, e, eA]
  have hd := den_pos hB hZ
  have hn := num_pos hB hZ
  have s2 := sqrt_two_sq
  have hs : √2 ≠ 0 := by positivity
  generalize P * b / (R * T) = B at *
  have e1 : Z + B - B * √2 = Z - (√2 - 1) * B := by ring
  have e2 : Z + B + B * √2 = Z + (√2 + 1) * B := by ring
  have hl : ¬ (Z + B + B * √2) / (Z + B - B * √2) ≤ 0 := by
    rw [e1, e2]; exact not_le.mpr (div_pos hn hd)
  have hz : ¬ Z - B ≤ 0 := by linarith
  have h0 : a * (B * √2 + B * √2) ≠ 0 := by
    have : 0 < B * √2 := by positivity
    exact mul_ne_zero ha (by linarith)
  rw [if_neg hl, if_neg hz, if_pos h0, e1, e2, Real.log_div hn.ne' hd.ne']
  unfold prL
  generalize Real.log (Z + (√2 + 1) * B) - Real.log (Z - (√2 - 1) * B) = L
  generalize Real.log (Z - B) = l
  have hRT : R * T ≠ 0 := by positivity
  generalize R * T = K at *
  have hB' := hB.ne'
  have hb' := hb.ne'
  clear hl hz h0 e1 e2 hd hn e eA
  field_simp
  have s4 : √2 ^ 3 = 2 * √2 := by rw [pow_succ, s2]
  ring_nf
  simp only [s2, s4]
  ring

/-- The rule of differentiation for all paths. -/
theorem hd_prL {s : ℝ} {T Z b a S B : ℝ → ℝ} {T' Z' b' a' S' B' R bi : ℝ} (hT : HasDerivAt T T' s) (hZ : HasDerivAt Z Z' s)
    (hb : HasDerivAt b b' s) (ha : HasDerivAt a a' s) (hS : HasDerivAt S S' s) (hB : HasDerivAt B B' s) (R0 : 0 < R) (T0 : 0 < T s)
    (b0 : 0 < b s) (B0 : 0 < B s) (h : B s < Z s) :
    HasDerivAt (fun t => prL R (T t) (Z t) (b t) (a t) bi (S t) (B t))
      (bi * (Z' * b s - (Z s - 1) * b') / b s ^ 2 - (Z' - B') / (Z s - B s) -
        (√2 / (4 * (R * T s)) * (2 * S' / b s - 2 * S s * b' / b s ^ 2 - a' * bi / b s ^ 2 + 2 * a s * bi * b' / b s ^ 3) -
          √2 * T' / (4 * (R * T s ^ 2)) * (2 * S s / b s - a s * bi / b s ^ 2)) *
          (Real.log (Z s + (√2 + 1) * B s) - Real.log (Z s - (√2 - 1) * B s)) -
        √2 / (4 * (R * T s)) * (2 * S s / b s - a s * bi / b s ^ 2) *
          ((Z' + (√2 + 1) * B') / (Z s + (√2 + 1) * B s) - (Z' - (√2 - 1) * B') / (Z s - (√2 - 1) * B s))) s := by
  have hd := den_pos B0 h
  have hn := num_pos B0 h
  have hz : 0 < Z s - B s := by linarith
  have h1 : HasDerivAt (fun t => bi * (Z t - 1) / b t) (bi * (Z' * b s - (Z s - 1) * b') / b s ^ 2) s :=
    (((hZ.sub_const 1).const_mul bi).fun_div hb b0.ne').congr_deriv (by ring)
  have h2 := (hZ.fun_sub hB).log hz.ne'
  have h3 : HasDerivAt (fun t => √2 / (4 * (R * T t))) (-(√2 * T' / (4 * (R * T s ^ 2)))) s :=
    ((hasDerivAt_const s (√2)).fun_div ((hT.const_mul R).const_mul 4) (by positivity)).congr_deriv (by field_simp; ring)
  have h4 : HasDerivAt (fun t => 2 * S t / b t - a t * bi / b t ^ 2)
      (2 * S' / b s - 2 * S s * b' / b s ^ 2 - a' * bi / b s ^ 2 + 2 * a s * bi * b' / b s ^ 3) s :=
    (((hS.const_mul 2).fun_div hb b0.ne').fun_sub ((ha.mul_const bi).fun_div (hb.fun_pow 2) (by positivity))).congr_deriv (by
      have := b0.ne'
      field_simp; ring)
  have h5 := ((hZ.fun_add (hB.const_mul (√2 + 1))).log hn.ne').fun_sub ((hZ.fun_sub (hB.const_mul (√2 - 1))).log hd.ne')
  refine ((h1.fun_sub h2).fun_sub ((h3.fun_mul h4).fun_mul h5)).congr_deriv ?_
  ring

/-! ### Peng-Robinson -/

section
variable {R P b : ℝ} {bs : Fin N → ℝ} {i : Fin N}

/-- **C117.** `PRMIX.dlnphis_dT`: whenever it returns, entry `i` is the temperature derivative, at constant pressure and
composition, of the fugacity coefficient `fugacity_coefficients` returns, for any curves `Z(T)`, `a(T)` and rows. -/
theorem C117_PR_T {T dZ aT : ℝ} {Z a : ℝ → ℝ} {rows : ℝ → Fin N → ℝ} {rowsT d : Fin N → ℝ} (hR : 0 < R) (hT : 0 < T) (hP : 0 < P)
    (hb : 0 < b) (hZ : HasDerivAt Z dZ T) (ha : HasDerivAt a aT T) (hS : HasDerivAt (fun t => rows t i) (rowsT i) T)
    (h : P * b / (R * T) < Z T) (hd : prDT R T P (Z T) dZ b (a T) aT bs (rows T) rowsT = some d) (buf : Fin N → ℝ) :
    HasDerivAt (fun t => prLnphis R t P (Z t) b (a t) bs (rows t) buf i) (d i) T := by
  have B0 : 0 < P * b / (R * T) := by positivity
  have hB : HasDerivAt (fun t => P * b / (R * t)) (-(P * b / (R * T ^ 2))) T :=
    ((hasDerivAt_const T (P * b)).fun_div ((hasDerivAt_id' T).const_mul R) (by positivity)).congr_deriv (by
      field_simp; ring)
  simp only [prDT] at hd
  split_ifs at hd with hc
  push Not at hc
  obtain ⟨ha0, hx, -⟩ := hc
  simp only [Option.some.injEq] at hd
  have hg := hd_prL (R := R) (bi := bs i) (hasDerivAt_id' T) hZ (hasDerivAt_const T b) ha hS hB hR hT hb B0 h
  have hev : (fun t => prLnphis R t P (Z t) b (a t) bs (rows t) buf i) =ᶠ[𝓝 T]
      fun t => prL R t (Z t) b (a t) (bs i) (rows t i) (P * b / (R * t)) := by
    filter_upwards [hB.continuousAt.eventually_lt hZ.continuousAt h, lt_mem_nhds hT, ha.continuousAt.eventually_ne ha0] with t h1 h2 h3
    exact prLn_closed hR h2 hb hP h3 h1 bs (rows t) buf i
  refine (hg.congr_of_eventuallyEq hev).congr_deriv ?_
  rw [← hd]
  have e8 : P * b * (1 / R) * (1 / T) = P * b / (R * T) := by field_simp
  have e5 : 1 / T * (1 / T) * (P * b * (1 / R)) = P * b / (R * T) / T := by field_simp
  have e5' : P * b / (R * T ^ 2) = P * b / (R * T) / T := by field_simp
  simp only [e8, e5, e5'] at hx ⊢
  have hdp := den_pos B0 h
  have hnp := num_pos B0 h
  have s2 := sqrt_two_sq
  have hs : √2 ≠ 0 := by positivity
  generalize P * b / (R * T) = B at *
  generalize Z T = z at *
  generalize a T = a0 at *
  generalize rows T i = S at *
  have hzb : z - B ≠ 0 := by intro h'; linarith
  have hbz : B - z ≠ 0 := by intro h'; linarith
  obtain ⟨n, hn⟩ : ∃ n, n = z + (√2 + 1) * B := ⟨_, rfl⟩
  obtain ⟨q, hq⟩ : ∃ q, q = z - (√2 - 1) * B := ⟨_, rfl⟩
  have eq' : (√2 - 1) * B - z = -q := by rw [hq]; ring
  rw [← hn, eq'] at hx ⊢
  rw [← hq]
  rw [← hq] at hdp
  rw [← hn] at hnp
  have el : -(n / -q) = n / q := by rw [div_neg, neg_neg]
  rw [el, Real.log_div hnp.ne' hdp.ne'] at hx ⊢
  generalize Real.log n - Real.log q = L at *
  have hL : L ≠ 0 := by
    rintro rfl; exact hx (by ring)
  have e52 : (dZ + B / T) / (B - z) = -((dZ + B / T) / (z - B)) := by
    rw [← neg_sub z B, div_neg]
  rw [e52]
  generalize hw : (dZ + B / T) / (z - B) = w
  have ew : (dZ - -(B / T)) / (z - B) = w := by rw [← hw, sub_neg_eq_add]
  rw [ew]
  have hT' := hT.ne'
  have hR' := hR.ne'
  have hb' := hb.ne'
  have hn' := hnp.ne'
  have hq' := hdp.ne'
  clear hd hx hg hev hB hZ ha hS e8 e5 e5' eq' el e52 ew hw hn hq hzb hbz hdp hnp B0 h
  generalize √2 = r at *
  field_simp
  ring

/-- **C117.** `PRMIX.dlnphis_dP`. -/
theorem C117_PR_P {T P dZ a : ℝ} {Z : ℝ → ℝ} {rows : Fin N → ℝ} (hR : 0 < R) (hT : 0 < T) (hP : 0 < P)
    (hb : 0 < b) (ha : a ≠ 0) (hZ : HasDerivAt Z dZ P) (h : P * b / (R * T) < Z P) (buf : Fin N → ℝ) :
    HasDerivAt (fun p => prLnphis R T p (Z p) b a bs rows buf i) (prDP R T P (Z P) dZ b a bs rows i) P := by
  have B0 : 0 < P * b / (R * T) := by positivity
  have hB : HasDerivAt (fun p => p * b / (R * T)) (b / (R * T)) P :=
    (((hasDerivAt_id' P).mul_const b).div_const (R * T)).congr_deriv (by ring)
  have hg := hd_prL (R := R) (bi := bs i) (hasDerivAt_const P T) hZ (hasDerivAt_const P b) (hasDerivAt_const P a)
    (hasDerivAt_const P (rows i)) hB hR hT hb B0 h
  have hev : (fun p => prLnphis R T p (Z p) b a bs rows buf i) =ᶠ[𝓝 P]
      fun p => prL R T (Z p) b a (bs i) (rows i) (p * b / (R * T)) := by
    filter_upwards [hB.continuousAt.eventually_lt hZ.continuousAt h, lt_mem_nhds hP] with p h1 h2
    exact prLn_closed hR hT hb h2 ha h1 bs rows buf i
  refine (hg.congr_of_eventuallyEq hev).congr_deriv ?_
  have hK : R * T ≠ 0 := by positivity
  have e6 : b * (1 / R) * (1 / T) = b / (R * T) := by field_simp
  have e8 : P * (b / (R * T)) = P * b / (R * T) := by ring
  simp only [prDP, e6, e8]
  have hdp := den_pos B0 h
  have hnp := num_pos B0 h
  obtain ⟨w, hw⟩ : ∃ w, w = b / (R * T) := ⟨_, rfl⟩
  rw [← hw]
  generalize P * b / (R * T) = B at *
  generalize Z P = z at *
  obtain ⟨n, hn⟩ : ∃ n, n = z + (√2 + 1) * B := ⟨_, rfl⟩
  obtain ⟨q, hq⟩ : ∃ q, q = z - (√2 - 1) * B := ⟨_, rfl⟩
  have eq' : (√2 - 1) * B - z = -q := by rw [hq]; ring
  rw [← hn, ← hq, eq']
  rw [← hq] at hdp
  rw [← hn] at hnp
  have e9 : (dZ - w) / (B - z) = -((dZ - w) / (z - B)) := by rw [← neg_sub z B, div_neg]
  rw [e9]
  generalize (dZ - w) / (z - B) = u
  have hT' := hT.ne'
  have hR' := hR.ne'
  have hb' := hb.ne'
  have hn' := hnp.ne'
  have hq' := hdp.ne'
  clear hg hev hB hZ e6 e8 eq' e9 hn hq hdp hnp B0 h hw
  generalize √2 = r at *
  field_simp
  ring


theorem prDE_eq {T a : ℝ} (hR : 0 < R) (hT : 0 < T) (hP : 0 < P) (hb : 0 < b) (ha : a ≠ 0) (rows : Fin N → ℝ) (A : Fin N → Fin N → ℝ)
    (i k : Fin N) :
    prDE R T P b a bs rows A i k = -(√2 / (4 * (R * T)) *
      (2 * A i k / b - 2 * rows i * bs k / b ^ 2 - 2 * rows k * bs i / b ^ 2 + 2 * a * bs i * bs k / b ^ 3)) := by
  have s2 := sqrt_two_sq
  have hs : √2 ≠ 0 := by positivity
  have hT' := hT.ne'
  have hR' := hR.ne'
  have hb' := hb.ne'
  have hP' := hP.ne'
  simp only [prDE]
  generalize √2 = r at *
  field_simp
  rw [s2]
  ring

/-- The entry of the code matrix as a linear form. -/
theorem prDzs_eq {T Z a : ℝ} (hR : 0 < R) (hT : 0 < T) (hP : 0 < P) (hb : 0 < b) (ha : a ≠ 0) (h : P * b / (R * T) < Z)
    (rows : Fin N → ℝ) {A : Fin N → Fin N → ℝ} (hA : ∀ i j, A i j = A j i) (i k : Fin N) :
    prDzs R T P Z b a bs rows A i k =
      bs i * (prDZ R T P Z b a bs rows k * b - (Z - 1) * bs k) / b ^ 2 -
        (prDZ R T P Z b a bs rows k - P / (R * T) * bs k) / (Z - P * b / (R * T)) -
        √2 / (4 * (R * T)) * (2 * A i k / b - 2 * rows i * bs k / b ^ 2 - 2 * rows k * bs i / b ^ 2 + 2 * a * bs i * bs k / b ^ 3) *
          (Real.log (Z + (√2 + 1) * (P * b / (R * T))) - Real.log (Z - (√2 - 1) * (P * b / (R * T)))) -
        √2 / (4 * (R * T)) * (2 * rows i / b - a * bs i / b ^ 2) *
          ((prDZ R T P Z b a bs rows k + (√2 + 1) * (P / (R * T) * bs k)) / (Z + (√2 + 1) * (P * b / (R * T))) -
            (prDZ R T P Z b a bs rows k - (√2 - 1) * (P / (R * T) * bs k)) / (Z - (√2 - 1) * (P * b / (R * T)))) := by
  have B0 : 0 < P * b / (R * T) := by positivity
  have hE : (if k ≤ i then prDE R T P b a bs rows A i k else prDE R T P b a bs rows A k i) = -(√2 / (4 * (R * T)) *
      (2 * A i k / b - 2 * rows i * bs k / b ^ 2 - 2 * rows k * bs i / b ^ 2 + 2 * a * bs i * bs k / b ^ 3)) := by
    rw [prDE_eq hR hT hP hb ha, prDE_eq hR hT hP hb ha, hA k i]
    split_ifs
    · rfl
    · ring
  have hdp := den_pos B0 h
  have hnp := num_pos B0 h
  have s2 := sqrt_two_sq
  have hs : √2 ≠ 0 := by positivity
  have eK : 1 / R * (1 / T) = 1 / (R * T) := by field_simp
  have eB : b * P * (1 / (R * T)) = P * b / (R * T) := by ring
  simp only [prDzs, hE, eK, eB]
  have hb' := hb.ne'
  obtain ⟨w, hw⟩ : ∃ w, w = P / (R * T) := ⟨_, rfl⟩
  have w0 : 0 < w := by rw [hw]; positivity
  have eW : P * (1 / (R * T)) = w := by rw [hw]; ring
  have eA : a * P * (1 / (R * T)) * (1 / (R * T)) = a * w / (R * T) := by rw [hw]; ring
  have eB' : P * b / (R * T) = w * b := by rw [hw]; ring
  rw [← hw, eW, eA, eB']
  rw [eB'] at hdp hnp h B0
  generalize √2 / (4 * (R * T)) * (2 * A i k / b - 2 * rows i * bs k / b ^ 2 - 2 * rows k * bs i / b ^ 2 + 2 * a * bs i * bs k / b ^ 3) = E'
  generalize prDZ R T P Z b a bs rows k = dZ
  have e1 : Z + (1 - √2) * (w * b) = Z - (√2 - 1) * (w * b) := by ring
  have e2 : Z + (1 + √2) * (w * b) = Z + (√2 + 1) * (w * b) := by ring
  rw [e1, e2, Real.log_div hnp.ne' hdp.ne']
  generalize Real.log (Z + (√2 + 1) * (w * b)) - Real.log (Z - (√2 - 1) * (w * b)) = L
  have hK : R * T ≠ 0 := by positivity
  generalize R * T = K at *
  obtain ⟨n, hn⟩ : ∃ n, n = Z + (√2 + 1) * (w * b) := ⟨_, rfl⟩
  obtain ⟨q, hq⟩ : ∃ q, q = Z - (√2 - 1) * (w * b) := ⟨_, rfl⟩
  obtain ⟨u, hu⟩ : ∃ u, u = Z - w * b := ⟨_, rfl⟩
  have hu0 : u ≠ 0 := by rw [hu]; exact (sub_pos.mpr h).ne'
  rw [← hn, ← hq, ← hu]
  rw [← hq] at hdp
  rw [← hn] at hnp
  have hn' := hnp.ne'
  have hq' := hdp.ne'
  have w' := w0.ne'
  have e3 : 2 * √2 * (Z * (w * bs k) - w * b * dZ) = (dZ + (√2 + 1) * (w * bs k)) * q - (dZ - (√2 - 1) * (w * bs k)) * n := by
    rw [hq, hn]; ring
  have e4 : 2 * √2 / (q * q) * (Z * (w * bs k) - w * b * dZ) = ((dZ + (√2 + 1) * (w * bs k)) * q - (dZ - (√2 - 1) * (w * bs k)) * n) / (q * q) := by
    rw [← e3]; ring
  rw [e4]
  clear e3 e4 e1 e2 hE eK eB eW eA eB' hn hq hu hdp hnp
  generalize √2 = r at *
  have r4 : r ^ 3 = 2 * r := by rw [pow_succ, s2]
  field_simp
  ring_nf
  simp only [s2, r4]
  ring

/-- The cubic the compressibility factor satisfies. -/
theorem pr_cubic {T Z a : ℝ} (hR : 0 < R) (hT : 0 < T) (hP : 0 < P) (hb : 0 < b) (h : P * b / (R * T) < Z)
    (hp : pressure R T b (2 * b) (prEps b) a (Z * R * T / P) = P) :
    Z ^ 3 - (1 - P * b / (R * T)) * Z ^ 2 + (a * P / (R * T) ^ 2 - 3 * (P * b / (R * T)) ^ 2 - 2 * (P * b / (R * T))) * Z -
      (a * P / (R * T) ^ 2 * (P * b / (R * T)) - (P * b / (R * T)) ^ 2 - (P * b / (R * T)) ^ 3) = 0 := by
  have hK : R * T ≠ 0 := by positivity
  have K0 : 0 < R * T := by positivity
  unfold pressure prEps at hp
  have e : Z * R * T / P = Z * (R * T) / P := by ring
  rw [e] at hp
  generalize R * T = K at *
  have hb1 : b < Z * K / P := by
    rw [lt_div_iff₀ hP]; rw [div_lt_iff₀ K0] at h; linarith
  have h1 : Z * K / P - b ≠ 0 := (sub_pos.mpr hb1).ne'
  have h2 : (Z * K / P) ^ 2 + 2 * b * (Z * K / P) + -b ^ 2 ≠ 0 := by
    have : 0 < (Z * K / P) ^ 2 + 2 * b * (Z * K / P) + -b ^ 2 := by nlinarith
    exact this.ne'
  have hP' := hP.ne'
  generalize hV : Z * K / P = V at *
  have hZ : Z = V * P / K := by rw [← hV]; field_simp
  rw [hZ]
  obtain ⟨Q, hQ⟩ : ∃ Q, Q = V ^ 2 + 2 * b * V + -b ^ 2 := ⟨_, rfl⟩
  rw [← hQ] at hp h2
  have h3 : K * Q - a * (V - b) - P * ((V - b) * Q) = 0 := by
    rw [← hp]
    field_simp
    ring
  have h4 : (V * P / K) ^ 3 - (1 - P * b / K) * (V * P / K) ^ 2 + (a * P / K ^ 2 - 3 * (P * b / K) ^ 2 - 2 * (P * b / K)) * (V * P / K) -
      (a * P / K ^ 2 * (P * b / K) - (P * b / K) ^ 2 - (P * b / K) ^ 3) = -(P ^ 2 / K ^ 3) * (K * Q - a * (V - b) - P * ((V - b) * Q)) := by
    rw [hQ]; field_simp; ring
  rw [h4, h3, mul_zero]

theorem prZ_deriv {T s Z' b' a' : ℝ} {Z b a : ℝ → ℝ} (hR : 0 < R) (hT : 0 < T) (hP : 0 < P) (hb : 0 < b s)
    (hZ : HasDerivAt Z Z' s) (hb' : HasDerivAt b b' s) (ha' : HasDerivAt a a' s) (h : P * b s / (R * T) < Z s)
    (hp : ∀ᶠ t in 𝓝 s, pressure R T (b t) (2 * b t) (prEps (b t)) (a t) (Z t * R * T / P) = P)
    (hF : 3 * Z s ^ 2 - 2 * Z s * (1 - P * b s / (R * T)) + (a s * P / (R * T) ^ 2 - 3 * (P * b s / (R * T)) ^ 2 - 2 * (P * b s / (R * T))) ≠ 0) :
    Z' = ((P * b s / (R * T) - Z s) * (a' * P / (R * T) ^ 2) + (a s * P / (R * T) ^ 2 - 2 * (P * b s / (R * T)) - 3 * (P * b s / (R * T)) ^ 2 +
      2 * (3 * (P * b s / (R * T)) + 1) * Z s - Z s ^ 2) * (P * b' / (R * T))) /
      (3 * Z s ^ 2 - 2 * Z s * (1 - P * b s / (R * T)) + (a s * P / (R * T) ^ 2 - 3 * (P * b s / (R * T)) ^ 2 - 2 * (P * b s / (R * T)))) := by
  have hB : HasDerivAt (fun t => P * b t / (R * T)) (P * b' / (R * T)) s := (hb'.const_mul P).div_const _
  have hA : HasDerivAt (fun t => a t * P / (R * T) ^ 2) (a' * P / (R * T) ^ 2) s := (ha'.mul_const P).div_const _
  have hev : (fun t => Z t ^ 3 - (1 - P * b t / (R * T)) * Z t ^ 2 + (a t * P / (R * T) ^ 2 - 3 * (P * b t / (R * T)) ^ 2 - 2 * (P * b t / (R * T))) * Z t -
      (a t * P / (R * T) ^ 2 * (P * b t / (R * T)) - (P * b t / (R * T)) ^ 2 - (P * b t / (R * T)) ^ 3)) =ᶠ[𝓝 s] fun _ => 0 := by
    filter_upwards [hp, hB.continuousAt.eventually_lt hZ.continuousAt h, hb'.continuousAt.eventually_const_lt hb] with t h1 h2 h3
    exact pr_cubic hR hT hP h3 h2 h1
  generalize hBf : (fun t => P * b t / (R * T)) = B at *
  generalize hAf : (fun t => a t * P / (R * T) ^ 2) = A at *
  have eB : ∀ t, P * b t / (R * T) = B t := fun t => congrFun hBf t
  have eA : ∀ t, a t * P / (R * T) ^ 2 = A t := fun t => congrFun hAf t
  simp only [eB, eA] at hev hF ⊢
  generalize P * b' / (R * T) = B' at *
  generalize a' * P / (R * T) ^ 2 = A' at *
  have hd := ((((hZ.fun_pow 3).fun_sub ((hB.const_sub 1).fun_mul (hZ.fun_pow 2))).fun_add
    (((hA.fun_sub ((hB.fun_pow 2).const_mul 3)).fun_sub (hB.const_mul 2)).fun_mul hZ)).fun_sub
    (((hA.fun_mul hB).fun_sub (hB.fun_pow 2)).fun_sub (hB.fun_pow 3)))
  have h0 := hd.unique ((hasDerivAt_const s (0 : ℝ)).congr_of_eventuallyEq hev)
  rw [eq_div_iff hF]
  norm_num at h0
  linear_combination h0

/-- The linear form of `prDzs_eq`. -/
noncomputable def lf (bi Z b w u e S a L n q p m x1 x2 x3 x4 : ℝ) : ℝ :=
  bi * (x1 * b - (Z - 1) * x2) / b ^ 2 - (x1 - w * x2) / u - e * (2 * x4 / b - 2 * S * x2 / b ^ 2 - 2 * x3 * bi / b ^ 2 + 2 * a * bi * x2 / b ^ 3) * L -
    e * (2 * S / b - a * bi / b ^ 2) * ((x1 + p * (w * x2)) / n - (x1 - m * (w * x2)) / q)

theorem lf_sum (bi Z b w u e S a L n q p m : ℝ) (x1 x2 x3 x4 d : Fin N → ℝ) :
    ∑ k, lf bi Z b w u e S a L n q p m (x1 k) (x2 k) (x3 k) (x4 k) * d k =
      lf bi Z b w u e S a L n q p m (∑ k, x1 k * d k) (∑ k, x2 k * d k) (∑ k, x3 k * d k) (∑ k, x4 k * d k) := by
  have e0 : ∀ y1 y2 y3 y4, lf bi Z b w u e S a L n q p m y1 y2 y3 y4 = lf bi Z b w u e S a L n q p m 1 0 0 0 * y1 +
      lf bi Z b w u e S a L n q p m 0 1 0 0 * y2 + lf bi Z b w u e S a L n q p m 0 0 1 0 * y3 + lf bi Z b w u e S a L n q p m 0 0 0 1 * y4 := by
    intro y1 y2 y3 y4
    unfold lf
    ring
  rw [e0 (∑ k, x1 k * d k), Finset.mul_sum, Finset.mul_sum, Finset.mul_sum, Finset.mul_sum, ← Finset.sum_add_distrib,
    ← Finset.sum_add_distrib, ← Finset.sum_add_distrib]
  refine Finset.sum_congr rfl fun k _ => ?_
  rw [e0 (x1 k)]
  ring

/-- **C117.** `PRMIX.dlnphis_dzs`: along every path of compositions (mole fractions as independent variables, the covolume and
attraction being `Σ z b` and `ΣΣ z z a`) with the compressibility factor following the equation of state, the rate of change of
fugacity coefficient `i` is the code's row `i` times the rate of change of the composition. -/
theorem C117_PR_zs {T s Z' : ℝ} {Z : ℝ → ℝ} {z : ℝ → Fin N → ℝ} {dz : Fin N → ℝ} {A : Fin N → Fin N → ℝ} (hR : 0 < R) (hT : 0 < T)
    (hP : 0 < P) (hA : ∀ i j, A i j = A j i) (hz : ∀ k, HasDerivAt (fun t => z t k) (dz k) s) (hZ : HasDerivAt Z Z' s)
    (hb : 0 < linz bs (z s)) (ha : quadz A (z s) ≠ 0) (h : P * linz bs (z s) / (R * T) < Z s)
    (hp : ∀ᶠ t in 𝓝 s, pressure R T (linz bs (z t)) (2 * linz bs (z t)) (prEps (linz bs (z t))) (quadz A (z t)) (Z t * R * T / P) = P)
    (hF : 3 * Z s ^ 2 - 2 * Z s * (1 - P * linz bs (z s) / (R * T)) + (quadz A (z s) * P / (R * T) ^ 2 -
      3 * (P * linz bs (z s) / (R * T)) ^ 2 - 2 * (P * linz bs (z s) / (R * T))) ≠ 0) (buf : Fin N → ℝ) :
    HasDerivAt (fun t => prLnphis R T P (Z t) (linz bs (z t)) (quadz A (z t)) bs (rowsA A (z t)) buf i)
      (∑ k, prDzs R T P (Z s) (linz bs (z s)) (quadz A (z s)) bs (rowsA A (z s)) A i k * dz k) s := by
  have hb' : HasDerivAt (fun t => linz bs (z t)) (∑ k, bs k * dz k) s := by
    unfold linz
    exact (HasDerivAt.fun_sum fun k _ => (hz k).mul_const (bs k)).congr_deriv (Finset.sum_congr rfl fun k _ => mul_comm _ _)
  have hS : ∀ m, HasDerivAt (fun t => rowsA A (z t) m) (∑ k, A m k * dz k) s := fun m => by
    unfold rowsA
    exact (HasDerivAt.fun_sum fun k _ => (hz k).mul_const (A m k)).congr_deriv (Finset.sum_congr rfl fun k _ => mul_comm _ _)
  have eq1 : ∀ x, quadz A x = ∑ k, x k * rowsA A x k := fun x => by
    unfold quadz rowsA
    refine Finset.sum_congr rfl fun k _ => ?_
    rw [Finset.mul_sum]
    exact Finset.sum_congr rfl fun j _ => by ring
  have ha' : HasDerivAt (fun t => quadz A (z t)) (2 * ∑ k, rowsA A (z s) k * dz k) s := by
    simp only [eq1]
    refine (HasDerivAt.fun_sum fun k _ => (hz k).fun_mul (hS k)).congr_deriv ?_
    rw [Finset.sum_add_distrib, two_mul]
    congr 1
    · exact Finset.sum_congr rfl fun k _ => mul_comm _ _
    · simp only [Finset.mul_sum, rowsA, Finset.sum_mul]
      rw [Finset.sum_comm]
      refine Finset.sum_congr rfl fun j _ => Finset.sum_congr rfl fun k _ => ?_
      rw [hA k j]; ring
  have hB : HasDerivAt (fun t => P * linz bs (z t) / (R * T)) (P * (∑ k, bs k * dz k) / (R * T)) s := (hb'.const_mul P).div_const _
  have B0 : 0 < P * linz bs (z s) / (R * T) := by positivity
  have hZd := prZ_deriv hR hT hP hb hZ hb' ha' h hp hF
  have hZs : Z' = ∑ k, prDZ R T P (Z s) (linz bs (z s)) (quadz A (z s)) bs (rowsA A (z s)) k * dz k := by
    rw [hZd]
    have e : ∀ k, prDZ R T P (Z s) (linz bs (z s)) (quadz A (z s)) bs (rowsA A (z s)) k * dz k =
        (P * linz bs (z s) / (R * T) - Z s) * (2 * P / (R * T) ^ 2) / (3 * Z s ^ 2 - 2 * Z s * (1 - P * linz bs (z s) / (R * T)) + (quadz A (z s) * P / (R * T) ^ 2 -
          3 * (P * linz bs (z s) / (R * T)) ^ 2 - 2 * (P * linz bs (z s) / (R * T)))) * (rowsA A (z s) k * dz k) +
        (quadz A (z s) * P / (R * T) ^ 2 - 2 * (P * linz bs (z s) / (R * T)) - 3 * (P * linz bs (z s) / (R * T)) ^ 2 +
          2 * (3 * (P * linz bs (z s) / (R * T)) + 1) * Z s - Z s ^ 2) * (P / (R * T)) / (3 * Z s ^ 2 - 2 * Z s * (1 - P * linz bs (z s) / (R * T)) + (quadz A (z s) * P / (R * T) ^ 2 -
          3 * (P * linz bs (z s) / (R * T)) ^ 2 - 2 * (P * linz bs (z s) / (R * T)))) * (bs k * dz k) := fun k => by
      simp only [prDZ]
      have eK : 1 / R * (1 / T) = 1 / (R * T) := by field_simp
      have eF : 3 * Z s * Z s - 2 * Z s * (1 - linz bs (z s) * P * (1 / (R * T))) + (quadz A (z s) * P * (1 / (R * T)) * (1 / (R * T)) -
          3 * (linz bs (z s) * P * (1 / (R * T))) * (linz bs (z s) * P * (1 / (R * T))) - 2 * (linz bs (z s) * P * (1 / (R * T)))) =
          3 * Z s ^ 2 - 2 * Z s * (1 - P * linz bs (z s) / (R * T)) + (quadz A (z s) * P / (R * T) ^ 2 -
          3 * (P * linz bs (z s) / (R * T)) ^ 2 - 2 * (P * linz bs (z s) / (R * T))) := by ring
      rw [eK, eF]
      ring
    rw [Finset.sum_congr rfl fun k _ => e k, Finset.sum_add_distrib, ← Finset.mul_sum, ← Finset.mul_sum]
    ring
  have hg := hd_prL (R := R) (bi := bs i) (hasDerivAt_const s T) hZ hb' ha' (hS i) hB hR hT hb B0 h
  have hev : (fun t => prLnphis R T P (Z t) (linz bs (z t)) (quadz A (z t)) bs (rowsA A (z t)) buf i) =ᶠ[𝓝 s]
      fun t => prL R T (Z t) (linz bs (z t)) (quadz A (z t)) (bs i) (rowsA A (z t) i) (P * linz bs (z t) / (R * T)) := by
    filter_upwards [hB.continuousAt.eventually_lt hZ.continuousAt h, hb'.continuousAt.eventually_const_lt hb, ha'.continuousAt.eventually_ne ha] with t h1 h2 h3
    exact prLn_closed hR hT h2 hP h3 h1 bs _ buf i
  refine (hg.congr_of_eventuallyEq hev).congr_deriv ?_
  rw [hZs]
  have hsum := lf_sum (bs i) (Z s) (linz bs (z s)) (P / (R * T)) (Z s - P * linz bs (z s) / (R * T)) (√2 / (4 * (R * T))) (rowsA A (z s) i)
    (quadz A (z s)) (Real.log (Z s + (√2 + 1) * (P * linz bs (z s) / (R * T))) - Real.log (Z s - (√2 - 1) * (P * linz bs (z s) / (R * T))))
    (Z s + (√2 + 1) * (P * linz bs (z s) / (R * T))) (Z s - (√2 - 1) * (P * linz bs (z s) / (R * T))) (√2 + 1) (√2 - 1)
    (prDZ R T P (Z s) (linz bs (z s)) (quadz A (z s)) bs (rowsA A (z s))) bs (rowsA A (z s)) (A i) dz
  refine Eq.trans ?_ (hsum.symm.trans (Finset.sum_congr rfl fun k _ => ?_))
  · unfold lf
    ring
  · rw [prDzs_eq hR hT hP hb ha h (rowsA A (z s)) hA]
    rfl

/-- The average of the rows of the code matrix, for every compressibility factor. -/
theorem prDzs_sum {T Z : ℝ} {z : Fin N → ℝ} {A : Fin N → Fin N → ℝ} (hR : 0 < R) (hT : 0 < T) (hP : 0 < P) (hA : ∀ i j, A i j = A j i)
    (hz : ∑ k, z k = 1) (hb : 0 < linz bs z) (ha : quadz A z ≠ 0) (h : P * linz bs z / (R * T) < Z) (k : Fin N) :
    ∑ i, z i * prDzs R T P Z (linz bs z) (quadz A z) bs (rowsA A z) A i k =
      prDZ R T P Z (linz bs z) (quadz A z) bs (rowsA A z) k - (Z - 1) * bs k / linz bs z -
        (prDZ R T P Z (linz bs z) (quadz A z) bs (rowsA A z) k - P / (R * T) * bs k) / (Z - P * linz bs z / (R * T)) -
        quadz A z / (linz bs z * (R * T)) * (P / (R * T) * bs k * Z - P * linz bs z / (R * T) * prDZ R T P Z (linz bs z) (quadz A z) bs (rowsA A z) k) /
          (Z ^ 2 + 2 * (P * linz bs z / (R * T)) * Z - (P * linz bs z / (R * T)) ^ 2) := by
  have B0 : 0 < P * linz bs z / (R * T) := by positivity
  have hdp := den_pos B0 h
  have hnp := num_pos B0 h
  have s2 := sqrt_two_sq
  have ea : ∑ i, z i * rowsA A z i = quadz A z := by
    unfold quadz rowsA
    refine Finset.sum_congr rfl fun k _ => ?_
    rw [Finset.mul_sum]
    exact Finset.sum_congr rfl fun j _ => by ring
  have er : ∑ i, z i * A i k = rowsA A z k := Finset.sum_congr rfl fun i _ => by rw [hA i k]
  have ebs : ∑ i, z i * bs i = linz bs z := rfl
  simp only [prDzs_eq hR hT hP hb ha h (rowsA A z) hA]
  have hb' := hb.ne'
  generalize prDZ R T P Z (linz bs z) (quadz A z) bs (rowsA A z) k = dZ
  generalize linz bs z = b at *
  generalize quadz A z = a at *
  generalize rowsA A z = S at *
  have hu : Z - P * b / (R * T) ≠ 0 := (sub_pos.mpr h).ne'
  have hK : R * T ≠ 0 := by positivity
  have ew : P * b / (R * T) = P / (R * T) * b := by ring
  rw [ew] at hdp hnp hu
  rw [ew]
  generalize P / (R * T) = w at *
  generalize R * T = K at *
  generalize Real.log (Z + (√2 + 1) * (w * b)) - Real.log (Z - (√2 - 1) * (w * b)) = L
  have eQ : (Z + (√2 + 1) * (w * b)) * (Z - (√2 - 1) * (w * b)) = Z ^ 2 + 2 * (w * b) * Z - (w * b) ^ 2 := by
    linear_combination (-(w * b) ^ 2) * s2
  have eM : (dZ + (√2 + 1) * (w * bs k)) / (Z + (√2 + 1) * (w * b)) - (dZ - (√2 - 1) * (w * bs k)) / (Z - (√2 - 1) * (w * b)) =
      2 * √2 * (w * bs k * Z - w * b * dZ) / (Z ^ 2 + 2 * (w * b) * Z - (w * b) ^ 2) := by
    rw [← eQ, div_sub_div _ _ hnp.ne' hdp.ne']
    congr 1
    ring
  have hQ : Z ^ 2 + 2 * (w * b) * Z - (w * b) ^ 2 ≠ 0 := by rw [← eQ]; exact (mul_pos hnp hdp).ne'
  rw [eM]
  generalize Z ^ 2 + 2 * (w * b) * Z - (w * b) ^ 2 = Q at *
  generalize Z - w * b = u at *
  have el : ∀ i, z i * (bs i * (dZ * b - (Z - 1) * bs k) / b ^ 2 - (dZ - w * bs k) / u - √2 / (4 * K) *
        (2 * A i k / b - 2 * S i * bs k / b ^ 2 - 2 * S k * bs i / b ^ 2 + 2 * a * bs i * bs k / b ^ 3) * L -
        √2 / (4 * K) * (2 * S i / b - a * bs i / b ^ 2) * (2 * √2 * (w * bs k * Z - w * b * dZ) / Q)) =
      (-((dZ - w * bs k) / u)) * z i +
      ((dZ * b - (Z - 1) * bs k) / b ^ 2 + √2 / (4 * K) * (2 * S k / b ^ 2 - 2 * a * bs k / b ^ 3) * L +
        √2 / (4 * K) * (a / b ^ 2) * (2 * √2 * (w * bs k * Z - w * b * dZ) / Q)) * (z i * bs i) +
      (√2 / (4 * K) * (2 * bs k / b ^ 2) * L - √2 / (4 * K) * (2 / b) * (2 * √2 * (w * bs k * Z - w * b * dZ) / Q)) * (z i * S i) +
      (-(√2 / (4 * K) * (2 / b) * L)) * (z i * A i k) := fun i => by ring
  rw [Finset.sum_congr rfl fun i _ => el i, Finset.sum_add_distrib, Finset.sum_add_distrib, Finset.sum_add_distrib, ← Finset.mul_sum, ← Finset.mul_sum,
    ← Finset.mul_sum, ← Finset.mul_sum, hz, ebs, ea, er]
  clear el eM eQ hdp hnp ew ea er ebs B0 h ha hb
  generalize √2 = r at *
  field_simp
  ring_nf
  simp only [s2]
  ring

/-- **C117.** `PRMIX.dlnphis_dzs`: the Gibbs-Duhem relation, at every root of the equation of state. -/
theorem C117_gibbs_duhem {T Z : ℝ} {z : Fin N → ℝ} {A : Fin N → Fin N → ℝ} (hR : 0 < R) (hT : 0 < T) (hP : 0 < P) (hA : ∀ i j, A i j = A j i)
    (hz : ∑ k, z k = 1) (hb : 0 < linz bs z) (ha : quadz A z ≠ 0) (h : P * linz bs z / (R * T) < Z)
    (hp : pressure R T (linz bs z) (2 * linz bs z) (prEps (linz bs z)) (quadz A z) (Z * R * T / P) = P) (k : Fin N) :
    ∑ i, z i * prDzs R T P Z (linz bs z) (quadz A z) bs (rowsA A z) A i k = 0 := by
  have hc := pr_cubic hR hT hP hb h hp
  have B0 : 0 < P * linz bs z / (R * T) := by positivity
  rw [prDzs_sum hR hT hP hA hz hb ha h]
  generalize prDZ R T P Z (linz bs z) (quadz A z) bs (rowsA A z) k = dZ
  have hb' := hb.ne'
  generalize linz bs z = b at *
  generalize quadz A z = a at *
  have hK : R * T ≠ 0 := by positivity
  have ew : P * b / (R * T) = P / (R * T) * b := by ring
  have eA : a * P / (R * T) ^ 2 = a / (R * T) * (P / (R * T)) := by ring
  rw [ew] at hc h B0
  rw [eA] at hc
  rw [ew]
  have eb : a / (b * (R * T)) = a / (R * T) / b := by rw [div_div, mul_comm b]
  rw [eb]
  generalize P / (R * T) = w at *
  generalize a / (R * T) = α at *
  have hQ : Z ^ 2 + 2 * (w * b) * Z - (w * b) ^ 2 ≠ 0 := by
    have : 0 < Z ^ 2 + 2 * (w * b) * Z - (w * b) ^ 2 := by nlinarith
    exact this.ne'
  have hu : Z - w * b ≠ 0 := (sub_pos.mpr h).ne'
  have hk : 1 - 1 / (Z - w * b) + α * w / (Z ^ 2 + 2 * (w * b) * Z - (w * b) ^ 2) = 0 := by
    generalize hQe : Z ^ 2 + 2 * (w * b) * Z - (w * b) ^ 2 = Q at *
    generalize hue : Z - w * b = u at *
    field_simp
    rw [← hQe, ← hue]
    linear_combination hc
  have : dZ - (Z - 1) * bs k / b - (dZ - w * bs k) / (Z - w * b) - α / b * (w * bs k * Z - w * b * dZ) / (Z ^ 2 + 2 * (w * b) * Z - (w * b) ^ 2) =
      (1 - 1 / (Z - w * b) + α * w / (Z ^ 2 + 2 * (w * b) * Z - (w * b) ^ 2)) * (dZ - Z * bs k / b) := by
    generalize Z ^ 2 + 2 * (w * b) * Z - (w * b) ^ 2 = Q at *
    obtain ⟨u, hue⟩ : ∃ u, u = Z - w * b := ⟨_, rfl⟩
    have hZ : Z = u + w * b := by rw [hue]; ring
    rw [← hue] at hu ⊢
    rw [hZ]
    field_simp
    ring
  rw [this, hk, zero_mul]

end

/-! ### Soave-Redlich-Kwong -/

/-- Contribution of a component, Soave-Redlich-Kwong. -/
noncomputable def srkL (R T Z b a bi S B : ℝ) : ℝ :=
  bi * (Z - 1) / b - Real.log (Z - B) - 1 / (R * T) * (2 * S / b - a * bi / b ^ 2) * Real.log (1 + B / Z)

theorem srkLn_closed {R T P Z b a : ℝ} (hR : 0 < R) (hT : 0 < T) (hb : 0 < b) (hP : 0 < P) (ha : a ≠ 0) (bs rows : Fin N → ℝ) (i : Fin N) :
    srkLnphis R T P Z b a bs rows i = srkL R T Z b a (bs i) (rows i) (P * b / (R * T)) := by
  have e : b * P / (T * R) = P * b / (R * T) := by rw [mul_comm b, mul_comm T]
  simp only [srkLnphis, srkL, e]
  generalize Real.log (1 + P * b / (R * T) / Z) = L
  generalize Real.log (Z - P * b / (R * T)) = l
  field_simp
  ring

theorem hd_srkL {s : ℝ} {T Z a S B : ℝ → ℝ} {T' Z' a' S' B' R b bi : ℝ} (hT : HasDerivAt T T' s) (hZ : HasDerivAt Z Z' s)
    (ha : HasDerivAt a a' s) (hS : HasDerivAt S S' s) (hB : HasDerivAt B B' s) (R0 : 0 < R) (T0 : 0 < T s) (b0 : 0 < b) (B0 : 0 < B s) (h : B s < Z s) :
    HasDerivAt (fun t => srkL R (T t) (Z t) b (a t) bi (S t) (B t))
      (bi * Z' / b - (Z' - B') / (Z s - B s) -
        (1 / (R * T s) * (2 * S' / b - a' * bi / b ^ 2) - T' / (R * T s ^ 2) * (2 * S s / b - a s * bi / b ^ 2)) * Real.log (1 + B s / Z s) -
        1 / (R * T s) * (2 * S s / b - a s * bi / b ^ 2) * ((B' * Z s - B s * Z') / (Z s * (Z s + B s)))) s := by
  have hz : 0 < Z s - B s := by linarith
  have z0 : 0 < Z s := by linarith
  have hl : 0 < 1 + B s / Z s := by positivity
  have hzb : Z s + B s ≠ 0 := by linarith
  have h1 : HasDerivAt (fun t => bi * (Z t - 1) / b) (bi * Z' / b) s := ((hZ.sub_const 1).const_mul bi).div_const b
  have h2 := (hZ.fun_sub hB).log hz.ne'
  have h3 : HasDerivAt (fun t => 1 / (R * T t)) (-(T' / (R * T s ^ 2))) s :=
    ((hasDerivAt_const s (1 : ℝ)).fun_div (hT.const_mul R) (by positivity)).congr_deriv (by field_simp; ring)
  have h4 : HasDerivAt (fun t => 2 * S t / b - a t * bi / b ^ 2) (2 * S' / b - a' * bi / b ^ 2) s :=
    ((hS.const_mul 2).div_const b).fun_sub ((ha.mul_const bi).div_const (b ^ 2))
  have h5 : HasDerivAt (fun t => Real.log (1 + B t / Z t)) ((B' * Z s - B s * Z') / (Z s * (Z s + B s))) s := by
    refine (((hB.fun_div hZ z0.ne').const_add 1).log hl.ne').congr_deriv ?_
    have e : 1 + B s / Z s = (Z s + B s) / Z s := by field_simp
    rw [e]
    have := z0.ne'
    field_simp
  refine ((h1.fun_sub h2).fun_sub ((h3.fun_mul h4).fun_mul h5)).congr_deriv ?_
  ring

section
variable {R b : ℝ} {bs : Fin N → ℝ} {i : Fin N}

/-- **C117.** `SRKMIX.dlnphis_dT`. -/
theorem C117_SRK_T {T P dZ aT : ℝ} {Z a : ℝ → ℝ} {rows : ℝ → Fin N → ℝ} {rowsT : Fin N → ℝ} (hR : 0 < R) (hT : 0 < T) (hP : 0 < P) (hb : 0 < b)
    (hZ : HasDerivAt Z dZ T) (ha : HasDerivAt a aT T) (ha0 : a T ≠ 0) (hS : HasDerivAt (fun t => rows t i) (rowsT i) T) (h : P * b / (R * T) < Z T) :
    HasDerivAt (fun t => srkLnphis R t P (Z t) b (a t) bs (rows t) i) (srkDT R T P (Z T) dZ b (a T) aT bs (rows T) rowsT i) T := by
  have B0 : 0 < P * b / (R * T) := by positivity
  have hB : HasDerivAt (fun t => P * b / (R * t)) (-(P * b / (R * T ^ 2))) T :=
    ((hasDerivAt_const T (P * b)).fun_div ((hasDerivAt_id' T).const_mul R) (by positivity)).congr_deriv (by field_simp; ring)
  have hg := hd_srkL (R := R) (bi := bs i) (hasDerivAt_id' T) hZ ha hS hB hR hT hb B0 h
  have hev : (fun t => srkLnphis R t P (Z t) b (a t) bs (rows t) i) =ᶠ[𝓝 T] fun t => srkL R t (Z t) b (a t) (bs i) (rows t i) (P * b / (R * t)) := by
    filter_upwards [lt_mem_nhds hT, ha.continuousAt.eventually_ne ha0] with t h2 h3
    exact srkLn_closed hR h2 hb hP h3 bs (rows t) i
  refine (hg.congr_of_eventuallyEq hev).congr_deriv ?_
  have z0 : 0 < Z T := by linarith
  have e8 : P * b * (1 / R) * (1 / T) = P * b / (R * T) := by field_simp
  have e5 : 1 / T * (1 / T) * (P * b * (1 / R)) = P * b / (R * T) / T := by field_simp
  have e5' : P * b / (R * T ^ 2) = P * b / (R * T) / T := by field_simp
  simp only [srkDT, e8, e5, e5']
  obtain ⟨B, hBe⟩ : ∃ B, B = P * b / (R * T) := ⟨_, rfl⟩
  have eP : P = B * (R * T) / b := by rw [hBe]; field_simp
  rw [← hBe] at B0 h ⊢
  rw [eP]
  generalize Z T = z at *
  generalize a T = a0 at *
  generalize rows T i = S at *
  have el : 1 / z * B + 1 = 1 + B / z := by ring
  have e52 : (dZ + B / T) / (B - z) = -((dZ + B / T) / (z - B)) := by rw [← neg_sub z B, div_neg]
  have ew : (dZ - -(B / T)) / (z - B) = (dZ + B / T) / (z - B) := by rw [sub_neg_eq_add]
  rw [el, e52, ew]
  generalize (dZ + B / T) / (z - B) = w
  generalize Real.log (1 + B / z) = L
  have e1 : 1 + B / z = (z + B) / z := by field_simp
  have hzb : z + B ≠ 0 := by linarith
  rw [e1]
  clear hg hev hB hZ ha hS e8 e5 e5' el e52 ew e1 eP hBe
  have hb' := hb.ne'
  have hz' := z0.ne'
  field_simp
  ring

/-- **C117.** `SRKMIX.dlnphis_dP`. -/
theorem C117_SRK_P {T P dZ a : ℝ} {Z : ℝ → ℝ} {rows : Fin N → ℝ} (hR : 0 < R) (hT : 0 < T) (hP : 0 < P) (hb : 0 < b) (ha : a ≠ 0)
    (hZ : HasDerivAt Z dZ P) (h : P * b / (R * T) < Z P) :
    HasDerivAt (fun p => srkLnphis R T p (Z p) b a bs rows i) (srkDP R T P (Z P) dZ b a bs rows i) P := by
  have B0 : 0 < P * b / (R * T) := by positivity
  have hB : HasDerivAt (fun p => p * b / (R * T)) (b / (R * T)) P := (((hasDerivAt_id' P).mul_const b).div_const (R * T)).congr_deriv (by ring)
  have hg := hd_srkL (R := R) (bi := bs i) (hasDerivAt_const P T) hZ (hasDerivAt_const P a) (hasDerivAt_const P (rows i)) hB hR hT hb B0 h
  have hev : (fun p => srkLnphis R T p (Z p) b a bs rows i) =ᶠ[𝓝 P] fun p => srkL R T (Z p) b a (bs i) (rows i) (p * b / (R * T)) := by
    filter_upwards [lt_mem_nhds hP] with p h2
    exact srkLn_closed hR hT hb h2 ha bs rows i
  refine (hg.congr_of_eventuallyEq hev).congr_deriv ?_
  have z0 : 0 < Z P := by linarith
  have hK : R * T ≠ 0 := by positivity
  have eK : 1 / T * (1 / R) = 1 / (R * T) := by field_simp
  simp only [srkDP, eK]
  have e4 : b * (1 / (R * T)) = b / (R * T) := by ring
  have e5 : P * (b / (R * T)) = P * b / (R * T) := by ring
  rw [e4, e5]
  obtain ⟨B, hBe⟩ : ∃ B, B = P * b / (R * T) := ⟨_, rfl⟩
  have eP : P = B * (R * T) / b := by rw [hBe]; field_simp
  rw [← hBe] at B0 h ⊢
  generalize Z P = z at *
  have e9 : (dZ - b / (R * T)) / (B - z) = -((dZ - b / (R * T)) / (z - B)) := by rw [← neg_sub z B, div_neg]
  rw [e9, eP]
  generalize (dZ - b / (R * T)) / (z - B) = u
  have e1 : B * (1 / z) + 1 = (z + B) / z := by field_simp; ring
  have hzb : z + B ≠ 0 := by linarith
  rw [e1]
  clear hg hev hB hZ e4 e5 e9 eK eP hBe e1
  have hb' := hb.ne'
  have hz' := z0.ne'
  generalize R * T = K at *
  field_simp
  ring

/-! ### Van der Waals -/

/-- **C117.** `VDWMIX.dlnphis_dT`: the roots of the component attraction parameters do not depend on temperature. -/
theorem C117_VDW_T {T P dZ aT : ℝ} {Z a : ℝ → ℝ} {ais : Fin N → ℝ} (hR : 0 < R) (hT : 0 < T) (hP : 0 < P) (hZ : HasDerivAt Z dZ T)
    (ha : HasDerivAt a aT T) (ha0 : 0 < a T) (hai : ∀ i, 0 ≤ ais i) (z0 : 0 < Z T) (h : P * b / (R * T) < Z T) :
    HasDerivAt (fun t => vdwLnphis R t P (Z t) b (a t) bs (fun i => √(ais i)) i) (vdwDT R T P (Z T) dZ b (a T) aT bs ais i) T := by
  have hR' := hR.ne'
  have hT' := hT.ne'
  have hP' := hP.ne'
  have hz' := z0.ne'
  have hV : HasDerivAt (fun t => Z t * R * t / P) (R / P * (T * dZ + Z T)) T :=
    (((hZ.mul_const R).fun_mul (hasDerivAt_id' T)).div_const P).congr_deriv (by ring)
  have hVb : 0 < Z T * R * T / P - b := by
    rw [sub_pos, lt_div_iff₀ hP]
    rw [div_lt_iff₀ (by positivity)] at h
    linarith
  have hV0 : 0 < Z T * R * T / P := by positivity
  have hu : 0 < Z T - P * b / (R * T) := sub_pos.mpr h
  have hB : HasDerivAt (fun t => P * b / (R * t)) (-(P * b / (R * T ^ 2))) T :=
    ((hasDerivAt_const T (P * b)).fun_div ((hasDerivAt_id' T).const_mul R) (by positivity)).congr_deriv (by field_simp; ring)
  have hl := (hZ.fun_sub hB).log hu.ne'
  have hsq := ha.sqrt ha0.ne'
  have h1 := ((hasDerivAt_const T (1 : ℝ)).fun_div (hV.sub_const b) hVb.ne').const_mul (bs i)
  have h2 := ((hsq.const_mul 2).fun_div (((hasDerivAt_id' T).const_mul R).fun_mul hV) (by positivity)).mul_const (√(ais i))
  have hg := (h1.fun_sub hl).fun_sub h2
  have hev : (fun t => vdwLnphis R t P (Z t) b (a t) bs (fun i => √(ais i)) i) =ᶠ[𝓝 T]
      fun t => bs i * (1 / (Z t * R * t / P - b)) - Real.log (Z t - P * b / (R * t)) - 2 * √(a t) / (R * t * (Z t * R * t / P)) * √(ais i) := by
    filter_upwards [lt_mem_nhds hT, hZ.continuousAt.eventually_ne hz'] with t h2 h3
    have e : Z t * (1 - b / (Z t * R * t / P)) = Z t - P * b / (R * t) := by
      have := h2.ne'
      field_simp
    simp only [vdwLnphis, e]
  refine (hg.congr_of_eventuallyEq hev).congr_deriv ?_
  have hx : √(ais i * a T) = √(ais i) * √(a T) := Real.sqrt_mul (hai i) _
  have hr : √(a T) ≠ 0 := (Real.sqrt_pos.mpr ha0).ne'
  have hrr : a T = √(a T) ^ 2 := (Real.sq_sqrt ha0.le).symm
  simp only [vdwDT, hx]
  have ed : (-R) * T * (1 / P) * Z T + b = -(Z T * R * T / P - b) := by ring
  have e14 : P * (b * (1 / T) * (1 / R)) * (1 / Z T) - 1 = -((Z T - P * b / (R * T)) / Z T) := by field_simp; ring
  have e13 : P * (b * (1 / T) * (1 / R)) = P * b / (R * T) := by field_simp
  have e5' : P * b / (R * T ^ 2) = P * b / (R * T) / T := by field_simp
  rw [ed, e14, e13, e5']
  obtain ⟨W, hW⟩ : ∃ W, W = Z T * R * T / P - b := ⟨_, rfl⟩
  obtain ⟨u, hue⟩ : ∃ u, u = Z T - P * b / (R * T) := ⟨_, rfl⟩
  rw [← hW] at hVb
  rw [← hue] at hu
  rw [← hW, ← hue]
  have hBu : P * b / (R * T) = Z T - u := by rw [hue]; ring
  rw [hBu]
  generalize hra : √(a T) = r at *
  rw [hrr]
  generalize √(ais i) = q
  generalize Z T = z at *
  have hW' := hVb.ne'
  have hu' := hu.ne'
  clear hg hev h1 h2 hsq hl hB hV hZ ha hW hue hBu hx ed e14 e13 e5' hVb hu
  field_simp
  ring

/-- **C117.** `VDWMIX.dlnphis_dP`. -/
theorem C117_VDW_P {T P dZ a : ℝ} {Z : ℝ → ℝ} {ais : Fin N → ℝ} (hR : 0 < R) (hT : 0 < T) (hP : 0 < P) (hZ : HasDerivAt Z dZ P)
    (hai : ∀ i, 0 ≤ ais i) (z0 : 0 < Z P) (h : P * b / (R * T) < Z P) :
    HasDerivAt (fun p => vdwLnphis R T p (Z p) b a bs (fun i => √(ais i)) i) (vdwDP R T P (Z P) dZ b a bs ais i) P := by
  have hR' := hR.ne'
  have hT' := hT.ne'
  have hP' := hP.ne'
  have hz' := z0.ne'
  have hV : HasDerivAt (fun p => Z p * R * T / p) (R * T / P * (dZ - Z P / P)) P :=
    (((hZ.mul_const R).mul_const T).fun_div (hasDerivAt_id' P) hP').congr_deriv (by field_simp)
  have hVb : 0 < Z P * R * T / P - b := by
    rw [sub_pos, lt_div_iff₀ hP]
    rw [div_lt_iff₀ (by positivity)] at h
    linarith
  have hV0 : 0 < Z P * R * T / P := by positivity
  have hu : 0 < Z P - P * b / (R * T) := sub_pos.mpr h
  have hB : HasDerivAt (fun p => p * b / (R * T)) (b / (R * T)) P := (((hasDerivAt_id' P).mul_const b).div_const (R * T)).congr_deriv (by ring)
  have hl := (hZ.fun_sub hB).log hu.ne'
  have h1 := ((hasDerivAt_const P (1 : ℝ)).fun_div (hV.sub_const b) hVb.ne').const_mul (bs i)
  have h2 := ((hasDerivAt_const P (2 * √a)).fun_div (hV.const_mul (R * T)) (by positivity)).mul_const (√(ais i))
  have hg := (h1.fun_sub hl).fun_sub h2
  have hev : (fun p => vdwLnphis R T p (Z p) b a bs (fun i => √(ais i)) i) =ᶠ[𝓝 P]
      fun p => bs i * (1 / (Z p * R * T / p - b)) - Real.log (Z p - p * b / (R * T)) - 2 * √a / (R * T * (Z p * R * T / p)) * √(ais i) := by
    filter_upwards [lt_mem_nhds hP, hZ.continuousAt.eventually_ne hz'] with p h2 h3
    have e : Z p * (1 - b / (Z p * R * T / p)) = Z p - p * b / (R * T) := by
      have := h2.ne'
      field_simp
    simp only [vdwLnphis, e]
  refine (hg.congr_of_eventuallyEq hev).congr_deriv ?_
  have hx : √(ais i * a) = √(ais i) * √a := Real.sqrt_mul (hai i) _
  simp only [vdwDP, hx]
  have ed : (-R) * T * (Z P * (1 / P)) + b = -(Z P * R * T / P - b) := by ring
  have eK : 1 / T * (1 / R) = 1 / (R * T) := by field_simp
  have e14 : P * (1 / Z P) * (b * (1 / (R * T))) - 1 = -((Z P - P * b / (R * T)) / Z P) := by field_simp; ring
  have eb : b = (P * b / (R * T)) * (R * T) / P := by field_simp
  rw [eK, ed, e14]
  obtain ⟨W, hW⟩ : ∃ W, W = Z P * R * T / P - b := ⟨_, rfl⟩
  obtain ⟨u, hue⟩ : ∃ u, u = Z P - P * b / (R * T) := ⟨_, rfl⟩
  rw [← hW] at hVb
  rw [← hue] at hu
  rw [← hW, ← hue]
  have hBu : P * b / (R * T) = Z P - u := by rw [hue]; ring
  rw [hBu] at eb
  rw [eb]
  generalize √a = r at *
  generalize √(ais i) = q
  generalize Z P = z at *
  have hW' := hVb.ne'
  have hu' := hu.ne'
  clear hg hev h1 h2 hl hB hV hZ hW hue hBu hx ed e14 eK eb hVb hu
  field_simp
  ring

end

/-! ### The general composition derivative and the translated classes -/

/-- **C117.** `GCEOSMIX.dlnphis_dzs`: with `F` the logarithmic fugacity coefficient of the mixture as a function of mole fractions, `F1` its first and `d2` its
(symmetric) second derivatives, the derivative by mole fraction `j` of `F + F1_i - Σ z F1`, which is the fugacity coefficient of component `i`. -/
theorem C117_general_zs {F : (Fin N → ℝ) → ℝ} {F1 : Fin N → (Fin N → ℝ) → ℝ} {d2 : Fin N → Fin N → ℝ} {z : Fin N → ℝ} {i j : Fin N}
    (h1 : PD F j z (F1 j z)) (h2 : ∀ k, PD (F1 k) j z (d2 k j)) (hs : ∀ i j, d2 i j = d2 j i) :
    PD (fun x => F x + F1 i x - ∑ k, x k * F1 k x) j z (generalDzs d2 z i j) := by
  have h3 : PD (fun x => ∑ k, x k * F1 k x) j z (∑ k, ((if k = j then 1 else 0) * F1 k z + z k * d2 k j)) :=
    PD.sum fun k _ => (PD.coord k _ _).mul (h2 k)
  refine ((h1.add (h2 i)).sub h3).congr_d ?_
  rw [Finset.sum_add_distrib]
  simp only [ite_mul, one_mul, zero_mul, Finset.sum_ite_eq', Finset.mem_univ, if_true, generalDzs]
  rw [Finset.sum_congr rfl fun k _ => by rw [hs k j]]
  ring

/-- Two components which differ only in their volume translation. -/
noncomputable def twinB0 : Fin 2 → ℝ := fun _ => 1

/-- Their translations. -/
noncomputable def twinC : Fin 2 → ℝ := ![1 / 2, 0]

/-- Their attraction. -/
noncomputable def twinA : Fin 2 → Fin 2 → ℝ := fun _ _ => 1

theorem twin_lin {n : Fin 2 → ℝ} (hn : n 0 + n 1 ≠ 0) : lin twinB0 n = 1 ∧ lin twinC n = n 0 / 2 / (n 0 + n 1) ∧ quad twinA n = 1 := by
  refine ⟨?_, ?_, ?_⟩
  · simp [lin, twinB0, Fin.sum_univ_two, hn]
  · simp [lin, twinC, Fin.sum_univ_two]; ring
  · simp only [quad, twinA, Fin.sum_univ_two]
    field_simp

theorem twin_near : ∀ᶠ n in 𝓝 half, n 0 + n 1 ≠ 0 := by
  have hc : ContinuousAt (fun n : Fin 2 → ℝ => n 0 + n 1) half := by fun_prop
  exact hc.eventually_ne (by norm_num [half])

/-- **C117, negated for the translated classes.** `PRMIXTranslated` and its subclasses override the name `d_lnphi_dzs` instead of `dlnphis_dzs` (7895), so their
`dlnphis_dzs` is the untranslated formula. Two components which differ only in their translation: the fugacity coefficients are the same at every composition, and
the method reports that exchanging one component for the other changes them. -/
theorem C117_translated_fails : ∃ (b0s cs z : Fin 2 → ℝ) (A : Fin 2 → Fin 2 → ℝ) (P : ℝ) (v : (Fin 2 → ℝ) → ℝ),
    Branch (prtParams b0s cs A) 1 1 P z v ∧
    Regular 1 1 P (v z) (lin b0s z - lin cs z) (2 * (lin cs z + lin b0s z)) (prtEps (lin b0s z) (lin cs z)) (quad A z) ∧
    (∃ L : Fin 2 → ℝ, ∀ᶠ n in 𝓝 z, ∀ i, PD (fun n => (∑ k, n k) * lnPhi 1 1 P (v n) (lin b0s n - lin cs n) (2 * (lin cs n + lin b0s n))
        (prtEps (lin b0s n) (lin cs n)) (quad A n)) i n (L i)) ∧
    ∃ i, prDzs 1 1 P (P * v z / (1 * 1)) (lin b0s z - lin cs z) (quad A z) (fun k => b0s k - cs k) (rowsA A z) A i 0 ≠
      prDzs 1 1 P (P * v z / (1 * 1)) (lin b0s z - lin cs z) (quad A z) (fun k => b0s k - cs k) (rowsA A z) A i 1 := by
  have hh : half 0 + half 1 ≠ 0 := by norm_num [half]
  obtain ⟨l1, l2, l3⟩ := twin_lin hh
  have l2' : lin twinC half = 1 / 4 := by rw [l2]; norm_num [half]
  have hdisc : (2 * (1 / 4 + 1) : ℝ) ^ 2 - 4 * prtEps 1 (1 / 4) = 8 := by norm_num [prtEps]
  have h8 : √8 < 8 := by rw [Real.sqrt_lt'] <;> norm_num
  refine ⟨twinB0, twinC, half, twinA, 3 / 7, fun n => 3 - lin twinC n, ⟨?_, ?_⟩, ?_, ?_, ?_⟩
  · exact continuousAt_const.sub (lin_cont _ half_sum)
  · filter_upwards [twin_near] with n hn
    obtain ⟨m1, m2, m3⟩ := twin_lin hn
    simp only [Params.p, prtParams, m1, m3, pressure, prtEps]
    generalize lin twinC n = c
    have e : (3 - c) ^ 2 + 2 * (c + 1) * (3 - c) + (c ^ 2 + 2 * 1 * c - 1 ^ 2) = 14 := by ring
    have e2 : 3 - c - (1 - c) = 2 := by ring
    rw [e, e2]; norm_num
  · simp only [l1, l2', l3]
    refine ⟨one_pos, one_pos, by norm_num, by norm_num, ?_, ?_, ?_, ?_⟩
    · rw [hdisc]; norm_num
    · rw [hdisc]; linarith
    · norm_num [pressure, prtEps]
    · norm_num [prtEps]
  · obtain ⟨K, hK⟩ : ∃ K : ℝ, K = 3 / 7 * 3 - 1 - Real.log (3 / 7 * 2) - 1 / √8 * Real.log ((8 + √8) / (8 - √8)) := ⟨_, rfl⟩
    have hev : ∀ n : Fin 2 → ℝ, n 0 + n 1 ≠ 0 → (∑ k, n k) * lnPhi 1 1 (3 / 7) (3 - lin twinC n) (lin twinB0 n - lin twinC n) (2 * (lin twinC n + lin twinB0 n))
        (prtEps (lin twinB0 n) (lin twinC n)) (quad twinA n) = (K - 3 / 14) * n 0 + K * n 1 := fun n hn => by
      obtain ⟨m1, m2, m3⟩ := twin_lin hn
      rw [m1, m3]
      have ed : (2 * (lin twinC n + 1)) ^ 2 - 4 * prtEps 1 (lin twinC n) = 8 := by unfold prtEps; ring
      have e1 : 2 * (3 - lin twinC n) + 2 * (lin twinC n + 1) = 8 := by ring
      have e2 : 3 - lin twinC n - (1 - lin twinC n) = 2 := by ring
      simp only [lnPhi, ed, e1, e2, one_mul, div_one, mul_one]
      have e3 : 3 / 7 * (3 - lin twinC n) - 1 - Real.log (3 / 7 * 2) - 1 / √8 * Real.log ((8 + √8) / (8 - √8)) = K - 3 / 7 * lin twinC n := by
        rw [hK]; ring
      rw [e3, m2, Fin.sum_univ_two]
      field_simp
      ring
    refine ⟨![K - 3 / 14, K], twin_near.mono fun n hn i => ?_⟩
    have hp : PD (fun n : Fin 2 → ℝ => (K - 3 / 14) * n 0 + K * n 1) i n (![K - 3 / 14, K] i) := by
      refine (((PD.coord 0 _ _).const_mul _).add ((PD.coord 1 _ _).const_mul _)).congr_d ?_
      fin_cases i <;> simp
    refine hp.congr_of_eventuallyEq ?_
    have hc : ContinuousAt (fun n : Fin 2 → ℝ => n 0 + n 1) n := by fun_prop
    have ht := update_tendsto n i
    exact (ht.eventually (hc.eventually_ne hn)).mono fun y hy => hev _ hy
  · have hlz : linz (fun k => twinB0 k - twinC k) half = 3 / 4 := by
      norm_num [linz, twinB0, twinC, half, Fin.sum_univ_two]
    have hqz : quadz twinA half = 1 := by norm_num [quadz, twinA, half, Fin.sum_univ_two]
    have hS := fun k => prDzs_sum (R := 1) (T := 1) (P := 3 / 7) (Z := 33 / 28) (bs := fun k => twinB0 k - twinC k) (z := half) (A := twinA) one_pos one_pos
      (by norm_num) (fun _ _ => rfl) half_sum (by rw [hlz]; norm_num) (by rw [hqz]; norm_num) (by rw [hlz]; norm_num) k
    simp only [hlz, hqz] at hS
    simp only [l1, l2', l3]
    have eZ : (3 / 7 * (3 - 1 / 4) / (1 * 1) : ℝ) = 33 / 28 := by norm_num
    have eb : (1 - 1 / 4 : ℝ) = 3 / 4 := by norm_num
    rw [eZ, eb]
    by_contra hcon
    push Not at hcon
    have h0 := hS 0
    have h1 := hS 1
    rw [Finset.sum_congr rfl fun i _ => by rw [hcon i]] at h0
    rw [h1] at h0
    norm_num [prDZ, twinB0, twinC, rowsA, twinA, half, Fin.sum_univ_two] at h0

/-! ### The hypotheses are met -/

theorem sqrt_curve : DifferentiableAt ℝ (fun t : ℝ => √((1 / (3 - t) - 3 / 7) * (9 + 6 * t - t ^ 2))) 1 := by
  have h0 : (1 / (3 - (1 : ℝ)) - 3 / 7) * (9 + 6 * 1 - 1 ^ 2) ≠ 0 := by norm_num
  have h1 : (3 - (1 : ℝ)) ≠ 0 := by norm_num
  exact DifferentiableAt.sqrt (by fun_prop (disch := assumption)) h0

/-- A path of compositions along which the molar volume stays at `3`. -/
noncomputable def demoPath (t : ℝ) : Fin 2 → ℝ :=
  ![√((1 / (3 - t) - 3 / 7) * (9 + 6 * t - t ^ 2)), t - √((1 / (3 - t) - 3 / 7) * (9 + 6 * t - t ^ 2)) / 2]

theorem demoPath_one : demoPath 1 = ![1, 1 / 2] := by
  have : √((1 / (3 - (1 : ℝ)) - 3 / 7) * (9 + 6 * 1 - 1 ^ 2)) = 1 := by
    rw [Real.sqrt_eq_one]; norm_num
  simp only [demoPath, this]; norm_num

/-- The hypotheses of `C117_PR_zs` hold along it. -/
example : ∃ d, HasDerivAt (fun t => prLnphis 1 1 (3 / 7) (9 / 7) (linz ![1 / 2, 1] (demoPath t)) (quadz ![![1, 0], ![0, 0]] (demoPath t)) ![1 / 2, 1]
    (rowsA ![![1, 0], ![0, 0]] (demoPath t)) 0 0) d 1 := by
  have hd := sqrt_curve.hasDerivAt
  have hz : ∀ k, HasDerivAt (fun t => demoPath t k) (![deriv (fun t : ℝ => √((1 / (3 - t) - 3 / 7) * (9 + 6 * t - t ^ 2))) 1,
      1 - deriv (fun t : ℝ => √((1 / (3 - t) - 3 / 7) * (9 + 6 * t - t ^ 2))) 1 / 2] k) 1 := by
    intro k
    fin_cases k
    · exact hd
    · exact (hasDerivAt_id' 1).fun_sub (hd.div_const 2)
  refine ⟨_, C117_PR_zs (R := 1) (P := 3 / 7) (T := 1) (s := 1) (Z := fun _ => 9 / 7) (z := demoPath) (bs := ![1 / 2, 1]) (A := ![![1, 0], ![0, 0]]) (i := 0)
    one_pos one_pos (by norm_num) ?_ hz (hasDerivAt_const _ _) ?_ ?_ ?_ ?_ ?_ 0⟩
  · intro i j; fin_cases i <;> fin_cases j <;> rfl
  · rw [demoPath_one]; norm_num [linz, Fin.sum_univ_two]
  · rw [demoPath_one]; norm_num [quadz, Fin.sum_univ_two]
  · rw [demoPath_one]; norm_num [linz, Fin.sum_univ_two]
  · have h3 : ContinuousAt (fun t : ℝ => (1 / (3 - t) - 3 / 7) * (9 + 6 * t - t ^ 2)) 1 := by
      have h1 : (3 - (1 : ℝ)) ≠ 0 := by norm_num
      fun_prop (disch := assumption)
    have h4 : ∀ᶠ t : ℝ in 𝓝 1, 0 < (1 / (3 - t) - 3 / 7) * (9 + 6 * t - t ^ 2) := h3.eventually_const_lt (by norm_num)
    filter_upwards [h4, lt_mem_nhds (show (0 : ℝ) < 1 by norm_num), gt_mem_nhds (show (1 : ℝ) < 3 by norm_num)] with t ht t0 t3
    have eb : linz ![1 / 2, 1] (demoPath t) = t := by
      simp [linz, demoPath, Fin.sum_univ_two]; ring
    have ea : quadz ![![1, 0], ![0, 0]] (demoPath t) = (1 / (3 - t) - 3 / 7) * (9 + 6 * t - t ^ 2) := by
      simp only [quadz, demoPath, Fin.sum_univ_two]
      simp
      rw [Real.mul_self_sqrt]
      simpa using ht.le
    rw [eb, ea]
    have e : (9 / 7 * 1 * 1 / (3 / 7) : ℝ) = 3 := by norm_num
    rw [e]
    have h9 : (3 : ℝ) ^ 2 + 2 * t * 3 + -t ^ 2 = 9 + 6 * t - t ^ 2 := by ring
    have h0 : 9 + 6 * t - t ^ 2 ≠ 0 := by nlinarith
    simp only [pressure, prEps, h9]
    rw [mul_div_cancel_right₀ _ h0]
    ring
  · rw [demoPath_one]; norm_num [linz, quadz, Fin.sum_univ_two]

/-- The Gibbs-Duhem relation at a root. -/
example (k : Fin 2) : ∑ i, half i * prDzs 1 1 (3 / 7) (9 / 7) (linz ![1 / 2, 3 / 2] half) (quadz twinA half) ![1 / 2, 3 / 2] (rowsA twinA half) twinA i k = 0 := by
  have hl : linz ![1 / 2, 3 / 2] half = 1 := by norm_num [linz, half, Fin.sum_univ_two]
  have hq : quadz twinA half = 1 := by norm_num [quadz, twinA, half, Fin.sum_univ_two]
  exact C117_gibbs_duhem one_pos one_pos (by norm_num) (fun _ _ => rfl) half_sum (by rw [hl]; norm_num) (by rw [hq]; norm_num) (by rw [hl]; norm_num)
    (by rw [hl, hq]; norm_num [pressure, prEps]) k

theorem line (c : ℝ) (s : ℝ) : HasDerivAt (fun t => c + t) 1 s := (hasDerivAt_id' s).const_add c

/-- `PRMIX.dlnphis_dT` returns and `C117_PR_T` applies, with a falling attraction. -/
example : ∃ d, prDT 1 1 (3 / 7) (9 / 7) 0 1 1 (-1) (fun _ : Fin 2 => 1) (fun _ => 1) (fun _ => -1) = some d ∧
    HasDerivAt (fun t => prLnphis 1 t (3 / 7) (9 / 7) 1 (2 - t) (fun _ : Fin 2 => 1) (fun _ => 2 - t) 0 0) (d 0) 1 := by
  have r1 := sqrt_two_gt
  have r2 := sqrt_two_lt
  have ha : HasDerivAt (fun t : ℝ => 2 - t) (-1) 1 := (hasDerivAt_id' (1 : ℝ)).const_sub 2
  have key : ∃ d, prDT 1 1 (3 / 7) (9 / 7) 0 1 (2 - 1) (-1) (fun _ : Fin 2 => 1) (fun _ => 2 - 1) (fun _ => -1) = some d := by
    simp only [prDT]
    have hq : 0 < 9 / 7 - (√2 - 1) * (3 / 7) := by linarith
    have hn : 0 < 9 / 7 + (√2 + 1) * (3 / 7) := by linarith
    have e8 : (3 / 7 * 1 * (1 / 1) * (1 / 1) : ℝ) = 3 / 7 := by norm_num
    have e5 : (1 / 1 * (1 / 1) * (3 / 7 * 1 * (1 / 1)) : ℝ) = 3 / 7 := by norm_num
    have e9 : (√2 - 1) * (3 / 7) - 9 / 7 = -(9 / 7 - (√2 - 1) * (3 / 7)) := by ring
    simp only [e8, e5, e9, div_neg, neg_neg]
    have hx : 1 < (9 / 7 + (√2 + 1) * (3 / 7)) / (9 / 7 - (√2 - 1) * (3 / 7)) := by
      rw [one_lt_div hq]; linarith
    have hL := Real.log_pos hx
    generalize Real.log ((9 / 7 + (√2 + 1) * (3 / 7)) / (9 / 7 - (√2 - 1) * (3 / 7))) = L at *
    generalize (9 / 7 + (√2 + 1) * (3 / 7)) / (9 / 7 - (√2 - 1) * (3 / 7)) = x at *
    generalize hnn : 9 / 7 + (√2 + 1) * (3 / 7) = n at *
    have h55 : 0 < 1 / 4 * (2 - 1) * (√2 * (1 / 1)) * (L * (1 / 1)) * (1 / 1 * (1 / 1)) - 1 / 4 * -1 * (√2 * (1 / 1)) * (L * (1 / 1)) * (1 / 1) +
        1 / 4 * (2 - 1) * (√2 * (1 / 1)) * (1 / 1) * (1 / 1) * (-0 + (√2 + 1) * (3 / 7) - -x * (0 + (√2 - 1) * (3 / 7))) / n := by
      have s0 : 0 < √2 - 1 := by linarith
      have x0 : 0 < x := by linarith
      have : 0 < √2 * L := by positivity
      have h2 : 0 < 1 / 4 * (2 - 1) * (√2 * (1 / 1)) * (1 / 1) * (1 / 1) * (-0 + (√2 + 1) * (3 / 7) - -x * (0 + (√2 - 1) * (3 / 7))) / n := by
        have : 0 < x * (√2 - 1) := by positivity
        refine div_pos ?_ hn
        have : 0 < √2 * ((√2 + 1) * (3 / 7) + x * (√2 - 1) * (3 / 7)) := by positivity
        nlinarith
      nlinarith
    have h50 : -(1 / 2) * (√2 * (1 / 1)) * (L * (1 / 1)) * (1 / 1) ≠ 0 := by
      have : 0 < √2 * L := by positivity
      have : -(1 / 2) * (√2 * (1 / 1)) * (L * (1 / 1)) * (1 / 1) < 0 := by linarith
      exact this.ne
    rw [if_neg]
    · exact ⟨_, rfl⟩
    · rintro (h | h | h)
      · norm_num at h
      · exact h50 h
      · exact h55.ne' h
  obtain ⟨d, hd⟩ := key
  refine ⟨d, ?_, ?_⟩
  · rw [← hd]; norm_num
  · exact C117_PR_T (Z := fun _ => 9 / 7) (a := fun t => 2 - t) (rows := fun t _ => 2 - t) (rowsT := fun _ => -1) one_pos one_pos (by norm_num) one_pos
      (hasDerivAt_const _ _) ha ha (by norm_num) hd 0

/-- The other methods, with moving compressibility factors. -/
example : HasDerivAt (fun p => prLnphis 1 1 p (1 + p) 1 1 (fun _ : Fin 2 => 1) (fun _ => 1) 0 0) (prDP 1 1 1 (1 + 1) 1 1 1 (fun _ : Fin 2 => 1) (fun _ => 1) 0) 1 :=
  C117_PR_P one_pos one_pos one_pos one_pos one_ne_zero (line 1 1) (by norm_num) 0

example : HasDerivAt (fun t => srkLnphis 1 t 1 (1 + t) 1 (3 + t) (fun _ : Fin 2 => 1) (fun _ => 3 + t) 0)
    (srkDT 1 1 1 (1 + 1) 1 1 (3 + 1) 1 (fun _ : Fin 2 => 1) (fun _ => 3 + 1) (fun _ => 1) 0) 1 :=
  C117_SRK_T (Z := fun t => 1 + t) (a := fun t => 3 + t) (rows := fun t _ => 3 + t) (rowsT := fun _ => 1) one_pos one_pos one_pos one_pos (line 1 1) (line 3 1) (by norm_num)
    (line 3 1) (by norm_num)

example : HasDerivAt (fun p => srkLnphis 1 1 p (1 + p) 1 1 (fun _ : Fin 2 => 1) (fun _ => 1) 0) (srkDP 1 1 1 (1 + 1) 1 1 1 (fun _ : Fin 2 => 1) (fun _ => 1) 0) 1 :=
  C117_SRK_P one_pos one_pos one_pos one_pos one_ne_zero (line 1 1) (by norm_num)

example : HasDerivAt (fun t => vdwLnphis 1 t 1 (1 + t) 1 (3 + t) (fun _ : Fin 2 => 1) (fun _ => √4) 0) (vdwDT 1 1 1 (1 + 1) 1 1 (3 + 1) 1 (fun _ : Fin 2 => 1) (fun _ => 4) 0) 1 :=
  C117_VDW_T (Z := fun t => 1 + t) (a := fun t => 3 + t) (ais := fun _ => 4) one_pos one_pos one_pos (line 1 1) (line 3 1) (by norm_num) (fun _ => by norm_num) (by norm_num) (by norm_num)

example : HasDerivAt (fun p => vdwLnphis 1 1 p (1 + p) 1 4 (fun _ : Fin 2 => 1) (fun _ => √4) 0) (vdwDP 1 1 1 (1 + 1) 1 1 4 (fun _ : Fin 2 => 1) (fun _ => 4) 0) 1 :=
  C117_VDW_P (ais := fun _ => 4) one_pos one_pos one_pos (line 1 1) (fun _ => by norm_num) (by norm_num) (by norm_num)

/-- `C117_general_zs` for a quadratic `F`. -/
example (z : Fin 2 → ℝ) (i j : Fin 2) : PD (fun x : Fin 2 → ℝ => x 0 * x 1 + ![x 1, x 0] i - ∑ k, x k * ![x 1, x 0] k) j z
    (generalDzs (fun i j => if i = j then 0 else 1) z i j) := by
  refine C117_general_zs (F := fun x => x 0 * x 1) (F1 := fun k x => ![x 1, x 0] k) ?_ ?_ ?_
  · refine ((PD.coord 0 _ _).mul (PD.coord 1 _ _)).congr_d ?_
    fin_cases j <;> simp
  · intro k
    fin_cases k
    · exact (PD.coord 1 _ _).congr_d (by fin_cases j <;> simp)
    · exact (PD.coord 0 _ _).congr_d (by fin_cases j <;> simp)
  · intro i j
    simp only [eq_comm]

end Verif.MixClosed
