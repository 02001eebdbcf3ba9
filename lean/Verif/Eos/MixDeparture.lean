import Verif.Eos.MixSecond
import Mathlib.Tactic.LinearCombination

/-!
# Second derivatives of departure functions and fugacities of mixtures (`thermo/eos_mix.py`)

* C116: `dH_dep_dzs` (3607-3703), `dS_dep_dzs` (3705-3739), `dS_dep_dns` (3741-3763), `dH_dep_dns`, `dnH_dep_dns` (3977-4030), `dnG_dep_dns` (4197-4227), `fugacity_coefficients` (4229-4274),
  `_d2_G_dep_lnphi_d2_helper` (4277-4343) and its callers (4347-4488, 4633-4672), `dlnphis_dns` (4489-4517), `dlnfugacities_dns` (4519-4564), `dfugacities_dns` (4566-4629),
  `_d2_A_dep_d2_helper` (4676-4773), `dA_dep_dns_Vt` (4775-4845), `d2A_dep_dninjs_Vt` (4849-4931), the departures of `set_dnzs_derivatives_and_departures` (5383-5393), `dlnphis_dP` (5432-5541),
  `dlnphis_dT` (5544-5666).

Specification: partial derivatives of the departure functions of C32 and C55, the volume following the equation of state at constant temperature and pressure, or at constant total volume the
pressure following the composition. Real numbers; lists are functions on `Fin N`, entries of which are computed independently; half-integer powers are powers of the square root; numpy variants are
not modelled. A negative `δ² - 4ε`, for which `sqrt` raises, is left out except in the functions that also fail at zero.
-/

namespace Verif.MixDeparture

open Verif.Cubic Verif.LnPhi Verif.MixDerivs Verif.MixSecond Filter Topology
open Verif.Departure (reAtanh)

variable {N : ℕ}

/-! ## The code -/

/-- `dH_dep_dzs` (3607-3703). `x5**-0.5` raises at zero, then `x6 = 1e50`. -/
noncomputable def dH (R T P Z delta epsilon a aT : ℝ) (dV ddelta deps da daT : Fin N → ℝ) (i : Fin N) : ℝ :=
  let x0 := Z * R * T / P
  let x2 := delta
  let x3 := x0 + x0 + x2
  let x5 := x2 * x2 - 4 * epsilon
  let x6 := open Classical in if x5 = 0 then 1e50 else 1 / √x5
  let x7 := 2 * reAtanh (x3 * x6)
  let x10 := T * aT - a
  let x13 := x6 * x6
  let t0 := x6 * x7
  let t1 := x10 * t0 * x13
  let t2 := 2 * x10 * x13 / (x13 * x3 * x3 - 1)
  let x3x13 := x3 * x13
  let x1 := dV i
  let x11 := ddelta i
  let x12 := x11 * x2 - 2 * deps i
  P * x1 - x12 * t1 + t2 * (x12 * x3x13 - x1 - x1 - x11) + t0 * (T * daT i - da i)

/-- `dS_dep_dzs` (3705-3739). -/
noncomputable def dS (T : ℝ) (dHs dGs : Fin N → ℝ) (i : Fin N) : ℝ := 1 / T * (dHs i - dGs i)

/-- `_d2_G_dep_lnphi_d2_helper` (4277-4343), entry `i`, `j`. -/
noncomputable def d2G (R T P V b delta epsilon a : ℝ) (dV : Fin N → ℝ) (d2Vs : Fin N → Fin N → ℝ) (db : Fin N → ℝ) (d2b : Fin N → Fin N → ℝ) (deps : Fin N → ℝ) (d2eps : Fin N → Fin N → ℝ)
    (ddelta : Fin N → ℝ) (d2delta : Fin N → Fin N → ℝ) (da : Fin N → ℝ) (d2a : Fin N → Fin N → ℝ) (G : Bool) (i j : Fin N) : ℝ :=
  let RT := T * R
  let RT_inv := 1 / RT
  let x0 := V
  let x3 := d2Vs i j
  let x4 := b
  let x5 := x0 - x4
  let x6 := R * T
  let x7 := dV i
  let x8 := dV j
  let x9 := delta
  let x10 := epsilon
  let x11 := open Classical in if -4 * x10 + x9 ^ 2 = 0 then 1e-100 else -4 * x10 + x9 ^ 2
  let x12 := 1 / √x11
  let x13 := a
  let x14 := 2 * x0
  let x15 := x14 + x9
  let x16 := reAtanh (x12 * x15)
  let x17 := 2 * x16
  let x18 := ddelta i
  let x19 := x18 * x9 - 2 * deps i
  let x20 := da j
  let x21 := x17 / √x11 ^ 3
  let x22 := ddelta j
  let x23 := x22 * x9 - 2 * deps j
  let x24 := da i
  let x25 := d2delta i j
  let x26 := x18 * x22 + x25 * x9 - 2 * d2eps i j
  let x27 := x13 * x23
  let x28 := 2 * x7
  let x29 := 1 / x11
  let x30 := x29 * x9
  let x31 := x19 * x29
  let x32 := x14 * x31 - x18 + x19 * x30 - x28
  let x33 := x15 ^ 2 * x29 - 1
  let x34 := 2 / x33
  let x35 := x29 * x34
  let x36 := 2 * x8
  let x37 := x23 * x29
  let x38 := x14 * x37 - x22 + x23 * x30 - x36
  let x39 := 1 / x11 ^ 2
  let x40 := x19 * x39
  let x41 := x13 * x38
  let x42 := x32 * x39
  let x43 := x23 * x40
  let v := P * x3 - x12 * x17 * d2a i j + x13 * x21 * x26
    - x13 * x35 * (-6 * x0 * x43 + x14 * x26 * x29 + x18 * x37 + x22 * x31 - x25 + x26 * x30 + x28 * x37 - 2 * x3 + x31 * x36 - 3 * x43 * x9)
    - 4 * x15 * x41 * x42 / x33 ^ 2 + x19 * x20 * x21 - x20 * x32 * x35 + x21 * x23 * x24 - x24 * x35 * x38 + x27 * x34 * x42 + x34 * x40 * x41
    - x6 * (x3 - d2b i j) / x5 + x6 * (x7 - db i) * (x8 - db j) / x5 ^ 2 - 6 * x16 * x19 * x27 / √x11 ^ 5
  if G then v else v * RT_inv

/-- `_d2_A_dep_d2_helper` (4676-4751), entry `i`, `j`; `none`: `sqrt` or the division raises. -/
noncomputable def d2A (R T V b delta epsilon a : ℝ) (dV : Fin N → ℝ) (d2Vs : Fin N → Fin N → ℝ) (db : Fin N → ℝ) (d2b : Fin N → Fin N → ℝ) (deps : Fin N → ℝ) (d2eps : Fin N → Fin N → ℝ)
    (ddelta : Fin N → ℝ) (d2delta : Fin N → Fin N → ℝ) (da : Fin N → ℝ) (d2a : Fin N → Fin N → ℝ) (i j : Fin N) : Option ℝ :=
  let x0 := V
  let x3 := b
  let x4 := x0 - x3
  let x5 := d2Vs i j
  let x6 := R * T
  let x7 := dV i
  let x8 := dV j
  let x9 := delta
  let x10 := epsilon
  let x11 := -4 * x10 + x9 ^ 2
  let x12 := 1 / √x11
  let x13 := a
  let x14 := 2 * x0
  let x15 := x14 + x9
  let x16 := reAtanh (x12 * x15)
  let x17 := 2 * x16
  let x18 := ddelta i
  let x19 := x18 * x9 - 2 * deps i
  let x20 := da j
  let x21 := x17 / √x11 ^ 3
  let x22 := ddelta j
  let x23 := x22 * x9 - 2 * deps j
  let x24 := da i
  let x25 := d2delta i j
  let x26 := x18 * x22 + x25 * x9 - 2 * d2eps i j
  let x27 := x13 * x23
  let x28 := 2 * x7
  let x29 := 1 / x11
  let x30 := x29 * x9
  let x31 := x19 * x29
  let x32 := x14 * x31 - x18 + x19 * x30 - x28
  let x33 := x15 ^ 2 * x29 - 1
  let x34 := 2 / x33
  let x35 := x29 * x34
  let x36 := 2 * x8
  let x37 := x23 * x29
  let x38 := x14 * x37 - x22 + x23 * x30 - x36
  let x39 := 1 / x11 ^ 2
  let x40 := x19 * x39
  let x41 := x13 * x38
  let x42 := x32 * x39
  let x43 := x23 * x40
  let v := (-x12) * x17 * d2a i j + x13 * x21 * x26
    - x13 * x35 * (-6 * x0 * x43 + x14 * x26 * x29 + x18 * x37 + x22 * x31 - x25 + x26 * x30 + x28 * x37 + x31 * x36 - 3 * x43 * x9 - 2 * x5)
    - 4 * x15 * x41 * x42 / x33 ^ 2 + x19 * x20 * x21 - x20 * x32 * x35 + x21 * x23 * x24 - x24 * x35 * x38 + x27 * x34 * x42 + x34 * x40 * x41
    - x6 * (x5 - d2b i j) / x4 + x6 * (x7 - db i) * (x8 - db j) / x4 ^ 2 - 6 * x16 * x19 * x27 / √x11 ^ 5
  open Classical in if x11 ≤ 0 then none else some v

/-- `dA_dep_dns_Vt` (4775-4845); `none`: `x8**-0.5` raises at zero (a negative number gives a complex one, left out). -/
noncomputable def dAVt (R T P Vt b delta epsilon a : ℝ) (db ddelta deps da dPn : Fin N → ℝ) (i : Fin N) : Option ℝ :=
  let x0 := P
  let x1 := Vt
  let x2 := b
  let x3 := x1 - x2
  let x4 := delta
  let x5 := x4 ^ 2
  let x6 := epsilon
  let x7 := 4 * x6
  let x8 := x5 - x7
  let x9 := √x8 ^ 7
  let x10 := 2 * x1
  let x11 := x10 + x4
  let x12 := x11 ^ 2 - x5 + x7
  let x13 := Vt * x0
  let x14 := x12 * x3
  let x15 := R * T * x9
  let x16 := x14 * x15
  let x17 := a
  let x18 := x0 * x10
  let x19 := x14 * reAtanh (x11 * (1 / √x8))
  let x20 := ddelta i
  let x21 := x20 * x4 - 2 * deps i
  let x22 := x17 * x18
  let v := (-(-x0 * x1 * x12 * x15 * (Vt + db i) + x13 * x16 - x16 * (-x1 * dPn i + x13) + x18 * x19 * x8 ^ 3 * da i - x19 * x21 * x22 * x8 ^ 2
    + x22 * x3 * √x8 ^ 5 * (x11 * x21 + x8 * (2 * Vt - x20))) / (x0 * x1 * x12 * x3 * x9))
  open Classical in if x8 ≤ 0 then none else some v

/-- `d2A_dep_dninjs_Vt` (4849-4931): the entry computed for `j ≤ i`. -/
noncomputable def d2AVtEntry (R T P Vt b delta epsilon a : ℝ) (db ddelta deps da dPn : Fin N → ℝ) (d2b d2delta d2eps d2a d2Pn : Fin N → Fin N → ℝ) (i j : Fin N) : ℝ :=
  let x0 := P
  let x1 := x0 ^ 2
  let x2 := Vt
  let x3 := x2 ^ 2
  let x4 := b
  let x5 := x2 - x4
  let x6 := x5 ^ 2
  let x7 := delta
  let x8 := x7 ^ 2
  let x9 := epsilon
  let x10 := 4 * x9
  let x11 := -x10 + x8
  let x12 := √x11 ^ 25
  let x13 := 2 * x2
  let x14 := x13 + x7
  let x15 := x10 + x14 ^ 2 - x8
  let x16 := x15 ^ 2
  let x17 := x1 * x6
  let x18 := R * T * x12 * x16
  let x19 := x17 * x18
  let x20 := x1 * x18 * x3
  let x21 := Vt * x0
  let x22 := dPn i
  let x23 := (-x2) * x22 + x21
  let x24 := 2 * Vt
  let x25 := dPn j
  let x26 := x18 * x2 * x6
  let x27 := a
  let x28 := x17 * x3
  let x29 := 2 * x28
  let x30 := x16 * reAtanh (x14 / √x11)
  let x31 := x29 * x30
  let x32 := ddelta i
  let x33 := x32 * x7 - 2 * deps i
  let x34 := ddelta j
  let x35 := x34 * x7 - 2 * deps j
  let x36 := x33 * x35
  let x37 := da j
  let x38 := da i
  let x39 := d2delta i j
  let x40 := x32 * x34 + x39 * x7 - 2 * d2eps i j
  let x41 := x11 * (x24 - x32) + x13 * x33 + x33 * x7
  let x42 := x11 * (x24 - x34) + x13 * x35 + x35 * x7
  let x43 := √x11 ^ 21 * x27
  let x44 := x15 * x29
  let x45 := x43 * x44
  (-(Vt ^ 2 * x19 - Vt * x13 * x19 + x0 * x26 * (-Vt * x22 - Vt * x25 + x0 * x24 + x2 * d2Pn i j) + √x11 ^ 23 * x44 * (x37 * x41 + x38 * x42)
    + x11 ^ 12 * x31 * d2a i j - x11 ^ 11 * x31 * (x27 * x40 + x33 * x37 + x35 * x38)
    + 6 * x11 ^ 10 * x27 * x28 * x30 * x36 + 4 * x14 * x28 * x41 * x42 * x43 - x18 * x21 * x23 * x6
    + x20 * x5 * (x24 - d2b i j) - x20 * (Vt + db i) * (Vt + db j) + x23 * x25 * x26
    - x45 * (x33 * x42 + x35 * x41) - x45 * (x11 ^ 2 * (4 * Vt + x39) - x11 * (x13 * x40 - x24 * x33 - x24 * x35 + x32 * x35 + x33 * x34 + x40 * x7) + 3 * x14 * x36))
    / (x1 * x12 * x16 * x3 * x6))

/-- `d2A_dep_dninjs_Vt` (4875-4931): the entries for `j ≤ i` are computed and mirrored; `none`: `sqrt` or the division raises. -/
noncomputable def d2AVt (R T P Vt b delta epsilon a : ℝ) (db ddelta deps da dPn : Fin N → ℝ) (d2b d2delta d2eps d2a d2Pn : Fin N → Fin N → ℝ) (i j : Fin N) : Option ℝ :=
  open Classical in
  if delta ^ 2 - 4 * epsilon ≤ 0 then none else
  some (if j ≤ i then d2AVtEntry R T P Vt b delta epsilon a db ddelta deps da dPn d2b d2delta d2eps d2a d2Pn i j
    else d2AVtEntry R T P Vt b delta epsilon a db ddelta deps da dPn d2b d2delta d2eps d2a d2Pn j i)

/-- `dns_to_dn_partials` of `chemicals`. -/
noncomputable def dnsToDnPartials (dns : Fin N → ℝ) (F : ℝ) (i : Fin N) : ℝ := F + dns i

/-- `fugacity_coefficients` (4229-4274): the stored fugacity coefficient is that of the liquid if `Z` is the liquid's; a nonpositive one has no logarithm. `none`: no liquid. -/
noncomputable def fugacityCoefficients (Z : ℝ) (Zl : Option ℝ) (phil phig : ℝ) (dlnphi : Fin N → ℝ) (i : Fin N) : ℝ :=
  open Classical in
  let F := if Zl = some Z then phil else phig
  let logF := if 0 < F then Real.log F else -690.7755278982137
  dnsToDnPartials dlnphi logF i

/-- `dfugacities_dns` (4566-4629), entry `i`, `j`. -/
noncomputable def dFug (P : ℝ) (zs phis : Fin N → ℝ) (dlnphis : Fin N → Fin N → ℝ) (i j : Fin N) : ℝ :=
  let phi_P := P * phis i
  let ziPphi := phi_P * zs i
  let m := ziPphi * (dlnphis j i - 1)
  if i = j then m + phi_P else m

/-- `dlnfugacities_dns` (4519-4564), entry `i`, `j`. -/
noncomputable def dLnFug (P : ℝ) (zs phis fugacities : Fin N → ℝ) (dlnphis : Fin N → Fin N → ℝ) (i j : Fin N) : ℝ := dFug P zs phis dlnphis i j * (1 / fugacities i)

/-- `dlnphis_dP` (5432-5541); `x6 = dV_dP`, `x4 = d2V_dPdns[i]`; `1/x15` raises at zero, then `1e50`. -/
noncomputable def dlnphisdP (R T P V b delta epsilon a VP dGdP : ℝ) (dV d2VP ddelta deps da db : Fin N → ℝ) (i : Fin N) : ℝ :=
  let x0 := V
  let x2 := 1 / (R * T)
  let x3 := 1 / x0
  let x6 := VP
  let x8 := b
  let x9 := x0 - x8
  let x10 := 1 / P
  let x11 := delta
  let x12 := 2 * x0
  let x13 := x11 + x12
  let x14 := epsilon
  let x15 := x11 ^ 2 - 4 * x14
  let x16 := open Classical in if x15 = 0 then 1e50 else 1 / x15
  let x17 := x13 ^ 2 * x16 - 1
  let x18 := 1 / x17
  let x19 := a
  let x20 := 4 * x16
  let x21 := x2 * x6
  let x22 := x18 * x21
  let x25 := 8 * x19 * x16 * x16
  let t50 := 1 / (x0 * x0)
  let x1 := dV i
  let x7 := x1 * t50
  let x4 := d2VP i
  let x5 := P * x4
  let x23 := ddelta i
  let x24 := x11 * x23 - 2 * deps i
  let x26 := x16 * x24
  let dlnphi_dP := x1 * x2 - x10 * x3 * (x1 + x5) + x10 * x7 * (P * x6 + x0) - x13 * x21 * x25 * (2 * x1 - x11 * x26 - x12 * x26 + x23) / x17 ^ 2
    + x18 * x19 * x2 * x20 * x4 + x2 * x5 + x20 * x22 * da i - x22 * x24 * x25 + x3 * x4 - x4 / x9 - x6 * x7 + x6 * (x1 - db i) / x9 ^ 2
  dlnphi_dP + dGdP

/-- `dG_dep_dP` of `dlnphis_dP` (5480): from the stored derivatives of the departures. -/
noncomputable def dGdP (R T dHP dSP : ℝ) : ℝ := (dHP - T * dSP) / (R * T)

/-- `dG_dep_dT` of `dlnphis_dT` (5592-5593). -/
noncomputable def dGdT (R T H S dHT dST : ℝ) : ℝ := (-T * dST - S + dHT) / (R * T) - (-T * S + H) / (R * T * T)

/-- `dlnphis_dT` (5544-5666); `x9 = dV_dT`, `x2 = d2V_dTdns[i]`. -/
noncomputable def dlnphisdT (R T P V b delta epsilon a aT VT dGdT : ℝ) (dV d2VT ddelta deps da daT db : Fin N → ℝ) (i : Fin N) : ℝ :=
  let x0 := V
  let x1 := 1 / x0
  let x4 := 1 / T ^ 2
  let x5 := 1 / R
  let x6 := P * x5
  let x7 := 1 / T
  let x9 := VT
  let x11 := b
  let x12 := x0 - x11
  let x13 := a
  let x15 := delta
  let x16 := epsilon
  let x17 := open Classical in if x15 * x15 - 4 * x16 = 0 then 1e-100 else x15 * x15 - 4 * x16
  let x18 := 1 / √x17
  let x19 := 2 * x0
  let x20 := x15 + x19
  let x21 := 2 * x5
  let x22 := x21 * reAtanh (x18 * x20)
  let x23 := x18 * x22
  let x24 := 1 / x17
  let x25 := x20 ^ 2 * x24 - 1
  let x26 := 1 / x25
  let x27 := x24 * x26
  let x28 := 4 * x27 * x5
  let x29 := x7 * x9
  let x30 := x13 * x4
  let x34 := x7 * aT
  let x35 := 8 * x13 * x29 * x5 / x17 ^ 2
  let x2 := d2VT i
  let x8 := x2 * x7
  let x3 := dV i
  let x10 := x3 / x0 ^ 2
  let x14 := da i
  let x31 := ddelta i
  let x32 := x15 * x31 - 2 * deps i
  let x33 := x22 * x32 / √x17 ^ 3
  let x36 := x24 * x32
  let x37 := (-x15) * x36 - x19 * x36 + 2 * x3 + x31
  let x38 := x21 * x27 * x37
  let dlnphi_dT := x1 * x2 - x1 * (x2 - x3 * x7) - x10 * x9 + x10 * (-x0 * x7 + x9) + x13 * x28 * x8 + x14 * x23 * x4 + x14 * x28 * x29 - x20 * x35 * x37 / x25 ^ 2
    - x23 * x7 * daT i - x26 * x32 * x35 - x3 * x4 * x6 - x30 * x33 - x30 * x38 + x33 * x34 + x34 * x38 + x6 * x8 - x2 / x12 + x9 * (x3 - db i) / x12 ^ 2
  dlnphi_dT + dGdT

/-! ## The attraction term and its derivatives -/

/-- `ln((z + √Δ)/(z - √Δ))/√Δ`: the integral of the attraction, `z = 2V + δ`, `Δ = δ² - 4ε`. -/
noncomputable def hlog (z D : ℝ) : ℝ := Real.log ((z + √D) / (z - √D)) / √D

/-- Its derivative, as a function of `z`, `Δ`, its value and the derivatives of `z` and `Δ`. -/
noncomputable def h1 (z D H z1 D1 : ℝ) : ℝ := -2 * z1 / (z ^ 2 - D) + D1 * (-H / (2 * D) + z / (D * (z ^ 2 - D)))

theorem hd_hlog {z D : ℝ → ℝ} {t z1 D1 : ℝ} (hz : HasDerivAt z z1 t) (hD : HasDerivAt D D1 t) (h0 : 0 < D t) (hq : √(D t) < z t) :
    HasDerivAt (fun s => hlog (z s) (D s)) (h1 (z t) (D t) (hlog (z t) (D t)) z1 D1) t := by
  have hr := hD.sqrt h0.ne'
  have hr0 : 0 < √(D t) := Real.sqrt_pos.mpr h0
  have hm : 0 < z t - √(D t) := sub_pos.mpr hq
  have hp : 0 < z t + √(D t) := by linarith
  have h := (((hz.fun_add hr).fun_div (hz.fun_sub hr) hm.ne').log (div_pos hp hm).ne').fun_div hr hr0.ne'
  refine HasDerivAt.congr_deriv h ?_
  have e : D t = √(D t) ^ 2 := (Real.sq_sqrt h0.le).symm
  simp only [h1, hlog]
  generalize Real.log ((z t + √(D t)) / (z t - √(D t))) = L
  generalize hr' : √(D t) = r at *
  rw [e]
  have e2 : z t ^ 2 - r ^ 2 = (z t + r) * (z t - r) := by ring
  rw [e2]
  generalize z t = y at *
  have a1 := hm.ne'
  have a2 := hp.ne'
  field_simp
  ring

/-- Second derivative of the integral of the attraction. -/
noncomputable def h2 (z D H zi zj zij Di Dj Dij : ℝ) : ℝ :=
  -2 * zij / (z ^ 2 - D) + 2 * zi * (2 * z * zj - Dj) / (z ^ 2 - D) ^ 2 + Dij * (-H / (2 * D) + z / (D * (z ^ 2 - D)))
    + Di * (-h1 z D H zj Dj / (2 * D) + H * Dj / (2 * D ^ 2) + zj / (D * (z ^ 2 - D)) - z * (Dj * (z ^ 2 - D) + D * (2 * z * zj - Dj)) / (D * (z ^ 2 - D)) ^ 2)

theorem hd_h1 {z D H zi Di : ℝ → ℝ} {t zj Dj zij Dij : ℝ} (hz : HasDerivAt z zj t) (hD : HasDerivAt D Dj t) (hzi : HasDerivAt zi zij t) (hDi : HasDerivAt Di Dij t)
    (hH : HasDerivAt H (h1 (z t) (D t) (H t) zj Dj) t) (h0 : D t ≠ 0) (hq : z t ^ 2 - D t ≠ 0) :
    HasDerivAt (fun s => h1 (z s) (D s) (H s) (zi s) (Di s)) (h2 (z t) (D t) (H t) (zi t) zj zij (Di t) Dj Dij) t := by
  have hden := (hz.fun_pow 2).fun_sub hD
  have h := ((hzi.const_mul (-2)).fun_div hden hq).fun_add (hDi.fun_mul ((hH.fun_neg.fun_div (hD.const_mul 2) (mul_ne_zero two_ne_zero h0)).fun_add
    (hz.fun_div (hD.fun_mul hden) (mul_ne_zero h0 hq))))
  refine HasDerivAt.congr_deriv h ?_
  simp only [h2, Nat.add_one_sub_one, pow_one, Nat.cast_ofNat]
  generalize h1 (z t) (D t) (H t) zj Dj = K
  generalize z t ^ 2 - D t = q at *
  field_simp
  ring

/-- A value with two first derivatives and the mixed second derivative. -/
structure Pt where
  f : ℝ
  i : ℝ
  j : ℝ
  ij : ℝ

/-- `f` and its derivative `fi` along another variable, on a curve, with their derivatives along the curve. -/
structure Cv (f fi : ℝ → ℝ) (t : ℝ) (p : Pt) : Prop where
  v0 : f t = p.f
  v1 : fi t = p.i
  d0 : HasDerivAt f p.j t
  d1 : HasDerivAt fi p.ij t

/-- `2V + δ`. -/
noncomputable def zPt (v d : Pt) : Pt := ⟨2 * v.f + d.f, 2 * v.i + d.i, 2 * v.j + d.j, 2 * v.ij + d.ij⟩

/-- `δ² - 4ε`. -/
noncomputable def dPt (d e : Pt) : Pt := ⟨d.f ^ 2 - 4 * e.f, 2 * d.f * d.i - 4 * e.i, 2 * d.f * d.j - 4 * e.j, 2 * (d.i * d.j + d.f * d.ij) - 4 * e.ij⟩

theorem Cv.z {v vi d di : ℝ → ℝ} {t : ℝ} {pv pd : Pt} (hv : Cv v vi t pv) (hd : Cv d di t pd) : Cv (fun s => 2 * v s + d s) (fun s => 2 * vi s + di s) t (zPt pv pd) :=
  ⟨by simp only [hv.v0, hd.v0, zPt], by simp only [hv.v1, hd.v1, zPt], (hv.d0.const_mul 2).fun_add hd.d0, (hv.d1.const_mul 2).fun_add hd.d1⟩

theorem Cv.disc {e ei d di : ℝ → ℝ} {t : ℝ} {pe pd : Pt} (he : Cv e ei t pe) (hd : Cv d di t pd) :
    Cv (fun s => d s ^ 2 - 4 * e s) (fun s => 2 * d s * di s - 4 * ei s) t (dPt pd pe) := by
  refine ⟨by simp only [he.v0, hd.v0, dPt], by simp only [he.v1, hd.v0, hd.v1, dPt], ((hd.d0.fun_pow 2).fun_sub (he.d0.const_mul 4)).congr_deriv ?_,
    (((hd.d0.const_mul 2).fun_mul hd.d1).fun_sub (he.d1.const_mul 4)).congr_deriv ?_⟩
  · simp only [hd.v0, dPt]; push_cast; ring
  · simp only [hd.v0, hd.v1, dPt]; ring

/-- First derivative of the attraction term. -/
noncomputable def att1 (a ai z zi D Di : ℝ) : ℝ := ai * hlog z D + a * h1 z D (hlog z D) zi Di

/-- Second derivative of the attraction term. -/
noncomputable def att2 (a z D : Pt) : ℝ :=
  a.ij * hlog z.f D.f + a.i * h1 z.f D.f (hlog z.f D.f) z.j D.j + a.j * h1 z.f D.f (hlog z.f D.f) z.i D.i + a.f * h2 z.f D.f (hlog z.f D.f) z.i z.j z.ij D.i D.j D.ij

theorem q_pos {z D : ℝ} (h0 : 0 < D) (hq : √D < z) : 0 < z ^ 2 - D := by
  have h1 := Real.sqrt_nonneg D
  have h2 := Real.sq_sqrt h0.le
  nlinarith

theorem hd_att0 {a ai z zi D Di : ℝ → ℝ} {t : ℝ} {pa pz pD : Pt} (ha : Cv a ai t pa) (hz : Cv z zi t pz) (hD : Cv D Di t pD) (h0 : 0 < pD.f) (hq : √pD.f < pz.f) :
    HasDerivAt (fun s => a s * hlog (z s) (D s)) (att1 pa.f pa.j pz.f pz.j pD.f pD.j) t := by
  have hH := hd_hlog hz.d0 hD.d0 (by rwa [hD.v0]) (by rwa [hD.v0, hz.v0])
  refine (ha.d0.fun_mul hH).congr_deriv ?_
  simp only [ha.v0, hz.v0, hD.v0, att1]

theorem hd_att {a ai z zi D Di : ℝ → ℝ} {t : ℝ} {pa pz pD : Pt} (ha : Cv a ai t pa) (hz : Cv z zi t pz) (hD : Cv D Di t pD) (h0 : 0 < pD.f) (hq : √pD.f < pz.f) :
    HasDerivAt (fun s => att1 (a s) (ai s) (z s) (zi s) (D s) (Di s)) (att2 pa pz pD) t := by
  have hH := hd_hlog hz.d0 hD.d0 (by rwa [hD.v0]) (by rwa [hD.v0, hz.v0])
  have hq' := q_pos h0 hq
  have hh := hd_h1 hz.d0 hD.d0 hz.d1 hD.d1 hH (by rw [hD.v0]; exact h0.ne') (by rw [hD.v0, hz.v0]; exact hq'.ne')
  refine ((ha.d1.fun_mul hH).fun_add (ha.d0.fun_mul hh)).congr_deriv ?_
  simp only [ha.v0, ha.v1, hz.v0, hz.v1, hD.v0, hD.v1, att2]
  ring

/-! ## Helmholtz energy departure -/

/-- Helmholtz energy departure from the ideal gas at the same temperature and pressure: `R T ln φ - (P V - R T)` (`helm_eq`). -/
noncomputable def helm (R T P V b delta epsilon a : ℝ) : ℝ := -(R * T) * Real.log (P * (V - b) / (R * T)) - a * hlog (2 * V + delta) (delta ^ 2 - 4 * epsilon)

theorem helm_eq {R T P V b delta epsilon a : ℝ} (h : R * T ≠ 0) : helm R T P V b delta epsilon a = R * T * lnPhi R T P V b delta epsilon a - (P * V - R * T) := by
  simp only [helm, lnPhi, hlog]
  generalize √(delta ^ 2 - 4 * epsilon) = r
  generalize Real.log ((2 * V + delta + r) / (2 * V + delta - r)) = L
  generalize R * T = K at *
  generalize Real.log (P * (V - b) / K) = M
  by_cases hr : r = 0
  · subst hr
    simp only [div_zero, mul_zero, zero_mul]
    field_simp; ring
  · field_simp; ring

/-- Its first derivative. -/
noncomputable def helm1 (R T p pi v vi b bi d di e ei a ai : ℝ) : ℝ :=
  -(R * T) * (pi / p + (vi - bi) / (v - b)) - att1 a ai (2 * v + d) (2 * vi + di) (d ^ 2 - 4 * e) (2 * d * di - 4 * ei)

/-- Its second derivative. -/
noncomputable def helm2 (R T : ℝ) (p v b d e a : Pt) : ℝ :=
  -(R * T) * (p.ij / p.f - p.i * p.j / p.f ^ 2 + (v.ij - b.ij) / (v.f - b.f) - (v.i - b.i) * (v.j - b.j) / (v.f - b.f) ^ 2) - att2 a (zPt v d) (dPt d e)

/-- Exchange of the two variables. -/
def Pt.swap (p : Pt) : Pt := ⟨p.f, p.j, p.i, p.ij⟩

theorem h2_swap {z D H zi zj zij Di Dj Dij : ℝ} (h0 : D ≠ 0) (hq : z ^ 2 - D ≠ 0) : h2 z D H zi zj zij Di Dj Dij = h2 z D H zj zi zij Dj Di Dij := by
  simp only [h2, h1]
  obtain ⟨q, hqq⟩ : ∃ q, q = z ^ 2 - D := ⟨_, rfl⟩
  rw [← hqq] at hq ⊢
  field_simp
  rw [hqq]
  ring

theorem helm2_swap {R T : ℝ} {p v b d e a : Pt} (h0 : 0 < d.f ^ 2 - 4 * e.f) (hq : √(d.f ^ 2 - 4 * e.f) < 2 * v.f + d.f) : helm2 R T p v b d e a = helm2 R T p.swap v.swap b.swap d.swap e.swap a.swap := by
  have h := h2_swap (H := hlog (2 * v.f + d.f) (d.f ^ 2 - 4 * e.f)) (zi := 2 * v.i + d.i) (zj := 2 * v.j + d.j) (zij := 2 * v.ij + d.ij) (Di := 2 * d.f * d.i - 4 * e.i) (Dj := 2 * d.f * d.j - 4 * e.j)
    (Dij := 2 * (d.i * d.j + d.f * d.ij) - 4 * e.ij) h0.ne' (q_pos h0 hq).ne'
  simp only [helm2, Pt.swap, att2, zPt, dPt, h, mul_comm d.j d.i, mul_comm p.j p.i]
  ring

section Curve

variable {R T t : ℝ} {p pi v vi b bi d di e ei a ai : ℝ → ℝ} {pp pv pb pd pe pa : Pt}

theorem hd_helm (hp : Cv p pi t pp) (hv : Cv v vi t pv) (hb : Cv b bi t pb) (hd : Cv d di t pd) (he : Cv e ei t pe) (ha : Cv a ai t pa) (hRT : R * T ≠ 0) (p0 : pp.f ≠ 0) (w0 : pv.f - pb.f ≠ 0)
    (h0 : 0 < pd.f ^ 2 - 4 * pe.f) (hq : √(pd.f ^ 2 - 4 * pe.f) < 2 * pv.f + pd.f) :
    HasDerivAt (fun s => helm R T (p s) (v s) (b s) (d s) (e s) (a s)) (helm1 R T pp.f pp.j pv.f pv.j pb.f pb.j pd.f pd.j pe.f pe.j pa.f pa.j) t := by
  have h1 := hd_att0 ha (hv.z hd) (he.disc hd) h0 hq
  have h2 := ((hp.d0.fun_mul (hv.d0.fun_sub hb.d0)).div_const (R * T)).log (by
    rw [hp.v0, hv.v0, hb.v0]; exact div_ne_zero (mul_ne_zero p0 w0) hRT)
  refine ((h2.const_mul (-(R * T))).fun_sub h1).congr_deriv ?_
  simp only [hp.v0, hv.v0, hb.v0, helm1, zPt, dPt]
  congr 1
  field_simp

theorem hd_helm1 (hp : Cv p pi t pp) (hv : Cv v vi t pv) (hb : Cv b bi t pb) (hd : Cv d di t pd) (he : Cv e ei t pe) (ha : Cv a ai t pa) (p0 : pp.f ≠ 0) (w0 : pv.f - pb.f ≠ 0)
    (h0 : 0 < pd.f ^ 2 - 4 * pe.f) (hq : √(pd.f ^ 2 - 4 * pe.f) < 2 * pv.f + pd.f) :
    HasDerivAt (fun s => helm1 R T (p s) (pi s) (v s) (vi s) (b s) (bi s) (d s) (di s) (e s) (ei s) (a s) (ai s)) (helm2 R T pp pv pb pd pe pa) t := by
  have h1 := hd_att ha (hv.z hd) (he.disc hd) h0 hq
  have h2 := (hp.d1.fun_div hp.d0 (by rwa [hp.v0])).fun_add ((hv.d1.fun_sub hb.d1).fun_div (hv.d0.fun_sub hb.d0) (by rwa [hv.v0, hb.v0]))
  refine ((h2.const_mul (-(R * T))).fun_sub h1).congr_deriv ?_
  simp only [hp.v0, hp.v1, hv.v0, hv.v1, hb.v0, hb.v1, helm2]
  congr 1
  field_simp
  ring

end Curve

/-! ## Composition derivatives -/

/-- First and second partial derivatives on a set. -/
structure J2 (U : Set (Fin N → ℝ)) (F : (Fin N → ℝ) → ℝ) (F1 : Fin N → (Fin N → ℝ) → ℝ) (F2 : Fin N → Fin N → (Fin N → ℝ) → ℝ) : Prop where
  d1 : ∀ n ∈ U, ∀ i, PD F i n (F1 i n)
  d2 : ∀ n ∈ U, ∀ i j, PD (F1 i) j n (F2 i j n)

theorem _root_.Verif.MixDerivs.Jet.j2 {U : Set (Fin N → ℝ)} {F : (Fin N → ℝ) → ℝ} {F1 : Fin N → (Fin N → ℝ) → ℝ} {F2 : Fin N → Fin N → (Fin N → ℝ) → ℝ}
    {F3 : Fin N → Fin N → Fin N → (Fin N → ℝ) → ℝ} (h : Jet U F F1 F2 F3) : J2 U F F1 F2 := ⟨h.d1, h.d2⟩

/-- The values at a composition. -/
def pt (F : (Fin N → ℝ) → ℝ) (F1 : Fin N → (Fin N → ℝ) → ℝ) (F2 : Fin N → Fin N → (Fin N → ℝ) → ℝ) (n : Fin N → ℝ) (i j : Fin N) : Pt := ⟨F n, F1 i n, F1 j n, F2 i j n⟩

section Composition

variable {U : Set (Fin N → ℝ)} {F p v b d e a : (Fin N → ℝ) → ℝ} {F1 p1 v1 b1 d1 e1 a1 : Fin N → (Fin N → ℝ) → ℝ} {F2 p2 v2 b2 d2 e2 a2 : Fin N → Fin N → (Fin N → ℝ) → ℝ} {R T : ℝ} {z n : Fin N → ℝ}

theorem J2.cv (h : J2 U F F1 F2) (hn : n ∈ U) (i j : Fin N) : Cv (fun s => F (Function.update n j s)) (fun s => F1 i (Function.update n j s)) (n j) (pt F F1 F2 n i j) :=
  ⟨by simp [pt], by simp [pt], h.d1 n hn j, h.d2 n hn i j⟩

theorem J2.pd2 (h : J2 U F F1 F2) (hU : IsOpen U) (hz : z ∈ U) (i j : Fin N) : PD2 F i j z (F2 i j z) :=
  ⟨F1 i, (hU.eventually_mem hz).mono fun y hy => h.d1 y hy i, h.d2 z hz i j⟩

/-- States with a positive pressure, a volume above the covolume and above both poles of the attraction. -/
structure Physical (U : Set (Fin N → ℝ)) (p v b d e : (Fin N → ℝ) → ℝ) : Prop where
  isOpen : IsOpen U
  p : ∀ n ∈ U, 0 < p n
  w : ∀ n ∈ U, b n < v n
  disc : ∀ n ∈ U, 0 < d n ^ 2 - 4 * e n
  q : ∀ n ∈ U, √(d n ^ 2 - 4 * e n) < 2 * v n + d n

theorem helm_j2 (hU : Physical U p v b d e) (hRT : R * T ≠ 0) (hp : J2 U p p1 p2) (hv : J2 U v v1 v2) (hb : J2 U b b1 b2) (hd : J2 U d d1 d2) (he : J2 U e e1 e2) (ha : J2 U a a1 a2) :
    J2 U (fun n => helm R T (p n) (v n) (b n) (d n) (e n) (a n)) (fun i n => helm1 R T (p n) (p1 i n) (v n) (v1 i n) (b n) (b1 i n) (d n) (d1 i n) (e n) (e1 i n) (a n) (a1 i n))
      (fun i j n => helm2 R T (pt p p1 p2 n i j) (pt v v1 v2 n i j) (pt b b1 b2 n i j) (pt d d1 d2 n i j) (pt e e1 e2 n i j) (pt a a1 a2 n i j)) :=
  ⟨fun n hn i => hd_helm (hp.cv hn i i) (hv.cv hn i i) (hb.cv hn i i) (hd.cv hn i i) (he.cv hn i i) (ha.cv hn i i) hRT (hU.p n hn).ne' (sub_pos.mpr (hU.w n hn)).ne' (hU.disc n hn) (hU.q n hn),
    fun n hn i j => hd_helm1 (hp.cv hn i j) (hv.cv hn i j) (hb.cv hn i j) (hd.cv hn i j) (he.cv hn i j) (ha.cv hn i j) (hU.p n hn).ne' (sub_pos.mpr (hU.w n hn)).ne' (hU.disc n hn) (hU.q n hn)⟩

end Composition

/-! ## The code's expressions -/

theorem hlog_eq {z D : ℝ} (h0 : 0 < D) (hq : √D < z) : reAtanh (z * (1 / √D)) = √D * hlog z D / 2 := by
  have hr := Real.sqrt_pos.mpr h0
  rw [reAtanh_eq hr hq, hlog]
  field_simp

/-- The helper for the Gibbs energy, in terms of the derivatives of the Helmholtz energy departure. -/
theorem d2G_eq {R T P V b delta epsilon a : ℝ} {dV db deps ddelta da : Fin N → ℝ} {d2Vs d2b d2eps d2delta d2a : Fin N → Fin N → ℝ} {i j : Fin N} (hP : P ≠ 0) (hw : V - b ≠ 0)
    (h0 : 0 < delta ^ 2 - 4 * epsilon) (hq : √(delta ^ 2 - 4 * epsilon) < 2 * V + delta) :
    d2G R T P V b delta epsilon a dV d2Vs db d2b deps d2eps ddelta d2delta da d2a true i j = P * d2Vs i j +
      helm2 R T ⟨P, 0, 0, 0⟩ ⟨V, dV i, dV j, d2Vs i j⟩ ⟨b, db i, db j, d2b i j⟩ ⟨delta, ddelta i, ddelta j, d2delta i j⟩ ⟨epsilon, deps i, deps j, d2eps i j⟩ ⟨a, da i, da j, d2a i j⟩ := by
  have e0 : -4 * epsilon + delta ^ 2 = delta ^ 2 - 4 * epsilon := by ring
  have hr := Real.sqrt_pos.mpr h0
  have hq' := (q_pos h0 hq).ne'
  have ha := hlog_eq h0 hq
  have e1 : 1 / √(delta ^ 2 - 4 * epsilon) * (2 * V + delta) = (2 * V + delta) * (1 / √(delta ^ 2 - 4 * epsilon)) := mul_comm _ _
  simp only [d2G, e0, if_neg h0.ne', e1, ha, if_true, helm2, att2, zPt, dPt, h2, h1]
  generalize hlog (2 * V + delta) (delta ^ 2 - 4 * epsilon) = H
  have e2 : delta ^ 2 - 4 * epsilon = √(delta ^ 2 - 4 * epsilon) ^ 2 := (Real.sq_sqrt h0.le).symm
  generalize √(delta ^ 2 - 4 * epsilon) = r at *
  rw [e2] at hq' ⊢
  clear ha e1 e0 h0 e2
  obtain ⟨z, hz⟩ : ∃ z, z = 2 * V + delta := ⟨_, rfl⟩
  rw [← hz] at hq' hq ⊢
  have hV : V = (z - delta) / 2 := by rw [hz]; ring
  obtain ⟨q, hqq⟩ : ∃ q, q = z ^ 2 - r ^ 2 := ⟨_, rfl⟩
  have e3 : z ^ 2 * (1 / r ^ 2) - 1 = q / r ^ 2 := by rw [hqq]; field_simp
  rw [e3, ← hqq]
  rw [← hqq] at hq'
  generalize hW : V - b = W at *
  rw [hV]
  clear hz hV e3 hq hW
  field_simp
  rw [hqq]
  ring

theorem d2A_eq {R T P V b delta epsilon a : ℝ} {dV db deps ddelta da : Fin N → ℝ} {d2Vs d2b d2eps d2delta d2a : Fin N → Fin N → ℝ} {i j : Fin N} (hP : P ≠ 0) (hw : V - b ≠ 0)
    (h0 : 0 < delta ^ 2 - 4 * epsilon) (hq : √(delta ^ 2 - 4 * epsilon) < 2 * V + delta) :
    d2A R T V b delta epsilon a dV d2Vs db d2b deps d2eps ddelta d2delta da d2a i j =
      some (helm2 R T ⟨P, 0, 0, 0⟩ ⟨V, dV i, dV j, d2Vs i j⟩ ⟨b, db i, db j, d2b i j⟩ ⟨delta, ddelta i, ddelta j, d2delta i j⟩ ⟨epsilon, deps i, deps j, d2eps i j⟩ ⟨a, da i, da j, d2a i j⟩) := by
  have hg := d2G_eq (R := R) (T := T) (a := a) (dV := dV) (db := db) (deps := deps) (ddelta := ddelta) (da := da) (d2Vs := d2Vs) (d2b := d2b) (d2eps := d2eps) (d2delta := d2delta) (d2a := d2a)
    (i := i) (j := j) hP hw h0 hq
  have e0 : -4 * epsilon + delta ^ 2 = delta ^ 2 - 4 * epsilon := by ring
  have := eq_sub_of_add_eq' hg.symm
  rw [this]
  simp only [d2A, d2G, e0, if_neg h0.ne', if_neg (not_le.mpr h0), if_true, Option.some.injEq]
  ring

/-- The helper for the Gibbs energy and the logarithmic fugacity coefficient, first derivatives. -/
theorem dHelper_eq {R T P V b delta epsilon a : ℝ} {dV db deps ddelta da : Fin N → ℝ} {i : Fin N} (hR : R ≠ 0) (hT : T ≠ 0) (hP : P ≠ 0) (hw : V - b ≠ 0)
    (h0 : 0 < delta ^ 2 - 4 * epsilon) (hq : √(delta ^ 2 - 4 * epsilon) < 2 * V + delta) :
    dHelper R T P b delta epsilon a (P * V / (R * T)) db deps ddelta dV da false i =
      P * dV i / (R * T) - (dV i - db i) / (V - b) - att1 a (da i) (2 * V + delta) (2 * dV i + ddelta i) (delta ^ 2 - 4 * epsilon) (2 * delta * ddelta i - 4 * deps i) / (R * T) := by
  have e0 : delta * delta - 4 * epsilon = delta ^ 2 - 4 * epsilon := by ring
  have eV : P * V / (R * T) * (R * T) / P = V := by field_simp
  have hr := Real.sqrt_pos.mpr h0
  have hq' := (q_pos h0 hq).ne'
  have ha := hlog_eq h0 hq
  have ez : delta + (V + V) = 2 * V + delta := by ring
  simp only [dHelper, e0, if_neg h0.ne', eV, ez, ha, att1, h1, Bool.false_eq_true, if_false]
  generalize hlog (2 * V + delta) (delta ^ 2 - 4 * epsilon) = H
  have e2 : delta ^ 2 - 4 * epsilon = √(delta ^ 2 - 4 * epsilon) ^ 2 := (Real.sq_sqrt h0.le).symm
  generalize √(delta ^ 2 - 4 * epsilon) = r at *
  rw [e2] at hq' ⊢
  clear ha e0 h0 e2 ez eV
  generalize 2 * V + delta = z at *
  obtain ⟨q, hqq⟩ : ∃ q, q = z ^ 2 - r ^ 2 := ⟨_, rfl⟩
  have e3 : z * z * (1 / r * (1 / r)) - 1 = q / r ^ 2 := by rw [hqq]; field_simp
  rw [e3, ← hqq]
  rw [← hqq] at hq'
  generalize V - b = W at *
  clear e3 hq
  field_simp
  ring

theorem dH_eq {R T P V delta epsilon a aT : ℝ} {dV deps ddelta da daT : Fin N → ℝ} {i : Fin N} (hR : R ≠ 0) (hT : T ≠ 0) (hP : P ≠ 0)
    (h0 : 0 < delta ^ 2 - 4 * epsilon) (hq : √(delta ^ 2 - 4 * epsilon) < 2 * V + delta) :
    dH R T P (P * V / (R * T)) delta epsilon a aT dV ddelta deps da daT i =
      P * dV i + att1 (T * aT - a) (T * daT i - da i) (2 * V + delta) (2 * dV i + ddelta i) (delta ^ 2 - 4 * epsilon) (2 * delta * ddelta i - 4 * deps i) := by
  have e0 : delta * delta - 4 * epsilon = delta ^ 2 - 4 * epsilon := by ring
  have eV : P * V / (R * T) * R * T / P = V := by field_simp
  have hr := Real.sqrt_pos.mpr h0
  have hq' := (q_pos h0 hq).ne'
  have ha := hlog_eq h0 hq
  have ez : V + V + delta = 2 * V + delta := by ring
  simp only [dH, e0, if_neg h0.ne', eV, ez, ha, att1, h1]
  generalize hlog (2 * V + delta) (delta ^ 2 - 4 * epsilon) = H
  have e2 : delta ^ 2 - 4 * epsilon = √(delta ^ 2 - 4 * epsilon) ^ 2 := (Real.sq_sqrt h0.le).symm
  generalize √(delta ^ 2 - 4 * epsilon) = r at *
  rw [e2] at hq' ⊢
  clear ha e0 h0 e2 ez eV
  generalize 2 * V + delta = z at *
  obtain ⟨q, hqq⟩ : ∃ q, q = z ^ 2 - r ^ 2 := ⟨_, rfl⟩
  have e3 : 1 / r * (1 / r) * z * z - 1 = q / r ^ 2 := by rw [hqq]; field_simp
  rw [e3, ← hqq]
  rw [← hqq] at hq'
  clear e3 hq
  field_simp
  ring

theorem dAVt_eq {R T P Vt b delta epsilon a : ℝ} {db deps ddelta da dPn : Fin N → ℝ} {i : Fin N} (hP : P ≠ 0) (hVt : Vt ≠ 0) (hw : Vt - b ≠ 0)
    (h0 : 0 < delta ^ 2 - 4 * epsilon) (hq : √(delta ^ 2 - 4 * epsilon) < 2 * Vt + delta) :
    dAVt R T P Vt b delta epsilon a db ddelta deps da dPn i = some (helm1 R T P (dPn i) Vt (-Vt) b (db i) delta (ddelta i) epsilon (deps i) a (da i)) := by
  have hr := Real.sqrt_pos.mpr h0
  have hq' := (q_pos h0 hq).ne'
  have ha := hlog_eq h0 hq
  have e1 : (2 * Vt + delta) ^ 2 - delta ^ 2 + 4 * epsilon = (2 * Vt + delta) ^ 2 - (delta ^ 2 - 4 * epsilon) := by ring
  simp only [dAVt, e1, if_neg (not_le.mpr h0), ha, helm1, att1, h1, Option.some.injEq]
  generalize hlog (2 * Vt + delta) (delta ^ 2 - 4 * epsilon) = H
  have e2 : delta ^ 2 - 4 * epsilon = √(delta ^ 2 - 4 * epsilon) ^ 2 := (Real.sq_sqrt h0.le).symm
  generalize √(delta ^ 2 - 4 * epsilon) = r at *
  rw [e2] at hq' ⊢
  clear ha h0 e2 e1
  obtain ⟨z, hz⟩ : ∃ z, z = 2 * Vt + delta := ⟨_, rfl⟩
  rw [← hz] at hq' hq ⊢
  obtain ⟨q, hqq⟩ : ∃ q, q = z ^ 2 - r ^ 2 := ⟨_, rfl⟩
  rw [← hqq]
  rw [← hqq] at hq'
  obtain ⟨W, hW⟩ : ∃ W, W = Vt - b := ⟨_, rfl⟩
  rw [← hW] at hw ⊢
  clear hq hz hW hqq
  field_simp
  ring

theorem d2AVt_eq {R T P Vt b delta epsilon a : ℝ} {db deps ddelta da dPn : Fin N → ℝ} {d2b d2eps d2delta d2a d2Pn : Fin N → Fin N → ℝ} {i j : Fin N} (hP : P ≠ 0) (hVt : Vt ≠ 0)
    (hw : Vt - b ≠ 0) (h0 : 0 < delta ^ 2 - 4 * epsilon) (hq : √(delta ^ 2 - 4 * epsilon) < 2 * Vt + delta) :
    d2AVtEntry R T P Vt b delta epsilon a db ddelta deps da dPn d2b d2delta d2eps d2a d2Pn i j =
      helm2 R T ⟨P, dPn i, dPn j, d2Pn i j⟩ ⟨Vt, -Vt, -Vt, 2 * Vt⟩ ⟨b, db i, db j, d2b i j⟩ ⟨delta, ddelta i, ddelta j, d2delta i j⟩ ⟨epsilon, deps i, deps j, d2eps i j⟩ ⟨a, da i, da j, d2a i j⟩ := by
  have hr := Real.sqrt_pos.mpr h0
  have hq' := (q_pos h0 hq).ne'
  have ha := hlog_eq h0 hq
  have e0 : -(4 * epsilon) + delta ^ 2 = delta ^ 2 - 4 * epsilon := by ring
  have e1 : 4 * epsilon + (2 * Vt + delta) ^ 2 - delta ^ 2 = (2 * Vt + delta) ^ 2 - (delta ^ 2 - 4 * epsilon) := by ring
  rw [mul_one_div] at ha
  simp only [d2AVtEntry, e0, e1, ha, helm2, att2, zPt, dPt, h2, h1]
  generalize hlog (2 * Vt + delta) (delta ^ 2 - 4 * epsilon) = H
  have e2 : delta ^ 2 - 4 * epsilon = √(delta ^ 2 - 4 * epsilon) ^ 2 := (Real.sq_sqrt h0.le).symm
  generalize √(delta ^ 2 - 4 * epsilon) = r at *
  rw [e2] at hq' ⊢
  clear ha h0 e2 e1 e0
  obtain ⟨z, hz⟩ : ∃ z, z = 2 * Vt + delta := ⟨_, rfl⟩
  rw [← hz] at hq' hq ⊢
  have hd : delta = z - 2 * Vt := by rw [hz]; ring
  obtain ⟨q, hqq⟩ : ∃ q, q = z ^ 2 - r ^ 2 := ⟨_, rfl⟩
  rw [← hqq]
  rw [← hqq] at hq'
  obtain ⟨W, hW⟩ : ∃ W, W = Vt - b := ⟨_, rfl⟩
  rw [← hW] at hw ⊢
  rw [hd]
  clear hq hz hW hd
  field_simp
  rw [hqq]
  ring

/-! ## Constant temperature and pressure -/

section ConstantTP

variable {U : Set (Fin N → ℝ)} {m : Params N} {b1 d1 e1 a1 : Fin N → (Fin N → ℝ) → ℝ} {b2 d2 e2 a2 : Fin N → Fin N → (Fin N → ℝ) → ℝ} {b3 d3 e3 a3 : Fin N → Fin N → Fin N → (Fin N → ℝ) → ℝ}
  {R T P : ℝ} {v : (Fin N → ℝ) → ℝ} {z : Fin N → ℝ}

/-- The code's volume derivatives at a composition. -/
noncomputable def vol1 (m : Params N) (R T P : ℝ) (v : (Fin N → ℝ) → ℝ) (b1 d1 e1 a1 : Fin N → (Fin N → ℝ) → ℝ) (i : Fin N) (n : Fin N → ℝ) : ℝ :=
  dVdzs R T P (P * v n / (R * T)) (m.b n) (m.delta n) (m.epsilon n) (m.a n) (fun i => b1 i n) (fun i => d1 i n) (fun i => e1 i n) (fun i => a1 i n) i

/-- The code's second volume derivatives at a composition. -/
noncomputable def vol2 (m : Params N) (R T P : ℝ) (v : (Fin N → ℝ) → ℝ) (b1 d1 e1 a1 : Fin N → (Fin N → ℝ) → ℝ) (b2 d2 e2 a2 : Fin N → Fin N → (Fin N → ℝ) → ℝ) (i j : Fin N) (n : Fin N → ℝ) : ℝ :=
  d2V R T (v n) (m.b n) (m.delta n) (m.epsilon n) (m.a n) (fun i => vol1 m R T P v b1 d1 e1 a1 i n)
    (fun i => b1 i n) (fun i => e1 i n) (fun i => d1 i n) (fun i => a1 i n) (fun i j => b2 i j n) (fun i j => e2 i j n) (fun i j => d2 i j n) (fun i j => a2 i j n) i j

theorem volume_j2 (hv : Family U m R T P v) (hj : ParamJets U m b1 d1 e1 a1 b2 d2 e2 a2 b3 d3 e3 a3) : J2 U v (vol1 m R T P v b1 d1 e1 a1) (vol2 m R T P v b1 d1 e1 a1 b2 d2 e2 a2) := by
  have h1 : ∀ n ∈ U, ∀ i, PD v i n (vol1 m R T P v b1 d1 e1 a1 i n) := fun n hn i =>
    C55_volume (hv.branch hn) (hv.regular n hn) (hj.b.d1 n hn i) (hj.d.d1 n hn i) (hj.e.d1 n hn i) (hj.a.d1 n hn i)
  refine ⟨h1, fun n hn i j => ?_⟩
  obtain ⟨g, hg, hp⟩ := C115_volume hv hj hn i j
  refine pd_congr hp ?_
  filter_upwards [hg, hv.isOpen.eventually_mem hn] with y hy hyU
  exact (h1 y hyU i).unique hy

theorem family_physical (hv : Family U m R T P v) : Physical U (fun _ => P) v m.b m.delta m.epsilon :=
  ⟨hv.isOpen, fun n hn => (hv.regular n hn).hP, fun n hn => (hv.regular n hn).hb, fun n hn => (hv.regular n hn).disc, fun n hn => (hv.regular n hn).q⟩

/-- The Gibbs energy departure and its derivatives. -/
theorem gibbs_j2 (hv : Family U m R T P v) (hj : ParamJets U m b1 d1 e1 a1 b2 d2 e2 a2 b3 d3 e3 a3) (hne : U.Nonempty) :
    J2 U (fun n => R * T * lnPhi R T P (v n) (m.b n) (m.delta n) (m.epsilon n) (m.a n))
      (fun i n => dHelper R T P (m.b n) (m.delta n) (m.epsilon n) (m.a n) (P * v n / (R * T)) (fun i => b1 i n) (fun i => e1 i n) (fun i => d1 i n) (fun i => vol1 m R T P v b1 d1 e1 a1 i n) (fun i => a1 i n)
        true i)
      (fun i j n => d2G R T P (v n) (m.b n) (m.delta n) (m.epsilon n) (m.a n) (fun i => vol1 m R T P v b1 d1 e1 a1 i n) (fun i j => vol2 m R T P v b1 d1 e1 a1 b2 d2 e2 a2 i j n)
        (fun i => b1 i n) (fun i j => b2 i j n) (fun i => e1 i n) (fun i j => e2 i j n) (fun i => d1 i n) (fun i j => d2 i j n) (fun i => a1 i n) (fun i j => a2 i j n) true i j) := by
  obtain ⟨n0, hn0⟩ := hne
  have hR := (hv.regular n0 hn0).hR
  have hT := (hv.regular n0 hn0).hT
  have hP := (hv.regular n0 hn0).hP
  have hRT := (mul_pos hR hT).ne'
  have vj := volume_j2 hv hj
  have hh := helm_j2 (family_physical hv) hRT (const_jet U P).j2 vj hj.b.j2 hj.d.j2 hj.e.j2 hj.a.j2
  refine ⟨fun n hn i => C55_helper_G (hv.regular n hn) (hj.b.d1 n hn i) (hj.d.d1 n hn i) (hj.e.d1 n hn i) (hj.a.d1 n hn i) (vj.d1 n hn i), fun n hn i j => ?_⟩
  have hr := hv.regular n hn
  rw [d2G_eq hP.ne' (sub_pos.mpr hr.hb).ne' hr.disc hr.q]
  have h2 := ((vj.d2 n hn i j).const_mul P).add (hh.d2 n hn i j)
  refine pd_congr h2 ?_
  filter_upwards [hv.isOpen.eventually_mem hn] with y hy
  have hry := hv.regular y hy
  rw [dHelper_true, dHelper_eq hR.ne' hT.ne' hP.ne' (sub_pos.mpr hry.hb).ne' hry.disc hry.q]
  simp only [helm1]
  field_simp
  ring

/-- **C116.** `_d2_G_dep_lnphi_d2_helper`: the second derivatives of the Gibbs energy departure (`d2G_dep_dzizjs`, `d2G_dep_dninjs`) and of the logarithmic fugacity coefficient (`d2lnphi_dzizjs`,
`d2lnphi_dninjs`) at constant temperature and pressure, on every continuous family of regular states. -/
theorem C116_gibbs (hv : Family U m R T P v) (hj : ParamJets U m b1 d1 e1 a1 b2 d2 e2 a2 b3 d3 e3 a3) (hz : z ∈ U) (i j : Fin N) :
    let V1 := fun i => vol1 m R T P v b1 d1 e1 a1 i z
    let V2 := fun i j => vol2 m R T P v b1 d1 e1 a1 b2 d2 e2 a2 i j z
    let h := d2G R T P (v z) (m.b z) (m.delta z) (m.epsilon z) (m.a z) V1 V2 (fun i => b1 i z) (fun i j => b2 i j z) (fun i => e1 i z) (fun i j => e2 i j z) (fun i => d1 i z) (fun i j => d2 i j z)
      (fun i => a1 i z) (fun i j => a2 i j z)
    PD2 (fun n => R * T * lnPhi R T P (v n) (m.b n) (m.delta n) (m.epsilon n) (m.a n)) i j z (h true i j) ∧
    PD2 (fun n => lnPhi R T P (v n) (m.b n) (m.delta n) (m.epsilon n) (m.a n)) i j z (h false i j) := by
  intro V1 V2 h
  have hr := hv.regular z hz
  have hRT := (mul_pos hr.hR hr.hT).ne'
  have hg := (gibbs_j2 hv hj ⟨z, hz⟩).pd2 hv.isOpen hz i j
  refine ⟨hg, ?_⟩
  obtain ⟨g, hg1, hg2⟩ := hg
  refine ⟨fun n => 1 / (R * T) * g n, hg1.mono fun y hy => ?_, ?_⟩
  · have := hy.const_mul (1 / (R * T))
    refine pd_congr this (Eventually.of_forall fun n => ?_)
    rw [← mul_assoc, one_div, inv_mul_cancel₀ hRT, one_mul]
  · refine (hg2.const_mul (1 / (R * T))).congr_d ?_
    simp only [h, d2G, V1, V2, if_true, Bool.false_eq_true, if_false]
    rw [mul_comm T R]
    ring

/-- **C116.** `_d2_A_dep_d2_helper` (`d2A_dep_dninjs`): the second derivatives of the Helmholtz energy departure at constant temperature and pressure. -/
theorem C116_helmholtz (hv : Family U m R T P v) (hj : ParamJets U m b1 d1 e1 a1 b2 d2 e2 a2 b3 d3 e3 a3) (hz : z ∈ U) (i j : Fin N) :
    ∃ d, d2A R T (v z) (m.b z) (m.delta z) (m.epsilon z) (m.a z) (fun i => vol1 m R T P v b1 d1 e1 a1 i z) (fun i j => vol2 m R T P v b1 d1 e1 a1 b2 d2 e2 a2 i j z) (fun i => b1 i z)
        (fun i j => b2 i j z) (fun i => e1 i z) (fun i j => e2 i j z) (fun i => d1 i z) (fun i j => d2 i j z) (fun i => a1 i z) (fun i j => a2 i j z) i j = some d ∧
      PD2 (fun n => R * T * lnPhi R T P (v n) (m.b n) (m.delta n) (m.epsilon n) (m.a n) - (P * v n - R * T)) i j z d := by
  have hr := hv.regular z hz
  have hRT := (mul_pos hr.hR hr.hT).ne'
  refine ⟨_, d2A_eq hr.hP.ne' (sub_pos.mpr hr.hb).ne' hr.disc hr.q, ?_⟩
  have hh := (helm_j2 (R := R) (T := T) (family_physical hv) hRT (const_jet U P).j2 (volume_j2 hv hj) hj.b.j2 hj.d.j2 hj.e.j2 hj.a.j2).pd2 hv.isOpen hz i j
  simp only [helm_eq hRT] at hh
  exact hh

/-- **C116.** It fails for every van der Waals mixture, whose Helmholtz energy departure has second derivatives like any other: `1/sqrt(0)`. So do the functions at constant total volume. -/
theorem C116_helmholtz_fails (bs : Fin N → ℝ) (A : Fin N → Fin N → ℝ) (n : Fin N → ℝ) (R T P V : ℝ) (dV db deps ddelta da dPn : Fin N → ℝ) (d2Vs d2b d2eps d2delta d2a d2Pn : Fin N → Fin N → ℝ) (i j : Fin N) :
    d2A R T V ((vdwParams bs A).b n) ((vdwParams bs A).delta n) ((vdwParams bs A).epsilon n) ((vdwParams bs A).a n) dV d2Vs db d2b deps d2eps ddelta d2delta da d2a i j = none ∧
    dAVt R T P V ((vdwParams bs A).b n) ((vdwParams bs A).delta n) ((vdwParams bs A).epsilon n) ((vdwParams bs A).a n) db ddelta deps da dPn i = none ∧
    d2AVt R T P V ((vdwParams bs A).b n) ((vdwParams bs A).delta n) ((vdwParams bs A).epsilon n) ((vdwParams bs A).a n) db ddelta deps da dPn d2b d2delta d2eps d2a d2Pn i j = none := by
  simp [d2A, dAVt, d2AVt, vdwParams]

/-- Enthalpy departure: `P V - R T + (T da/dT - a) ∫ …` (`enth_eq`). -/
noncomputable def enth (R T P V delta epsilon a aT : ℝ) : ℝ := P * V - R * T + (T * aT - a) * hlog (2 * V + delta) (delta ^ 2 - 4 * epsilon)

/-- It is the departure stored by the code (C31, C32). -/
theorem enth_eq {f : Departure.Fluid} {T P V : ℝ} (h : f.Phys V) : (f.main T P V).H_dep = enth f.R T P V f.delta f.epsilon (f.a T) (f.a1 T) := by
  have ha := hlog_eq h.disc h.q
  have hr := Real.sqrt_pos.mpr h.disc
  have e0 : f.delta * f.delta - 2 * f.epsilon - 2 * f.epsilon = f.delta ^ 2 - 4 * f.epsilon := by ring
  have e1 : V + V + f.delta = 2 * V + f.delta := by ring
  have ex : Departure.x11of f.delta f.epsilon = 1 / √(f.delta ^ 2 - 4 * f.epsilon) := by
    simp only [Departure.x11of, e0, if_pos h.disc]
  simp only [Departure.Fluid.main, Departure.main, enth, ex, e1]
  rw [mul_comm (1 / √(f.delta ^ 2 - 4 * f.epsilon)) (2 * V + f.delta), ha]
  field_simp
  ring

/-- **C116.** `dH_dep_dzs`, `dG_dep_dzs`, `dS_dep_dzs`, and the energy and Helmholtz energy of `set_dnzs_derivatives_and_departures`: derivatives of the departures at constant temperature and pressure;
`aT` is the temperature derivative of the attraction. -/
theorem C116_departures (hv : Family U m R T P v) (hj : ParamJets U m b1 d1 e1 a1 b2 d2 e2 a2 b3 d3 e3 a3) (hz : z ∈ U) {aT : (Fin N → ℝ) → ℝ} {daT : Fin N → ℝ} (hT : ∀ i, PD aT i z (daT i)) (i : Fin N) :
    let V1 := fun i => vol1 m R T P v b1 d1 e1 a1 i z
    let Z := P * v z / (R * T)
    let dHs := dH R T P Z (m.delta z) (m.epsilon z) (m.a z) (aT z) V1 (fun i => d1 i z) (fun i => e1 i z) (fun i => a1 i z) daT
    let dGs := dHelper R T P (m.b z) (m.delta z) (m.epsilon z) (m.a z) Z (fun i => b1 i z) (fun i => e1 i z) (fun i => d1 i z) V1 (fun i => a1 i z) true
    let H := fun n => enth R T P (v n) (m.delta n) (m.epsilon n) (m.a n) (aT n)
    let G := fun n => R * T * lnPhi R T P (v n) (m.b n) (m.delta n) (m.epsilon n) (m.a n)
    let S := fun n => (H n - G n) / T
    PD H i z (dHs i) ∧ PD G i z (dGs i) ∧ PD S i z (dS T dHs dGs i) ∧ PD (fun n => H n - (P * v n - R * T)) i z (dHs i - P * V1 i) ∧
      PD (fun n => H n - (P * v n - R * T) - T * S n) i z (dHs i - P * V1 i - T * ((dGs i - dHs i) / -T)) := by
  intro V1 Z dHs dGs H G S
  have hr := hv.regular z hz
  have vj := (volume_j2 hv hj).d1 z hz i
  have cv := (volume_j2 hv hj).cv hz i i
  have cz := cv.z (hj.d.j2.cv hz i i)
  have cd := (hj.e.j2.cv hz i i).disc (hj.d.j2.cv hz i i)
  have ca : Cv (fun s => T * aT (Function.update z i s) - m.a (Function.update z i s)) (fun _ => 0) (z i) ⟨T * aT z - m.a z, 0, T * daT i - a1 i z, 0⟩ :=
    ⟨by simp, rfl, ((hT i).const_mul T).sub (hj.a.d1 z hz i), hasDerivAt_const _ _⟩
  have hH : PD H i z (dHs i) := by
    have ht := hd_att0 ca cz cd hr.disc hr.q
    have := ((vj.const_mul P).sub (PD.const (R * T))).add (F := fun n => P * v n - R * T) (G := fun n => (T * aT n - m.a n) * hlog (2 * v n + m.delta n) (m.delta n ^ 2 - 4 * m.epsilon n)) ht
    refine this.congr_d ?_
    simp only [dHs, Z, dH_eq hr.hR.ne' hr.hT.ne' hr.hP.ne' hr.disc hr.q, zPt, dPt, pt, V1]
    ring
  have hG : PD G i z (dGs i) := (gibbs_j2 hv hj ⟨z, hz⟩).d1 z hz i
  have hS : PD S i z (dS T dHs dGs i) := by
    have h := (hH.sub hG).mul_const (1 / T)
    refine (pd_congr h (Eventually.of_forall fun n => ?_)).congr_d ?_
    · simp only [S]; ring
    · simp only [dS]; ring
  have hU' : PD (fun n => H n - (P * v n - R * T)) i z (dHs i - P * V1 i) := (hH.sub ((vj.const_mul P).sub (PD.const (R * T)))).congr_d (by simp only [V1]; ring)
  refine ⟨hH, hG, hS, hU', (hU'.sub (hS.const_mul T)).congr_d ?_⟩
  simp only [dS]
  have := hr.hT.ne'
  field_simp
  ring

end ConstantTP

/-! ## Constant total volume -/

section ConstantVolume

variable {U : Set (Fin N → ℝ)} {m : Params N} {b1 d1 e1 a1 : Fin N → (Fin N → ℝ) → ℝ} {b2 d2 e2 a2 : Fin N → Fin N → (Fin N → ℝ) → ℝ} {b3 d3 e3 a3 : Fin N → Fin N → Fin N → (Fin N → ℝ) → ℝ}
  {R T Vt : ℝ} {z : Fin N → ℝ}

/-- Helmholtz energy departure of the amounts `n` in the total volume `Vt`, per mole, from the ideal gas at the same temperature and pressure. -/
noncomputable def helmVt (m : Params N) (R T Vt : ℝ) (n : Fin N → ℝ) : ℝ :=
  R * T * lnPhi R T (pTot m R T Vt n) (Vt / ∑ k, n k) (m.b n) (m.delta n) (m.epsilon n) (m.a n) - (pTot m R T Vt n * (Vt / ∑ k, n k) - R * T)

theorem physical_domain (hU : Physical U (pTot m R T Vt) (fun n => Vt / ∑ k, n k) m.b m.delta m.epsilon) (hs : ∀ n ∈ U, ∑ k, n k ≠ 0) : Domain U m Vt := by
  refine ⟨hU.isOpen, hs, fun n hn => (sub_pos.mpr (hU.w n hn)).ne', fun n hn => ?_⟩
  have := q_pos (hU.disc n hn) (hU.q n hn)
  intro h
  have : (2 * (Vt / ∑ k, n k) + m.delta n) ^ 2 - (m.delta n ^ 2 - 4 * m.epsilon n) = 4 * ((Vt / ∑ k, n k) ^ 2 + m.delta n * (Vt / ∑ k, n k) + m.epsilon n) := by ring
  rw [h] at this
  linarith

theorem vt_j2 (hs : ∀ n ∈ U, ∑ k, n k ≠ 0) : ∃ V1 V2, J2 U (fun n => Vt / ∑ k, n k) V1 V2 ∧ ∀ n ∈ U, ∑ k, n k = 1 → (∀ i, V1 i n = -Vt) ∧ ∀ i j, V2 i j n = 2 * Vt := by
  have h := ((total_jet U).inv hs).smul Vt
  refine ⟨_, _, ⟨fun n hn i => ?_, h.d2⟩, fun n hn h1 => ⟨fun i => ?_, fun i j => ?_⟩⟩
  · have := h.d1 n hn i
    simp only [mul_one_div] at this
    exact this
  · simp only [h1]; ring
  · simp only [h1]; ring

/-- **C116.** `dA_dep_dns_Vt` and `d2A_dep_dninjs_Vt`: first and second derivatives of the Helmholtz energy departure at constant temperature and total volume, at the pressure of the equation of state and
with the pressure derivatives of C115. The table of second derivatives is filled symmetrically, which is right when the second derivatives of the parameters are symmetric. -/
theorem C116_volume (hU : Physical U (pTot m R T Vt) (fun n => Vt / ∑ k, n k) m.b m.delta m.epsilon) (ht : ∀ n ∈ U, ∑ k, n k ≠ 0) (hR : 0 < R) (hT : 0 < T) (hVt : Vt ≠ 0)
    (hj : ParamJets U m b1 d1 e1 a1 b2 d2 e2 a2 b3 d3 e3 a3) (hz : z ∈ U) (hs : ∑ k, z k = 1)
    (sb : ∀ i j, b2 i j z = b2 j i z) (sd : ∀ i j, d2 i j z = d2 j i z) (se : ∀ i j, e2 i j z = e2 j i z) (sa : ∀ i j, a2 i j z = a2 j i z) (i j : Fin N) :
    let P := pTot m R T Vt z
    let P1 := dP R T Vt (m.b z) (m.delta z) (m.epsilon z) (m.a z) (fun i => b1 i z) (fun i => d1 i z) (fun i => e1 i z) (fun i => a1 i z)
    let P2 := d2P R T Vt (m.b z) (m.delta z) (m.epsilon z) (m.a z) (fun i => b1 i z) (fun i => d1 i z) (fun i => e1 i z) (fun i => a1 i z) (fun i j => b2 i j z) (fun i j => d2 i j z)
      (fun i j => e2 i j z) (fun i j => a2 i j z)
    (∃ d, dAVt R T P Vt (m.b z) (m.delta z) (m.epsilon z) (m.a z) (fun i => b1 i z) (fun i => d1 i z) (fun i => e1 i z) (fun i => a1 i z) P1 i = some d ∧ PD (helmVt m R T Vt) i z d) ∧
    ∃ d, d2AVt R T P Vt (m.b z) (m.delta z) (m.epsilon z) (m.a z) (fun i => b1 i z) (fun i => d1 i z) (fun i => e1 i z) (fun i => a1 i z) P1 (fun i j => b2 i j z) (fun i j => d2 i j z)
      (fun i j => e2 i j z) (fun i j => a2 i j z) P2 i j = some d ∧ PD2 (helmVt m R T Vt) i j z d := by
  intro P P1 P2
  have hRT := (mul_pos hR hT).ne'
  have hD := physical_domain hU ht
  obtain ⟨p1, p2, p3, hp, hpz⟩ := pTot_jet (R := R) (T := T) hD hj
  obtain ⟨c1, -, -⟩ := hpz z hz hs
  obtain ⟨V1, V2, hv, hvz⟩ := vt_j2 (Vt := Vt) ht
  obtain ⟨cv1, cv2⟩ := hvz z hz hs
  have hh := helm_j2 (R := R) (T := T) hU hRT hp.j2 hv hj.b.j2 hj.d.j2 hj.e.j2 hj.a.j2
  have ef : (fun n => helm R T (pTot m R T Vt n) (Vt / ∑ k, n k) (m.b n) (m.delta n) (m.epsilon n) (m.a n)) = helmVt m R T Vt := funext fun n => helm_eq hRT
  rw [ef] at hh
  have hP := (hU.p z hz).ne'
  have hw := hU.w z hz
  have hdisc := hU.disc z hz
  have hq := hU.q z hz
  rw [hs, div_one] at hw hq
  have c2 : ∀ i j, p2 i j z = P2 i j := fun i j => pd2_unique (hp.j2.pd2 hU.isOpen hz i j) ((C115_pressure (R := R) (T := T) hD hj hz hs sb sd se sa).2 i j)
  have hP2 : ∀ i j, P2 i j = P2 j i := by
    intro i j
    simp only [P2, d2P]
    rcases lt_trichotomy i j with h | h | h
    · rw [if_neg (not_le.mpr h), if_pos h.le]
    · rw [h]
    · rw [if_pos h.le, if_neg (not_le.mpr h)]
  refine ⟨⟨_, dAVt_eq hP hVt (sub_pos.mpr hw).ne' hdisc hq, (hh.d1 z hz i).congr_d ?_⟩, ?_⟩
  · simp only [hs, div_one, c1, cv1]; rfl
  · have e := d2AVt_eq (R := R) (T := T) (db := fun i => b1 i z) (ddelta := fun i => d1 i z) (deps := fun i => e1 i z) (da := fun i => a1 i z) (dPn := P1) (d2b := fun i j => b2 i j z)
      (d2delta := fun i j => d2 i j z) (d2eps := fun i j => e2 i j z) (d2a := fun i j => a2 i j z) (d2Pn := P2) (i := i) (j := j) (a := m.a z) hP hVt (sub_pos.mpr hw).ne' hdisc hq
    have hpd := hh.pd2 hU.isOpen hz i j
    simp only [pt, hs, div_one, c1, c2, cv1, cv2] at hpd
    refine ⟨_, if_neg (not_le.mpr hdisc), ?_⟩
    split_ifs with hij
    · rw [e]; exact hpd
    · have e' := d2AVt_eq (R := R) (T := T) (db := fun i => b1 i z) (ddelta := fun i => d1 i z) (deps := fun i => e1 i z) (da := fun i => a1 i z) (dPn := P1) (d2b := fun i j => b2 i j z)
        (d2delta := fun i j => d2 i j z) (d2eps := fun i j => e2 i j z) (d2a := fun i j => a2 i j z) (d2Pn := P2) (i := j) (j := i) (a := m.a z) hP hVt (sub_pos.mpr hw).ne' hdisc hq
      rw [e', helm2_swap hdisc hq, Pt.swap, Pt.swap, Pt.swap, Pt.swap, Pt.swap, Pt.swap]
      simp only [sb j i, sd j i, se j i, sa j i, hP2 j i]
      exact hpd

end ConstantVolume

/-! ## Fugacities -/

section Fugacity

variable {U : Set (Fin N → ℝ)} {F : (Fin N → ℝ) → ℝ} {F1 : Fin N → (Fin N → ℝ) → ℝ} {F2 : Fin N → Fin N → (Fin N → ℝ) → ℝ} {z : Fin N → ℝ} {P : ℝ}

/-- **C116.** `fugacity_coefficients` from the stored fugacity coefficient of the phase: the logarithmic fugacity coefficients are `∂(n ln φ)/∂n_i`; `F` is `ln φ` as a function of the mole numbers. -/
theorem C116_coefficients (h : ∀ i, PD F i z (F1 i z)) (hs : ∑ k, z k = 1) {Z phil phig : ℝ} {Zl : Option ℝ} (hl : Zl = some Z → phil = Real.exp (F z)) (hg : Zl ≠ some Z → phig = Real.exp (F z)) (i : Fin N) :
    PD (fun n => (∑ k, n k) * F n) i z (fugacityCoefficients Z Zl phil phig (fun i => F1 i z) i) := by
  refine ((pd_total z i).mul (h i)).congr_d ?_
  by_cases hc : Zl = some Z
  · simp only [fugacityCoefficients, if_pos hc, hl hc, Real.exp_pos, if_true, Real.log_exp, dnsToDnPartials, hs]; ring
  · simp only [fugacityCoefficients, if_neg hc, hg hc, Real.exp_pos, if_true, Real.log_exp, dnsToDnPartials, hs]; ring

/-- **C116.** A stored fugacity coefficient which has underflowed to zero is taken as `exp(-690.7755278982137)` (about 1e-300), in the phase it belongs to: the other phase does not matter. -/
theorem C116_underflow {Z phil phig : ℝ} {Zl : Option ℝ} {dlnphi : Fin N → ℝ} (i : Fin N) :
    (Zl = some Z → phil ≤ 0 → fugacityCoefficients Z Zl phil phig dlnphi i = -690.7755278982137 + dlnphi i) ∧
      (Zl ≠ some Z → phig ≤ 0 → fugacityCoefficients Z Zl phil phig dlnphi i = -690.7755278982137 + dlnphi i) := by
  constructor
  · intro h1 h2
    simp only [fugacityCoefficients, if_pos h1, if_neg (not_lt.mpr h2), dnsToDnPartials]
  · intro h1 h2
    simp only [fugacityCoefficients, if_neg h1, if_neg (not_lt.mpr h2), dnsToDnPartials]

example : fugacityCoefficients (N := 1) 0.1 (some 0.1) 0 1 (fun _ => 2) 0 = -690.7755278982137 + 2 := (C116_underflow 0).1 rfl le_rfl

/-- **C116.** `dlnphis_dns`: the derivatives of the logarithmic fugacity coefficients, from first and second derivatives of `ln φ`. -/
theorem C116_lnphis (hU : IsOpen U) (h : J2 U F F1 F2) (hz : z ∈ U) (hs : ∑ k, z k = 1) (i j : Fin N) :
    PD (fun n => F n + (∑ k, n k) * F1 i n) j z (d2nsToDn2 (fun i j => F2 i j z) (fun i => F1 i z) i j) ∧
    PD2 (fun n => (∑ k, n k) * F n) i j z (d2nsToDn2 (fun i j => F2 i j z) (fun i => F1 i z) i j) := by
  have h1 : PD (fun n => F n + (∑ k, n k) * F1 i n) j z (d2nsToDn2 (fun i j => F2 i j z) (fun i => F1 i z) i j) := by
    refine ((h.d1 z hz j).add ((pd_total z j).mul (h.d2 z hz i j))).congr_d ?_
    simp only [d2nsToDn2, hs]; ring
  refine ⟨h1, _, (hU.eventually_mem hz).mono fun y hy => ((pd_total y i).mul (h.d1 y hy i)).congr_d ?_, h1⟩
  ring

/-- **C116.** `dfugacities_dns` and `dlnfugacities_dns`: derivatives of the fugacities `x_i P φ_i` and their logarithms by mole numbers, `ln φ_i = ∂(n ln φ)/∂n_i`. The code reads the matrix of derivatives
transposed; second derivatives of `ln φ` are symmetric. -/
theorem C116_fugacities (h : J2 U F F1 F2) (hz : z ∈ U) (hs : ∑ k, z k = 1) (hsym : ∀ i j, F2 i j z = F2 j i z) (hP : 0 < P) (i j : Fin N) :
    let phis := fun i => Real.exp (F z + F1 i z)
    let f := fun i n => n i / (∑ k, n k) * P * Real.exp (F n + (∑ k, n k) * F1 i n)
    let m := d2nsToDn2 (fun i j => F2 i j z) (fun i => F1 i z)
    PD (f i) j z (dFug P z phis m i j) ∧ (0 < z i → PD (fun n => Real.log (f i n)) j z (dLnFug P z phis (fun i => f i z) m i j)) := by
  intro phis f m
  have hs' : ∑ k, z k ≠ 0 := by rw [hs]; exact one_ne_zero
  have hL : PD (fun n => F n + (∑ k, n k) * F1 i n) j z (m i j) := by
    refine ((h.d1 z hz j).add ((pd_total z j).mul (h.d2 z hz i j))).congr_d ?_
    simp only [m, d2nsToDn2, hs]; ring
  have hE := PD.comp (Real.hasDerivAt_exp _) hL
  have h1 : PD (f i) j z (dFug P z phis m i j) := by
    refine (((pd_frac hs' i j).mul_const P).mul hE).congr_d ?_
    simp only [dFug, phis, m, d2nsToDn2, hs, one_mul, div_one, one_pow, hsym j i]
    split_ifs <;> ring
  refine ⟨h1, fun hi => ?_⟩
  have hf : 0 < f i z := by simp only [f, hs, div_one]; positivity
  refine (PD.comp (Real.hasDerivAt_log hf.ne') h1).congr_d ?_
  simp only [dLnFug]
  ring

end Fugacity

section FugacityMixture

variable {U : Set (Fin N → ℝ)} {m : Params N} {b1 d1 e1 a1 : Fin N → (Fin N → ℝ) → ℝ} {b2 d2 e2 a2 : Fin N → Fin N → (Fin N → ℝ) → ℝ} {b3 d3 e3 a3 : Fin N → Fin N → Fin N → (Fin N → ℝ) → ℝ}
  {R T P : ℝ} {v : (Fin N → ℝ) → ℝ} {z : Fin N → ℝ}

/-- **C116.** The second derivatives of `ln φ` computed by the code are symmetric when those of the parameters are. -/
theorem C116_symmetric {V b delta epsilon a : ℝ} (dV db deps ddelta da : Fin N → ℝ) (d2b d2eps d2delta d2a : Fin N → Fin N → ℝ) (sb : ∀ i j, d2b i j = d2b j i) (sd : ∀ i j, d2delta i j = d2delta j i)
    (se : ∀ i j, d2eps i j = d2eps j i) (sa : ∀ i j, d2a i j = d2a j i) (hP : P ≠ 0) (hw : V - b ≠ 0) (h0 : 0 < delta ^ 2 - 4 * epsilon) (hq : √(delta ^ 2 - 4 * epsilon) < 2 * V + delta) (i j : Fin N) :
    let V2 := d2V R T V b delta epsilon a dV db deps ddelta da d2b d2eps d2delta d2a
    V2 i j = V2 j i ∧ ∀ G, d2G R T P V b delta epsilon a dV V2 db d2b deps d2eps ddelta d2delta da d2a G i j = d2G R T P V b delta epsilon a dV V2 db d2b deps d2eps ddelta d2delta da d2a G j i := by
  intro V2
  have hV : V2 i j = V2 j i := by
    simp only [V2, d2V, sb i j, sd i j, se i j, sa i j]
    congr 1
    ring
  have ht : d2G R T P V b delta epsilon a dV V2 db d2b deps d2eps ddelta d2delta da d2a true i j = d2G R T P V b delta epsilon a dV V2 db d2b deps d2eps ddelta d2delta da d2a true j i := by
    rw [d2G_eq hP hw h0 hq, d2G_eq hP hw h0 hq, hV, helm2_swap h0 hq]
    simp only [Pt.swap, sb i j, sd i j, se i j, sa i j]
  refine ⟨hV, fun G => ?_⟩
  cases G
  · exact congrArg (· * (1 / (T * R))) ht
  · exact ht

end FugacityMixture

/-! ## Pressure and temperature derivatives of the fugacity coefficients -/

section PT

variable {R T P b delta epsilon : ℝ} {V Vi : ℝ → ℝ} {db deps ddelta : Fin N → ℝ} {i : Fin N}

theorem cv_const (c ci t : ℝ) : Cv (fun _ => c) (fun _ => ci) t ⟨c, ci, 0, 0⟩ := ⟨rfl, rfl, hasDerivAt_const _ _, hasDerivAt_const _ _⟩

/-- The composition derivative of `ln φ` near a physical state. -/
theorem dHelper_near {t : ℝ} {Tf Pf a ai : ℝ → ℝ} (hV : ContinuousAt V t) (hT : ContinuousAt Tf t) (hP : ContinuousAt Pf t) (hR : R ≠ 0) (hT0 : Tf t ≠ 0) (hP0 : Pf t ≠ 0) (hw : b < V t)
    (h0 : 0 < delta ^ 2 - 4 * epsilon) (hq : √(delta ^ 2 - 4 * epsilon) < 2 * V t + delta) :
    ∀ᶠ s in 𝓝 t, dHelper R (Tf s) (Pf s) b delta epsilon (a s) (Pf s * V s / (R * Tf s)) db deps ddelta (fun _ => Vi s) (fun _ => ai s) false i =
      Pf s * Vi s / (R * Tf s) - (Vi s - db i) / (V s - b) - att1 (a s) (ai s) (2 * V s + delta) (2 * Vi s + ddelta i) (delta ^ 2 - 4 * epsilon) (2 * delta * ddelta i - 4 * deps i) / (R * Tf s) := by
  have hq2 : ∀ᶠ s in 𝓝 t, √(delta ^ 2 - 4 * epsilon) < 2 * V s + delta := ((continuousAt_const.mul hV).add continuousAt_const).eventually (lt_mem_nhds hq)
  filter_upwards [hV.eventually (lt_mem_nhds hw), hq2, hT.eventually_ne hT0, hP.eventually_ne hP0] with s h1 h2 h3 h4
  exact dHelper_eq hR h3 h4 (sub_pos.mpr h1).ne' h0 h2

/-- **C116.** `dlnphis_dP`: the pressure derivative, at constant temperature and composition, of the logarithmic fugacity coefficients of C55. `V` and `Vi` are the volume and its composition derivative as
functions of pressure, `Hd` and `Sd` the enthalpy and entropy departures, `VP`, `d2VP`, `dHP`, `dSP` their stored derivatives. -/
theorem C116_P {a VP dHP dSP : ℝ} {da dV d2VP : Fin N → ℝ} {Hd Sd : ℝ → ℝ} (hR : 0 < R) (hT : 0 < T) (hP : 0 < P) (hw : b < V P) (h0 : 0 < delta ^ 2 - 4 * epsilon)
    (hq : √(delta ^ 2 - 4 * epsilon) < 2 * V P + delta) (hV0 : V P ≠ 0) (hV : HasDerivAt V VP P) (hVi : HasDerivAt Vi (d2VP i) P) (hdV : Vi P = dV i)
    (hG : ∀ᶠ p in 𝓝 P, Hd p - T * Sd p = R * T * lnPhi R T p (V p) b delta epsilon a) (hH : HasDerivAt Hd dHP P) (hS : HasDerivAt Sd dSP P) :
    HasDerivAt (fun p => lnPhi R T p (V p) b delta epsilon a + dHelper R T p b delta epsilon a (p * V p / (R * T)) db deps ddelta (fun _ => Vi p) da false i)
      (dlnphisdP R T P (V P) b delta epsilon a VP (dGdP R T dHP dSP) dV d2VP ddelta deps da db i) P := by
  have hRT := (mul_pos hR hT).ne'
  have hl : HasDerivAt (fun p => lnPhi R T p (V p) b delta epsilon a) (dGdP R T dHP dSP) P := by
    have h := (hH.fun_sub (hS.const_mul T)).div_const (R * T)
    refine (h.congr_of_eventuallyEq ?_)
    filter_upwards [hG] with p hp
    rw [hp, mul_div_cancel_left₀ _ hRT]
  have cV : Cv V Vi P ⟨V P, dV i, VP, d2VP i⟩ := ⟨rfl, hdV, hV, hVi⟩
  have cd := cv_const delta (ddelta i) P
  have ce := cv_const epsilon (deps i) P
  have hatt := hd_att (cv_const a (da i) P) (cV.z cd) (ce.disc cd) h0 hq
  have hL := ((((hasDerivAt_id' P).fun_mul hVi).div_const (R * T)).fun_sub ((hVi.sub_const (db i)).fun_div (hV.sub_const b) (sub_pos.mpr hw).ne')).fun_sub (hatt.div_const (R * T))
  have hn := dHelper_near (R := R) (Tf := fun _ => T) (Pf := fun p => p) (a := fun _ => a) (ai := fun _ => da i) (db := db) (deps := deps) (ddelta := ddelta) (Vi := Vi) (i := i) hV.continuousAt
    continuousAt_const continuousAt_id hR.ne' hT.ne' hP.ne' hw h0 hq
  have h := hl.fun_add (hL.congr_of_eventuallyEq hn)
  refine HasDerivAt.congr_deriv h ?_
  have hq' := (q_pos h0 hq).ne'
  have hw' := (sub_pos.mpr hw).ne'
  have e1 : delta + 2 * V P = 2 * V P + delta := by ring
  simp only [dlnphisdP, if_neg h0.ne', hdV, att2, zPt, dPt, h2, h1, e1]
  generalize hlog (2 * V P + delta) (delta ^ 2 - 4 * epsilon) = H
  generalize dGdP R T dHP dSP = g
  generalize V P = v at *
  clear h hn hL hatt ce cd cV hl hG hH hS hV hVi hdV
  obtain ⟨D, hD⟩ : ∃ D, D = delta ^ 2 - 4 * epsilon := ⟨_, rfl⟩
  rw [← hD] at h0 hq' ⊢
  obtain ⟨y, hy⟩ : ∃ y, y = 2 * v + delta := ⟨_, rfl⟩
  rw [← hy] at hq' ⊢
  obtain ⟨q, hqq⟩ : ∃ q, q = y ^ 2 - D := ⟨_, rfl⟩
  have e3 : y ^ 2 * (1 / D) - 1 = q / D := by rw [hqq]; field_simp
  rw [← hqq] at hq'
  rw [e3, ← hqq]
  obtain ⟨W, hW⟩ : ∃ W, W = v - b := ⟨_, rfl⟩
  rw [← hW] at hw' ⊢
  have hd : delta = y - 2 * v := by rw [hy]; ring
  rw [hd]
  clear hd hy hD hW hq hw e3
  field_simp
  rw [hqq]
  ring

/-- **C116.** `dlnphis_dT`: the temperature derivative at constant pressure and composition. `a`, `ai` are the attraction and its composition derivative as functions of temperature. -/
theorem C116_T {aT VT dHT dST : ℝ} {a ai : ℝ → ℝ} {da daT dV d2VT : Fin N → ℝ} {Hd Sd : ℝ → ℝ} (hR : 0 < R) (hT : 0 < T) (hP : 0 < P) (hw : b < V T) (h0 : 0 < delta ^ 2 - 4 * epsilon)
    (hq : √(delta ^ 2 - 4 * epsilon) < 2 * V T + delta) (hV0 : V T ≠ 0) (hV : HasDerivAt V VT T) (hVi : HasDerivAt Vi (d2VT i) T) (hdV : Vi T = dV i) (ha : HasDerivAt a aT T)
    (hai : HasDerivAt ai (daT i) T) (hda : ai T = da i) (hG : ∀ᶠ t in 𝓝 T, Hd t - t * Sd t = R * t * lnPhi R t P (V t) b delta epsilon (a t)) (hH : HasDerivAt Hd dHT T) (hS : HasDerivAt Sd dST T) :
    HasDerivAt (fun t => lnPhi R t P (V t) b delta epsilon (a t) + dHelper R t P b delta epsilon (a t) (P * V t / (R * t)) db deps ddelta (fun _ => Vi t) (fun _ => ai t) false i)
      (dlnphisdT R T P (V T) b delta epsilon (a T) aT VT (dGdT R T (Hd T) (Sd T) dHT dST) dV d2VT ddelta deps da daT db i) T := by
  have hRT := (mul_pos hR hT).ne'
  have hl : HasDerivAt (fun t => lnPhi R t P (V t) b delta epsilon (a t)) (dGdT R T (Hd T) (Sd T) dHT dST) T := by
    have h := (hH.fun_sub ((hasDerivAt_id' T).fun_mul hS)).fun_div ((hasDerivAt_id' T).const_mul R) hRT
    refine (h.congr_of_eventuallyEq ?_).congr_deriv ?_
    · filter_upwards [hG, eventually_ne_nhds hT.ne'] with t ht ht0
      rw [ht, mul_div_cancel_left₀ _ (mul_ne_zero hR.ne' ht0)]
    · simp only [dGdT]
      field_simp
      ring
  have cV : Cv V Vi T ⟨V T, dV i, VT, d2VT i⟩ := ⟨rfl, hdV, hV, hVi⟩
  have ca : Cv a ai T ⟨a T, da i, aT, daT i⟩ := ⟨rfl, hda, ha, hai⟩
  have cd := cv_const delta (ddelta i) T
  have ce := cv_const epsilon (deps i) T
  have hatt := hd_att ca (cV.z cd) (ce.disc cd) h0 hq
  have hL := (((hVi.const_mul P).fun_div ((hasDerivAt_id' T).const_mul R) hRT).fun_sub ((hVi.sub_const (db i)).fun_div (hV.sub_const b) (sub_pos.mpr hw).ne')).fun_sub
    (hatt.fun_div ((hasDerivAt_id' T).const_mul R) hRT)
  have hn := dHelper_near (R := R) (Tf := fun t => t) (Pf := fun _ => P) (a := a) (ai := ai) (db := db) (deps := deps) (ddelta := ddelta) (Vi := Vi) (i := i) hV.continuousAt
    continuousAt_id continuousAt_const hR.ne' hT.ne' hP.ne' hw h0 hq
  have h := hl.fun_add (hL.congr_of_eventuallyEq hn)
  refine HasDerivAt.congr_deriv h ?_
  have hr := Real.sqrt_pos.mpr h0
  have hq' := (q_pos h0 hq).ne'
  have hw' := (sub_pos.mpr hw).ne'
  have hat := hlog_eq h0 hq
  have e0 : delta * delta - 4 * epsilon = delta ^ 2 - 4 * epsilon := by ring
  have e1 : delta + 2 * V T = 2 * V T + delta := by ring
  have e4 : 1 / √(delta ^ 2 - 4 * epsilon) * (2 * V T + delta) = (2 * V T + delta) * (1 / √(delta ^ 2 - 4 * epsilon)) := mul_comm _ _
  simp only [dlnphisdT, e0, if_neg h0.ne', hdV, hda, att1, att2, zPt, dPt, h2, h1, e1, e4, hat]
  generalize hlog (2 * V T + delta) (delta ^ 2 - 4 * epsilon) = H
  generalize dGdT R T (Hd T) (Sd T) dHT dST = g
  generalize V T = v at *
  generalize a T = α at *
  clear h hn hL hatt ce cd cV ca hl hG hH hS hV hVi hdV hat e0 e1 e4 ha hai hda
  have e2 : delta ^ 2 - 4 * epsilon = √(delta ^ 2 - 4 * epsilon) ^ 2 := (Real.sq_sqrt h0.le).symm
  generalize √(delta ^ 2 - 4 * epsilon) = r at *
  rw [e2] at hq' ⊢
  obtain ⟨y, hy⟩ : ∃ y, y = 2 * v + delta := ⟨_, rfl⟩
  rw [← hy] at hq' ⊢
  obtain ⟨q, hqq⟩ : ∃ q, q = y ^ 2 - r ^ 2 := ⟨_, rfl⟩
  have e3 : y ^ 2 * (1 / r ^ 2) - 1 = q / r ^ 2 := by rw [hqq]; field_simp
  rw [← hqq] at hq'
  rw [e3, ← hqq]
  obtain ⟨W, hW⟩ : ∃ W, W = v - b := ⟨_, rfl⟩
  rw [← hW] at hw' ⊢
  have hd : delta = y - 2 * v := by rw [hy]; ring
  rw [hd]
  clear hd hy hW hq hw e3 h0 e2
  field_simp
  rw [hqq]
  ring

end PT

/-! ## Examples -/

/-- A family of regular states whose volume, covolume, attraction and its temperature derivative vary with composition: hypotheses of `C116_gibbs`, `C116_helmholtz` and `C116_departures`; with the value of a
first derivative of the Gibbs energy departure. -/
example : ∃ (U : Set (Fin 2 → ℝ)) (m : Params 2) (v aT : (Fin 2 → ℝ) → ℝ) (z daT : Fin 2 → ℝ), Family U m 1 2 1 v ∧ z ∈ U ∧ ∑ k, z k = 1 ∧ m.a z = 15 / 4 ∧ (∀ i, PD aT i z (daT i)) ∧ daT 0 = -1 ∧
    ∃ b1 d1 e1 a1 b2 d2 e2 a2 b3 d3 e3 a3, ParamJets U m b1 d1 e1 a1 b2 d2 e2 a2 b3 d3 e3 a3 ∧ a1 0 z = 4 ∧ a2 0 0 z = 2 ∧ vol1 m 1 2 1 v b1 d1 e1 a1 0 z = 1 := by
  have hl : ∀ n : Fin 2 → ℝ, linz ![1, 0] n = n 0 := by intro n; simp [linz, Fin.sum_univ_two]
  let U : Set (Fin 2 → ℝ) := {n | 0 < n 0}
  let m : Params 2 := ⟨linz ![1, 0], fun _ => 1, fun _ => 0, fun n => (linz ![1, 0] n + 1) * (linz ![1, 0] n + 2)⟩
  have hU : IsOpen U := isOpen_lt continuous_const (continuous_apply 0)
  have jl := (linz_jet (![1, 0] : Fin 2 → ℝ)).mono (Set.subset_univ U)
  refine ⟨U, m, fun n => n 0 + 1, fun n => -n 0, ![1 / 2, 1 / 2], ![-1, 0], ⟨hU, by fun_prop, fun n hn => ?_⟩, ?_, by norm_num [Fin.sum_univ_two], ?_, ?_, rfl, _, _, _, _, _, _, _, _, _, _, _, _,
    ⟨jl, const_jet U 1, const_jet U 0, (jl.add (const_jet U 1)).mul (jl.add (const_jet U 2))⟩, ?_, ?_, ?_⟩
  · have h0 : 0 < n 0 := hn
    refine ⟨one_pos, two_pos, one_pos, by simp [m, hl], by norm_num [m], ?_, ?_, ?_⟩
    · have : √((1 : ℝ) ^ 2 - 4 * 0) = 1 := by norm_num
      simp only [m, this]; linarith
    · simp only [m, pressure, hl]
      have h1 : (n 0 + 1) ^ 2 + 1 * (n 0 + 1) + 0 ≠ 0 := by positivity
      field_simp; ring
    · simp only [m, hl]
      have e : -(1 * 2) / (n 0 + 1 - n 0) ^ 2 + (n 0 + 1) * (n 0 + 2) * (2 * (n 0 + 1) + 1) / ((n 0 + 1) ^ 2 + 1 * (n 0 + 1) + 0) ^ 2 =
          -(2 * (n 0) ^ 2 + 4 * n 0 + 1) / ((n 0 + 1) * (n 0 + 2)) := by
        have h2 : (n 0 + 1) ^ 2 + 1 * (n 0 + 1) + 0 = (n 0 + 1) * (n 0 + 2) := by ring
        have h3 : n 0 + 1 - n 0 = 1 := by ring
        rw [h2, h3]
        field_simp; ring
      rw [e]
      exact (div_neg_of_neg_of_pos (by nlinarith) (by positivity)).ne
  · show (0 : ℝ) < (![1 / 2, 1 / 2] : Fin 2 → ℝ) 0
    norm_num
  · simp only [m, hl]; norm_num
  · intro i
    refine (PD.coord 0 i _).neg.congr_d ?_
    fin_cases i <;> simp
  · simp only [hl]; norm_num
  · simp only [hl]; norm_num
  · simp only [vol1, dVdzs, m, hl]; norm_num

/-- Amounts in a fixed volume, with covolume and attraction proportional to the first amount: hypotheses of `C116_volume`. -/
example : ∃ (U : Set (Fin 2 → ℝ)) (m : Params 2) (z : Fin 2 → ℝ), Physical U (pTot m 1 2 4) (fun n => 4 / ∑ k, n k) m.b m.delta m.epsilon ∧ (∀ n ∈ U, ∑ k, n k ≠ 0) ∧ z ∈ U ∧ ∑ k, z k = 1 ∧
    ∃ b1 d1 e1 a1 b2 d2 e2 a2 b3 d3 e3 a3, ParamJets U m b1 d1 e1 a1 b2 d2 e2 a2 b3 d3 e3 a3 ∧ b1 0 z = 1 / 4 ∧ a1 0 z = 1 ∧ (∀ i j, b2 i j z = b2 j i z) ∧ (∀ i j, d2 i j z = d2 j i z) ∧
      (∀ i j, e2 i j z = e2 j i z) ∧ ∀ i j, a2 i j z = a2 j i z := by
  have hl : ∀ (c : ℝ) (n : Fin 2 → ℝ), linz ![c, 0] n = n 0 * c := by intro c n; simp [linz, Fin.sum_univ_two]
  let U : Set (Fin 2 → ℝ) := {n | 0 < n 0} ∩ {n | 0 < n 1} ∩ {n | n 0 + n 1 < 2}
  let m : Params 2 := ⟨linz ![1 / 4, 0], fun _ => 1, fun _ => 0, linz ![1, 0]⟩
  have hU : IsOpen U := ((isOpen_lt continuous_const (continuous_apply 0)).inter (isOpen_lt continuous_const (continuous_apply 1))).inter (isOpen_lt (by fun_prop) continuous_const)
  have hs : ∀ n ∈ U, 0 < ∑ k, n k := by
    intro n hn
    have h0 : 0 < n 0 := hn.1.1
    have h1 : 0 < n 1 := hn.1.2
    rw [Fin.sum_univ_two]; positivity
  have hV : ∀ n ∈ U, 2 < 4 / ∑ k, n k := by
    intro n hn
    have h2 : n 0 + n 1 < 2 := hn.2
    rw [lt_div_iff₀ (hs n hn), Fin.sum_univ_two]; linarith
  have hn0 : ∀ n ∈ U, 0 < n 0 ∧ n 0 < 2 := by
    intro n hn
    have h0 : 0 < n 0 := hn.1.1
    have h1 : 0 < n 1 := hn.1.2
    have h2 : n 0 + n 1 < 2 := hn.2
    exact ⟨h0, by linarith⟩
  refine ⟨U, m, ![1 / 2, 1 / 2], ⟨hU, fun n hn => ?_, fun n hn => ?_, fun n hn => by norm_num [m], fun n hn => ?_⟩, fun n hn => (hs n hn).ne', ?_, by norm_num [Fin.sum_univ_two], _, _, _, _, _, _, _, _, _, _, _, _,
    ⟨(linz_jet _).mono (Set.subset_univ U), const_jet U 1, const_jet U 0, (linz_jet _).mono (Set.subset_univ U)⟩, by simp, by simp, fun _ _ => rfl, fun _ _ => rfl, fun _ _ => rfl, fun _ _ => rfl⟩
  · obtain ⟨h0, h2⟩ := hn0 n hn
    have hv := hV n hn
    simp only [pTot, Params.p, pressure, m, hl]
    generalize 4 / ∑ k, n k = V at *
    have hw : 0 < V - n 0 * (1 / 4) := by linarith
    have hq : 0 < V ^ 2 + 1 * V + 0 := by positivity
    rw [sub_pos, div_lt_div_iff₀ hq hw]
    nlinarith
  · obtain ⟨h0, h2⟩ := hn0 n hn
    have hv := hV n hn
    simp only [m, hl]
    linarith
  · have hv := hV n hn
    have : √((1 : ℝ) ^ 2 - 4 * 0) = 1 := by norm_num
    simp only [m, this]
    linarith
  · exact ⟨⟨by simp, by simp⟩, by show (![1 / 2, 1 / 2] : Fin 2 → ℝ) 0 + (![1 / 2, 1 / 2] : Fin 2 → ℝ) 1 < 2; norm_num⟩

/-- `ln φ = n₀²`: hypotheses of `C116_coefficients`, `C116_lnphis` and `C116_fugacities`; an entry of the matrix of fugacity derivatives. -/
example : ∃ (F : (Fin 2 → ℝ) → ℝ) (F1 : Fin 2 → (Fin 2 → ℝ) → ℝ) (F2 : Fin 2 → Fin 2 → (Fin 2 → ℝ) → ℝ) (z : Fin 2 → ℝ), J2 Set.univ F F1 F2 ∧ ∑ k, z k = 1 ∧ (∀ i j, F2 i j z = F2 j i z) ∧ (∀ i, 0 < z i) ∧
    F z = 1 / 4 ∧ F1 0 z = 1 ∧ dFug 1 z (fun _ => 1) (d2nsToDn2 (fun i j => F2 i j z) fun i => F1 i z) 0 0 = 5 / 2 := by
  have h := (linz_jet (![1, 0] : Fin 2 → ℝ)).mul (linz_jet ![1, 0])
  refine ⟨_, _, _, ![1 / 2, 1 / 2], h.j2, by norm_num [Fin.sum_univ_two], ?_, ?_, ?_, ?_, ?_⟩
  · intro i j; fin_cases i <;> fin_cases j <;> simp [linz, Fin.sum_univ_two]
  · intro i; fin_cases i <;> simp
  all_goals norm_num [linz, Fin.sum_univ_two, dFug, d2nsToDn2]

/-- Volumes and departures as functions of pressure: hypotheses of `C116_P`. -/
example : ∃ (V Vi Hd Sd : ℝ → ℝ) (VP VPi dHP dSP : ℝ), (0 : ℝ) < V 1 ∧ 0 < (1 : ℝ) ^ 2 - 4 * 0 ∧ √((1 : ℝ) ^ 2 - 4 * 0) < 2 * V 1 + 1 ∧ HasDerivAt V VP 1 ∧ HasDerivAt Vi VPi 1 ∧ Vi 1 = 3 ∧ VPi = 3 ∧
    (∀ᶠ p in 𝓝 (1 : ℝ), Hd p - 1 * Sd p = 1 * 1 * lnPhi 1 1 p (V p) 0 1 0 2) ∧ HasDerivAt Hd dHP 1 ∧ HasDerivAt Sd dSP 1 ∧ dSP = 1 := by
  have hV : HasDerivAt (fun p : ℝ => p + 1) 1 1 := (hasDerivAt_id' 1).add_const 1
  have hs : √((1 : ℝ) ^ 2 - 4 * 0) = 1 := by norm_num
  have cp : Cv (fun p => p) (fun _ => 0) 1 ⟨1, 0, 1, 0⟩ := ⟨rfl, rfl, hasDerivAt_id' 1, hasDerivAt_const _ _⟩
  have cV : Cv (fun p : ℝ => p + 1) (fun _ => 0) 1 ⟨2, 0, 1, 0⟩ := ⟨by norm_num, rfl, hV, hasDerivAt_const _ _⟩
  have hh := hd_helm (R := 1) (T := 1) cp cV (cv_const 0 0 1) (cv_const 1 0 1) (cv_const 0 0 1) (cv_const 2 0 1) (by norm_num) (by norm_num) (by norm_num) (by norm_num) (by rw [hs]; norm_num)
  refine ⟨fun p => p + 1, fun p => 3 * p, fun p => p + (p * (p + 1) - 1 * 1 + helm 1 1 p (p + 1) 0 1 0 2), fun p => p, 1, 3, _, 1, by norm_num, by norm_num, by rw [hs]; norm_num, hV,
    by simpa using (hasDerivAt_id' (1 : ℝ)).const_mul 3, by norm_num, rfl, Eventually.of_forall fun p => ?_,
    (hasDerivAt_id' 1).fun_add ((((hasDerivAt_id' 1).fun_mul hV).fun_sub (hasDerivAt_const _ _)).fun_add hh), hasDerivAt_id' 1, rfl⟩
  simp only [helm_eq (R := 1) (T := 1) (by norm_num)]
  ring

/-- Volumes, attraction and departures as functions of temperature: hypotheses of `C116_T`. -/
example : ∃ (V Vi a ai Hd Sd : ℝ → ℝ) (VT VTi aT aTi dHT dST : ℝ), (0 : ℝ) < V 1 ∧ √((1 : ℝ) ^ 2 - 4 * 0) < 2 * V 1 + 1 ∧ HasDerivAt V VT 1 ∧ HasDerivAt Vi VTi 1 ∧ Vi 1 = 3 ∧ VTi = 3 ∧ HasDerivAt a aT 1 ∧
    HasDerivAt ai aTi 1 ∧ aT = -1 ∧ aTi = -2 ∧ (∀ᶠ t in 𝓝 (1 : ℝ), Hd t - t * Sd t = 1 * t * lnPhi 1 t 1 (V t) 0 1 0 (a t)) ∧ HasDerivAt Hd dHT 1 ∧ HasDerivAt Sd dST 1 ∧ dST = 1 := by
  have hV : HasDerivAt (fun p : ℝ => p + 1) 1 1 := (hasDerivAt_id' 1).add_const 1
  have ha : HasDerivAt (fun t : ℝ => 3 - t) (-1) 1 := by simpa using (hasDerivAt_id' (1 : ℝ)).const_sub 3
  have hs : √((1 : ℝ) ^ 2 - 4 * 0) = 1 := by norm_num
  have cV : Cv (fun p : ℝ => p + 1) (fun _ => 0) 1 ⟨2, 0, 1, 0⟩ := ⟨by norm_num, rfl, hV, hasDerivAt_const _ _⟩
  have ca : Cv (fun t : ℝ => 3 - t) (fun _ => 0) 1 ⟨2, 0, -1, 0⟩ := ⟨by norm_num, rfl, ha, hasDerivAt_const _ _⟩
  have hatt := hd_att0 ca (cV.z (cv_const 1 0 1)) ((cv_const 0 0 1).disc (cv_const 1 0 1)) (by norm_num [dPt]) (by simp only [dPt, zPt, hs]; norm_num)
  have hlg := (((hV.sub_const 0).const_mul 1).fun_div ((hasDerivAt_id' (1 : ℝ)).const_mul 1) (by norm_num)).log (by norm_num)
  refine ⟨fun p => p + 1, fun p => 3 * p, fun t => 3 - t, fun t => 2 * (1 - t), fun t => t * t + (1 * (t + 1) - 1 * t + (-(1 * t) * Real.log (1 * (t + 1 - 0) / (1 * t)) -
      (3 - t) * hlog (2 * (t + 1) + 1) (1 ^ 2 - 4 * 0))), fun t => t, 1, 3, -1, -2, _, 1, by norm_num, by rw [hs]; norm_num, hV, by simpa using (hasDerivAt_id' (1 : ℝ)).const_mul 3, by norm_num, rfl, ha,
    by simpa using ((hasDerivAt_id' (1 : ℝ)).const_sub 1).const_mul 2, rfl, rfl, ?_,
    ((hasDerivAt_id' 1).fun_mul (hasDerivAt_id' 1)).fun_add ((((hV.const_mul 1)).fun_sub ((hasDerivAt_id' 1).const_mul 1)).fun_add (((((hasDerivAt_id' 1).const_mul 1).fun_neg).fun_mul hlg).fun_sub hatt)),
    hasDerivAt_id' 1, rfl⟩
  filter_upwards [eventually_ne_nhds (one_ne_zero : (1 : ℝ) ≠ 0)] with t ht
  have := helm_eq (R := 1) (T := t) (P := 1) (V := t + 1) (b := 0) (delta := 1) (epsilon := 0) (a := 3 - t) (by simpa using ht)
  rw [helm] at this
  rw [this]
  ring

end Verif.MixDeparture
