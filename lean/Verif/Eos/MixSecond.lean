import Verif.Eos.LnPhi
import Verif.Eos.DerivProps
import Mathlib.Algebra.BigOperators.Field

/-!
# Second and third composition derivatives of volume and pressure (`thermo/eos_mix.py`)

* C115: `_d2V_dij_wrapper` (3364-3435), `dP_dns_Vt` (3765-3806), `d2P_dninjs_Vt` (3809-3878), `d3P_dninjnks_Vt` (3880-3970), `dScomp_dns` (4976-4991), `d2Scomp_dninjs` (4993-5019),
  `_d_main_derivatives_and_departures_dnx` (5065-5130), `_dnz_derivatives_and_departures` (5163-5306), and the conversions `dV_dns`, `dnV_dns`, `dZ_dzs`, `dZ_dns`, `dnZ_dns` (3312-3605).

Specification: partial derivatives (`PD`, `PD2`, `PD3`) with respect to mole numbers at a total of one mole, or mole fractions as independent variables. For pressures the total volume is fixed, for
volumes temperature and pressure. Real numbers; lists are functions on `Fin N`, entries of which are computed independently; numpy variants are not modelled. The parameters of the equation and their
derivatives (C41) are arbitrary here.

`dxs_to_dns`, `dxs_to_dn_partials` and `d2ns_to_dn2_partials` of `chemicals` are their documented formulas.
-/

namespace Verif.MixSecond

open Verif.Cubic Verif.LnPhi Verif.MixDerivs Filter Topology

variable {N : ℕ}

/-! ## The code -/

/-- `_d2V_dij_wrapper` (eos_mix.py 3364-3435), entry `i`, `j`. -/
noncomputable def d2V (R T V b delta epsilon a : ℝ) (dV db deps ddelta da : Fin N → ℝ) (d2b d2eps d2delta d2a : Fin N → Fin N → ℝ) (i j : Fin N) : ℝ :=
  let x0 := V
  let x3 := b
  let x4 := x0 - x3
  let x5 := epsilon
  let x6 := x0 * x0
  let x7 := delta
  let x8 := x0 * x7
  let x9 := x5 + x6 + x8
  let x10 := a
  let x11 := x10 * x4 * x4
  let x12 := x0 + x0
  let x13 := x9 * x9
  let x14 := R * T
  let x17 := x4 * x4 * x4
  let x18 := x10 * x17
  let x19 := 2 * x18
  let x22 := 4 * x18
  let x27 := x12 * x18
  let x33 := x14 * x13 * x9
  let x34 := x33 + x33
  let x37 := x19 * x8
  let x38 := x17 * x9
  let x39 := x10 * x38
  let x15 := deps i
  let x16 := deps j
  let x20 := x16 * x19
  let x21 := dV i
  let x24 := dV j
  let x23 := x21 * x22
  let x25 := x15 * x24
  let x26 := ddelta i
  let x28 := ddelta j
  let x29 := x21 * x24
  let x30 := 8 * x18 * x29
  let x31 := x28 * x6
  let x32 := x24 * x26
  let x35 := x34 * db j
  let x36 := db i
  let x40 := x38 * da i
  let x41 := x38 * da j
  let x42 := x21 * x41
  let x43 := x24 * x40
  let x44 := x21 * x39
  let d1 := d2delta i j
  let d2 := d2a i j
  let d3 := d2b i j
  let d4 := d2eps i j
  (x0 * x16 * x23 + x0 * x22 * x25 - x0 * x26 * x41 - x0 * x28 * x40
    - x0 * x39 * d1 - x12 * x42 - x12 * x43 + x13 * x17 * d2 + x15 * x20
    + x15 * x27 * x28 - x15 * x41 + x16 * x26 * x27 - x16 * x40
    + x19 * x25 * x7 + x19 * x26 * x31 + x19 * x29 * x7 ^ 2 + x20 * x21 * x7
    + x21 * x28 * x37 + x21 * x35 + x22 * x32 * x6 + x23 * x31
    + x24 * x34 * x36 - 2 * x24 * x44 - x28 * x44 - x29 * x34 + x30 * x6
    + x30 * x8 + x32 * x37 - x32 * x39 - x33 * x4 * d3 - x35 * x36
    - x39 * d4 - x42 * x7 - x43 * x7) / (x4 * x9 * (x11 * x12 + x11 * x7 - x13 * x14))

/-- `dP_dns_Vt` (3765-3806). -/
noncomputable def dP (R T Vt b delta epsilon a : ℝ) (db ddelta deps da : Fin N → ℝ) (i : Fin N) : ℝ :=
  let Vt2 := Vt * Vt
  let x9 := Vt2 + Vt * delta + epsilon
  let t1 := R * T * 1 / ((Vt - b) * (Vt - b))
  let t2 := 1 / x9
  let t3 := a * t2 * t2
  let t4 := t1 * Vt - t3 * (Vt * delta + Vt2 + Vt2)
  t4 + t1 * db i + t3 * (Vt * ddelta i + deps i) - t2 * da i

/-- `d2P_dninjs_Vt` (3809-3878), the value computed for `j ≤ i`. -/
noncomputable def d2PEntry (R T Vt b delta epsilon a : ℝ) (db ddelta deps da : Fin N → ℝ) (d2b d2delta d2eps d2a : Fin N → Fin N → ℝ) (i j : Fin N) : ℝ :=
  let x0 := a
  let x1 := epsilon
  let x2 := Vt * Vt
  let x5 := delta
  let x7 := x1 + x2 + x5 * Vt
  let x7_inv := 1 / x7
  let x9 := Vt - b
  let x11 := Vt + Vt
  let x12 := R * T
  let x13 := Vt
  let x14 := x7_inv * x7_inv
  let x16 := x2 + x2 + x13 * x5
  let t1 := x0 * x14
  let x9_inv := 1 / x9
  let x9_inv2 := x9_inv * x9_inv
  let x9_inv3 := x9_inv * x9_inv2
  let t2 := t1 * (x11 * x5 + 6 * x2) - x12 * x11 * x9_inv2
  let t3 := x12 * x9_inv2
  let t4 := 2 * x12 * x9_inv3
  let t5 := 2 * x0 * x7_inv * x7_inv * x7_inv
  let x15 := ddelta i
  let x17 := (-x15) * Vt + x16 - deps i
  let t50 := (-x13) * x15
  let t51 := t5 * x17
  let t52 := t4 * (x13 + db i)
  let t53 := x14 * x17
  let t54 := x14 * da i
  let t55 := t51 + t54
  let iadd := t1 * t50 + t52 * x13 - x16 * t55
  let x18 := ddelta j
  let x19 := x18 * Vt + deps j
  t2 + iadd + t1 * (Vt * d2delta i j + d2eps i j - x13 * x18) + t52 * db j - t53 * da j + t55 * x19 + t3 * d2b i j - x7_inv * d2a i j

/-- `d2P_dninjs_Vt`: each pair is computed once and written to both places (3877). -/
noncomputable def d2P (R T Vt b delta epsilon a : ℝ) (db ddelta deps da : Fin N → ℝ) (d2b d2delta d2eps d2a : Fin N → Fin N → ℝ) (i j : Fin N) : ℝ :=
  if j ≤ i then d2PEntry R T Vt b delta epsilon a db ddelta deps da d2b d2delta d2eps d2a i j else d2PEntry R T Vt b delta epsilon a db ddelta deps da d2b d2delta d2eps d2a j i

/-- `d3P_dninjnks_Vt` (3880-3970), entry `i`, `j`, `k`; `x1 = 1` is left out. `l` is the index of `ε` in `x28` (3939), which belongs to the third variable. -/
noncomputable def d3PWith (R T Vt b delta epsilon a : ℝ) (db ddelta deps da : Fin N → ℝ) (d2b d2delta d2eps d2a : Fin N → Fin N → ℝ) (d3b d3delta d3eps d3a : Fin N → Fin N → Fin N → ℝ)
    (i j k l : Fin N) : ℝ :=
  let x0 := b
  let x2 := Vt
  let x3 := (-x0) + x2
  let x4 := 6
  let x5 := Vt * x4
  let x6 := R * T
  let x7 := a
  let x8 := epsilon
  let x9 := Vt ^ 2
  let x11 := delta
  let x12 := x9 + x11 * x2 + x8
  let x13 := 2
  let x14 := Vt * x13
  let x15 := Vt
  let x16 := x6 * (x15 + db k)
  let x17 := 2 / x3 ^ 3
  let x18 := x15 + db j
  let x19 := x17 * x6
  let x20 := x15 + db i
  let x21 := 1 / x12 ^ 2
  let x22 := ddelta i
  let x23 := x11 * x15 + x13 * x9
  let x24 := (-x2) * x22 + x23 - deps i
  let x25 := ddelta j
  let x26 := (-x2) * x25 + x23 - deps j
  let x27 := ddelta k
  let x28 := (-x2) * x27 + x23 - deps l
  let x29 := da k
  let x30 := d2delta i j
  let x31 := (-x15) * x25
  let x32 := x4 * x9
  let x33 := x11 * x14
  let x34 := (-x15) * x22 + x32 + x33
  let x35 := x2 * x30 + x31 + x34 + d2eps i j
  let x36 := da j
  let x37 := d2delta i k
  let x38 := (-x15) * x27
  let x39 := x2 * x37 + x34 + x38 + d2eps i k
  let x40 := da i
  let x41 := d2delta j k
  let x42 := x2 * x41 + x31 + x32 + x33 + x38 + d2eps j k
  let x43 := 2 / x12 ^ 3
  let x44 := x24 * x26
  let x45 := x28 * x43
  let x46 := x43 * x7
  (-x16) * x17 * (x14 - d2b i j) + 6 * x16 * x18 * x20 / x3 ^ 4 - x18 * x19 * (x14 - d2b i k)
    - x19 * x20 * (x14 - d2b j k) - x21 * x24 * d2a j k
    - x21 * x26 * d2a i k - x21 * x28 * d2a i j
    + x21 * x29 * x35 + x21 * x36 * x39 + x21 * x40 * x42
    - x21 * x7 * (x11 * x5 - x14 * x22 - x14 * x25 - x14 * x27 + x15 * x30 + x15 * x37 + x15 * x41
      - x2 * d3delta i j k - d3eps i j k + 24 * x9)
    - x24 * x36 * x45 + x24 * x42 * x46 + x26 * x39 * x46 - x26 * x40 * x45 - x29 * x43 * x44 + x35 * x45 * x7
    + x6 * (x5 + d3b i j k) / x3 ^ 2 - d3a i j k / x12 - 6 * x28 * x44 * x7 / x12 ^ 4

/-- `d3P_dninjnks_Vt`: the code takes `ε_j` in `x28` (3939). -/
noncomputable def d3P (R T Vt b delta epsilon a : ℝ) (db ddelta deps da : Fin N → ℝ) (d2b d2delta d2eps d2a : Fin N → Fin N → ℝ) (d3b d3delta d3eps d3a : Fin N → Fin N → Fin N → ℝ)
    (i j k : Fin N) : ℝ := d3PWith R T Vt b delta epsilon a db ddelta deps da d2b d2delta d2eps d2a d3b d3delta d3eps d3a i j k j

/-- Derivatives along the composition: the five lists of `_d_main_derivatives_and_departures_dnx` (5065-5130). -/
structure Main where
  PT : ℝ
  PV : ℝ
  PTT : ℝ
  PVV : ℝ
  PTV : ℝ

/-- `_d_main_derivatives_and_departures_dnx` (5065-5130), entry `i`. -/
noncomputable def mainDn (R T V b delta epsilon a aT aTT : ℝ) (db ddelta deps da daT daTT dV : Fin N → ℝ) (i : Fin N) : Main :=
  let x0 := a
  let x2 := epsilon
  let x3 := V
  let x4 := delta
  let x5 := x2 + x3 ^ 2 + x3 * x4
  let x6 := 1 / x5
  let x7 := b
  let x8 := x3 - x7
  let x14 := 1 / x5 ^ 2
  let x15 := aT
  let x16 := x14 * x15
  let x18 := 2 * x3 + x4
  let x23 := 1 / x5 ^ 3
  let x24 := 2 * x23
  let x27 := x18 ^ 2
  let x28 := x18 * x24
  let x1 := daT i
  let x9 := dV i
  let x10 := R * (x9 - db i)
  let x17 := 2 * x10 / x8 ^ 3
  let x12 := 2 * x9
  let x11 := ddelta i
  let x21 := x11 + x12
  let x22 := x0 * x21
  let x13 := x11 * x3 + x12 * x3 + x4 * x9 + deps i
  let x25 := x0 * x13
  let x26 := x24 * x25
  let x19 := da i
  let x20 := x14 * x19
  ⟨(-x1) * x6 - x10 / x8 ^ 2 + x13 * x16, T * x17 + x14 * x22 + x18 * x20 - x18 * x26, x6 * (x13 * x6 * aTT - daTT i),
    (-6) * T * x10 / x8 ^ 4 - 2 * x19 * x23 * x27 + 2 * x20 - 2 * x22 * x28 + 6 * x25 * x27 / x5 ^ 4 - 2 * x26, x1 * x14 * x18 - x13 * x15 * x28 + x16 * x21 + x17⟩

/-- The further derivatives of `_dnz_derivatives_and_departures` (5203-5298). -/
structure More where
  VT : ℝ
  VP : ℝ
  TV : ℝ
  TP : ℝ
  TPP : ℝ
  VPP : ℝ
  TVV : ℝ
  VTT : ℝ
  TPV : ℝ
  VPT : ℝ

/-- `_dnz_derivatives_and_departures` (5203-5298), entry `i`: `p` are the derivatives of the pressure, `VT` that of the volume, `d` those along the composition. -/
noncomputable def moreDn (p : Main) (VT : ℝ) (d : Main) : More :=
  let d2V_dTdn := p.PT * d.PV / p.PV ^ 2 - d.PT / p.PV
  let second (f df g dg h dh k dk j dj : ℝ) : ℝ :=
    (f * g ^ 2 * dg - g ^ 3 * df + 2 * g ^ 2 * h * dk + 2 * g ^ 2 * k * dh - g * h ^ 2 * dj - 4 * g * h * k * dg - 2 * g * h * j * dh + 3 * h ^ 2 * j * dg) / g ^ 4
  let mixed (f df g dg h dh k dk j dj : ℝ) : ℝ := 3 * (f * g - h * k) * dj / j ^ 4 - (f * dg + g * df - h * dk - k * dh) / j ^ 3
  { VT := d2V_dTdn
    VP := VT * d.PT / p.PT ^ 2 - d2V_dTdn / p.PT
    TV := -d2V_dTdn / VT ^ 2
    TP := -d.PT / p.PT ^ 2
    TPP := 3 * p.PTT * d.PT / p.PT ^ 4 - d.PTT / p.PT ^ 3
    VPP := 3 * p.PVV * d.PV / p.PV ^ 4 - d.PVV / p.PV ^ 3
    TVV := second p.PVV d.PVV p.PT d.PT p.PV d.PV p.PTV d.PTV p.PTT d.PTT
    VTT := second p.PTT d.PTT p.PV d.PV p.PT d.PT p.PTV d.PTV p.PVV d.PVV
    TPV := mixed p.PTV d.PTV p.PT d.PT p.PV d.PV p.PTT d.PTT p.PT d.PT
    VPT := mixed p.PTV d.PTV p.PV d.PV p.PT d.PT p.PVV d.PVV p.PV d.PV }

/-- `dScomp_dns` (4976-4991). -/
noncomputable def dScomp (R T P : ℝ) (zs dPn : Fin N → ℝ) (i : Fin N) : ℝ :=
  let mRT := -R * T
  let tot := ∑ k, zs k * Real.log (zs k)
  let const := R * T / P
  mRT * (tot - Real.log (zs i)) + const * dPn i

/-- `d2Scomp_dninjs` (4993-5019). -/
noncomputable def d2Scomp (R T P : ℝ) (zs dPn : Fin N → ℝ) (d2Pn : Fin N → Fin N → ℝ) (i j : Fin N) : ℝ :=
  let RT := R * T
  let const := RT / P
  let t := ∑ k, (2 * zs k * Real.log (zs k) + 3 * zs k)
  let v := if i ≠ j then RT * (t - Real.log (zs i) - Real.log (zs j) - 4) else RT * (t - 2 * Real.log (zs i) - 3 - (zs i - 1) / zs i)
  v + const * (d2Pn i j - dPn i * dPn j / P)

/-- `dxs_to_dns` of `chemicals`. -/
noncomputable def dxsToDns (dxs xs : Fin N → ℝ) (i : Fin N) : ℝ := dxs i - ∑ j, xs j * dxs j

/-- `dxs_to_dn_partials` of `chemicals`. -/
noncomputable def dxsToDnPartials (dxs xs : Fin N → ℝ) (F : ℝ) (i : Fin N) : ℝ := F + dxs i - ∑ j, xs j * dxs j

/-- `d2ns_to_dn2_partials` of `chemicals`. -/
noncomputable def d2nsToDn2 (d2 : Fin N → Fin N → ℝ) (d : Fin N → ℝ) (i j : Fin N) : ℝ := d i + d j + d2 i j

/-- `dV_dns` (3312-3335). -/
noncomputable def dVdns (R T P Z b delta epsilon a : ℝ) (db ddelta deps da zs : Fin N → ℝ) : Fin N → ℝ := dxsToDns (dVdzs R T P Z b delta epsilon a db ddelta deps da) zs

/-- `dZ_dzs` (3531-3555). -/
noncomputable def dZdzs (R T P Z b delta epsilon a : ℝ) (db ddelta deps da : Fin N → ℝ) (i : Fin N) : ℝ := dVdzs R T P Z b delta epsilon a db ddelta deps da i * (P / (T * R))

/-! ## Jets -/

theorem pd_pow {F : (Fin N → ℝ) → ℝ} {j : Fin N} {x : Fin N → ℝ} {d : ℝ} (h : PD F j x d) (p : ℕ) : PD (fun n => F n ^ p) j x (p * F x ^ (p - 1) * d) :=
  PD.comp (f := fun s => s ^ p) (hasDerivAt_pow p (F x)) h

theorem _root_.Verif.MixDerivs.Jet.inv {U : Set (Fin N → ℝ)} {F : (Fin N → ℝ) → ℝ} {F1 : Fin N → (Fin N → ℝ) → ℝ} {F2 : Fin N → Fin N → (Fin N → ℝ) → ℝ} {F3 : Fin N → Fin N → Fin N → (Fin N → ℝ) → ℝ}
    (h : Jet U F F1 F2 F3) (h0 : ∀ n ∈ U, F n ≠ 0) : Jet U (fun n => 1 / F n) (fun i n => -F1 i n / F n ^ 2) (fun i j n => -F2 i j n / F n ^ 2 + 2 * F1 i n * F1 j n / F n ^ 3)
      (fun i j k n => -F3 i j k n / F n ^ 2 + 2 * (F2 i j n * F1 k n + F2 i k n * F1 j n + F2 j k n * F1 i n) / F n ^ 3 - 6 * F1 i n * F1 j n * F1 k n / F n ^ 4) := by
  refine ⟨fun n hn i => ?_, fun n hn i j => ?_, fun n hn i j k => ?_⟩ <;> have hF := h0 n hn
  · exact ((PD.const 1).div (h.d1 n hn i) hF).congr_d (by ring)
  · refine ((h.d2 n hn i j).neg.div (pd_pow (h.d1 n hn j) 2) (pow_ne_zero 2 hF)).congr_d ?_
    simp only [Nat.add_one_sub_one, pow_one, Nat.cast_ofNat]
    field_simp
    ring
  · refine (((h.d3 n hn i j k).neg.div (pd_pow (h.d1 n hn k) 2) (pow_ne_zero 2 hF)).add
      ((((h.d2 n hn i k).const_mul 2).mul (h.d2 n hn j k)).div (pd_pow (h.d1 n hn k) 3) (pow_ne_zero 3 hF))).congr_d ?_
    simp only [Nat.add_one_sub_one, pow_one, Nat.cast_ofNat, Nat.reduceSub]
    field_simp
    ring

theorem total_jet (U : Set (Fin N → ℝ)) : Jet U (fun n => ∑ m, n m) (fun _ _ => 1) (fun _ _ _ => 0) (fun _ _ _ _ => 0) :=
  ⟨fun n _ i => pd_total n i, fun _ _ _ _ => PD.const _, fun _ _ _ _ _ => PD.const _⟩

theorem _root_.Verif.MixDerivs.Jet.neg {U : Set (Fin N → ℝ)} {F : (Fin N → ℝ) → ℝ} {F1 : Fin N → (Fin N → ℝ) → ℝ} {F2 : Fin N → Fin N → (Fin N → ℝ) → ℝ} {F3 : Fin N → Fin N → Fin N → (Fin N → ℝ) → ℝ}
    (h : Jet U F F1 F2 F3) : Jet U (fun n => -F n) (fun i n => -F1 i n) (fun i j n => -F2 i j n) (fun i j k n => -F3 i j k n) :=
  ⟨fun n hn i => (h.d1 n hn i).neg, fun n hn i j => (h.d2 n hn i j).neg, fun n hn i j k => (h.d3 n hn i j k).neg⟩

theorem pd_congr {F G : (Fin N → ℝ) → ℝ} {j : Fin N} {x : Fin N → ℝ} {d : ℝ} (h : PD F j x d) (he : ∀ᶠ y in 𝓝 x, G y = F y) : PD G j x d :=
  HasDerivAt.congr_of_eventuallyEq h ((update_tendsto x j).eventually he)

theorem pd2_unique {F : (Fin N → ℝ) → ℝ} {i j : Fin N} {x : Fin N → ℝ} {d e : ℝ} (h1 : PD2 F i j x d) (h2 : PD2 F i j x e) : d = e := by
  obtain ⟨g, hg, hd⟩ := h1
  obtain ⟨k, hk, he⟩ := h2
  refine PD.unique hd (pd_congr he ?_)
  filter_upwards [hg, hk] with y a b using PD.unique a b

theorem pd3_unique {F : (Fin N → ℝ) → ℝ} {i j k : Fin N} {x : Fin N → ℝ} {d e : ℝ} (h1 : PD3 F i j k x d) (h2 : PD3 F i j k x e) : d = e := by
  obtain ⟨g, hg, hd⟩ := h1
  obtain ⟨l, hl, he⟩ := h2
  refine PD.unique hd (pd_congr he ?_)
  filter_upwards [hg, hl] with y a b using pd2_unique a b

theorem _root_.Verif.MixDerivs.Jet.mono {U W : Set (Fin N → ℝ)} {F : (Fin N → ℝ) → ℝ} {F1 : Fin N → (Fin N → ℝ) → ℝ} {F2 : Fin N → Fin N → (Fin N → ℝ) → ℝ} {F3 : Fin N → Fin N → Fin N → (Fin N → ℝ) → ℝ}
    (h : Jet U F F1 F2 F3) (hW : W ⊆ U) : Jet W F F1 F2 F3 := ⟨fun n hn => h.d1 n (hW hn), fun n hn => h.d2 n (hW hn), fun n hn => h.d3 n (hW hn)⟩

/-! ## Pressure at constant total volume -/

section Pressure

variable {U : Set (Fin N → ℝ)} {m : Params N} {b1 d1 e1 a1 : Fin N → (Fin N → ℝ) → ℝ} {b2 d2 e2 a2 : Fin N → Fin N → (Fin N → ℝ) → ℝ} {b3 d3 e3 a3 : Fin N → Fin N → Fin N → (Fin N → ℝ) → ℝ}
  {R T Vt : ℝ} {z : Fin N → ℝ}

/-- Pressure of the amounts `n` in the total volume `Vt`. -/
noncomputable def pTot (m : Params N) (R T Vt : ℝ) (n : Fin N → ℝ) : ℝ := m.p R T n (Vt / ∑ k, n k)

/-- What is assumed about the set of compositions: open, with a total that is not zero, and no pole of the equation of state. -/
structure Domain (U : Set (Fin N → ℝ)) (m : Params N) (Vt : ℝ) : Prop where
  isOpen : IsOpen U
  total : ∀ n ∈ U, ∑ k, n k ≠ 0
  w : ∀ n ∈ U, Vt / (∑ k, n k) - m.b n ≠ 0
  q : ∀ n ∈ U, (Vt / ∑ k, n k) ^ 2 + m.delta n * (Vt / ∑ k, n k) + m.epsilon n ≠ 0

/-- The derivatives of the parameters. -/
structure ParamJets (U : Set (Fin N → ℝ)) (m : Params N) (b1 d1 e1 a1 : Fin N → (Fin N → ℝ) → ℝ) (b2 d2 e2 a2 : Fin N → Fin N → (Fin N → ℝ) → ℝ)
    (b3 d3 e3 a3 : Fin N → Fin N → Fin N → (Fin N → ℝ) → ℝ) : Prop where
  b : Jet U m.b b1 b2 b3
  d : Jet U m.delta d1 d2 d3
  e : Jet U m.epsilon e1 e2 e3
  a : Jet U m.a a1 a2 a3

/-- The pressure with its derivatives, by the product and quotient rules. -/
theorem pTot_jet (hU : Domain U m Vt) (hj : ParamJets U m b1 d1 e1 a1 b2 d2 e2 a2 b3 d3 e3 a3) : ∃ P1 P2 P3, Jet U (pTot m R T Vt) P1 P2 P3 ∧ ∀ n ∈ U, ∑ k, n k = 1 →
    (∀ i, P1 i n = dP R T Vt (m.b n) (m.delta n) (m.epsilon n) (m.a n) (fun i => b1 i n) (fun i => d1 i n) (fun i => e1 i n) (fun i => a1 i n) i) ∧
    (∀ i j, P2 i j n = d2PEntry R T Vt (m.b n) (m.delta n) (m.epsilon n) (m.a n) (fun i => b1 i n) (fun i => d1 i n) (fun i => e1 i n) (fun i => a1 i n) (fun i j => b2 i j n) (fun i j => d2 i j n)
      (fun i j => e2 i j n) (fun i j => a2 i j n) i j) ∧
    (∀ i j k, P3 i j k n = d3PWith R T Vt (m.b n) (m.delta n) (m.epsilon n) (m.a n) (fun i => b1 i n) (fun i => d1 i n) (fun i => e1 i n) (fun i => a1 i n) (fun i j => b2 i j n)
      (fun i j => d2 i j n) (fun i j => e2 i j n) (fun i j => a2 i j n) (fun i j k => b3 i j k n) (fun i j k => d3 i j k n) (fun i j k => e3 i j k n) (fun i j k => a3 i j k n) i j k k) := by
  have hv := ((total_jet U).inv hU.total).smul Vt
  have hw := hv.add hj.b.neg
  have hq := ((hv.mul hv).add (hj.d.mul hv)).add hj.e
  have hw0 : ∀ n ∈ U, Vt * (1 / ∑ k, n k) + -m.b n ≠ 0 := by
    intro n hn; have := hU.w n hn; rwa [mul_one_div, ← sub_eq_add_neg]
  have hq0 : ∀ n ∈ U, Vt * (1 / ∑ k, n k) * (Vt * (1 / ∑ k, n k)) + m.delta n * (Vt * (1 / ∑ k, n k)) + m.epsilon n ≠ 0 := by
    intro n hn; have := hU.q n hn; rwa [mul_one_div, ← sq]
  have hp := ((hw.inv hw0).smul (R * T)).add (hj.a.mul (hq.inv hq0)).neg
  refine ⟨_, _, _, ⟨fun n hn i => ?_, hp.d2, hp.d3⟩, fun n hn hs => ⟨fun i => ?_, fun i j => ?_, fun i j k => ?_⟩⟩
  · have e : pTot m R T Vt = fun n => R * T * (1 / (Vt * (1 / ∑ k, n k) + -m.b n)) + -(m.a n * (1 / (Vt * (1 / ∑ k, n k) * (Vt * (1 / ∑ k, n k)) + m.delta n * (Vt * (1 / ∑ k, n k)) + m.epsilon n))) := by
      funext n
      simp only [pTot, Params.p, pressure, mul_one_div, ← sub_eq_add_neg, sq]
    rw [e]
    exact hp.d1 n hn i
  all_goals
    have h1 := hU.w n hn
    have h2 := hU.q n hn
    rw [hs, div_one] at h1 h2
    obtain ⟨w, hw'⟩ : ∃ w, w = Vt - m.b n := ⟨_, rfl⟩
    obtain ⟨q, hq'⟩ : ∃ q, q = Vt ^ 2 + m.delta n * Vt + m.epsilon n := ⟨_, rfl⟩
    rw [← hw'] at h1
    rw [← hq'] at h2
    have f1 : Vt + -m.b n = w := by rw [hw']; ring
    have f2 : Vt * Vt + m.delta n * Vt + m.epsilon n = q := by rw [hq']; ring
    simp only [hs, div_one, mul_one, one_pow, f1, f2]
  · have g1 : Vt * Vt + Vt * m.delta n + m.epsilon n = q := by rw [hq']; ring
    simp only [dP, g1, ← hw']
    clear f1 f2 g1 hw' hq' hw hv hq hw0 hq0 hp
    field_simp
    ring
  · have g1 : m.epsilon n + Vt * Vt + m.delta n * Vt = q := by rw [hq']; ring
    simp only [d2PEntry, g1, ← hw']
    clear f1 f2 g1 hw' hq' hw hv hq hw0 hq0 hp
    field_simp
    ring
  · have g1 : Vt ^ 2 + m.delta n * Vt + m.epsilon n = q := by rw [hq']
    have g2 : -m.b n + Vt = w := by rw [hw']; ring
    simp only [d3PWith, g1, g2]
    clear f1 f2 g1 g2 hw' hq' hw hv hq hw0 hq0 hp
    field_simp
    ring

/-- **C115.** First and second derivatives of the pressure at constant total volume; the table of second derivatives is filled symmetrically, which is right when the parameters' second derivatives are symmetric. -/
theorem C115_pressure (hU : Domain U m Vt) (hj : ParamJets U m b1 d1 e1 a1 b2 d2 e2 a2 b3 d3 e3 a3) (hz : z ∈ U) (hs : ∑ k, z k = 1)
    (sb : ∀ i j, b2 i j z = b2 j i z) (sd : ∀ i j, d2 i j z = d2 j i z) (se : ∀ i j, e2 i j z = e2 j i z) (sa : ∀ i j, a2 i j z = a2 j i z) :
    (∀ i, PD (pTot m R T Vt) i z (dP R T Vt (m.b z) (m.delta z) (m.epsilon z) (m.a z) (fun i => b1 i z) (fun i => d1 i z) (fun i => e1 i z) (fun i => a1 i z) i)) ∧
    (∀ i j, PD2 (pTot m R T Vt) i j z (d2P R T Vt (m.b z) (m.delta z) (m.epsilon z) (m.a z) (fun i => b1 i z) (fun i => d1 i z) (fun i => e1 i z) (fun i => a1 i z) (fun i j => b2 i j z)
      (fun i j => d2 i j z) (fun i j => e2 i j z) (fun i j => a2 i j z) i j)) := by
  obtain ⟨P1, P2, P3, h, hP⟩ := pTot_jet (R := R) (T := T) hU hj
  obtain ⟨h1, h2, -⟩ := hP z hz hs
  refine ⟨fun i => (h.d1 z hz i).congr_d (h1 i), fun i j => ?_⟩
  have := h.pd2 hU.isOpen hz i j
  rw [h2] at this
  unfold d2P
  split_ifs with hij
  · exact this
  · convert this using 1
    simp only [d2PEntry, sb i j, sd i j, se i j, sa i j]
    ring

/-- **C115.** Third derivatives, when the derivatives of `ε` by the second and third mole number agree, as in all equations with a constant `ε`. Missing: the other equations (see `C115_third_fails`). -/
theorem C115_third_partial (hU : Domain U m Vt) (hj : ParamJets U m b1 d1 e1 a1 b2 d2 e2 a2 b3 d3 e3 a3) (hz : z ∈ U) (hs : ∑ k, z k = 1) {i j k : Fin N} (he : e1 j z = e1 k z) :
    PD3 (pTot m R T Vt) i j k z (d3P R T Vt (m.b z) (m.delta z) (m.epsilon z) (m.a z) (fun i => b1 i z) (fun i => d1 i z) (fun i => e1 i z) (fun i => a1 i z) (fun i j => b2 i j z)
      (fun i j => d2 i j z) (fun i j => e2 i j z) (fun i j => a2 i j z) (fun i j k => b3 i j k z) (fun i j k => d3 i j k z) (fun i j k => e3 i j k z) (fun i j k => a3 i j k z) i j k) := by
  obtain ⟨P1, P2, P3, h, hP⟩ := pTot_jet (R := R) (T := T) hU hj
  have := h.pd3 hU.isOpen hz i j k
  rw [(hP z hz hs).2.2] at this
  convert this using 1
  simp only [d3P, d3PWith, he]

/-- Amounts for which the Peng-Robinson equation has no pole at the total volume `Vt`. -/
def prSet (bs : Fin N → ℝ) (Vt : ℝ) : Set (Fin N → ℝ) := {n | ∑ k, n k ≠ 0 ∧ Vt - linz bs n ≠ 0 ∧ Vt ^ 2 + 2 * linz bs n * Vt - linz bs n ^ 2 ≠ 0}

theorem pr_domain (bs : Fin N → ℝ) (A : Fin N → Fin N → ℝ) (Vt : ℝ) : Domain (prSet bs Vt) (prParams bs A) Vt := by
  have hl : Continuous (linz bs) := by unfold linz; fun_prop
  have hs : Continuous fun n : Fin N → ℝ => ∑ k, n k := by fun_prop
  refine ⟨?_, fun n hn => hn.1, fun n hn => ?_, fun n hn => ?_⟩
  · refine (isOpen_ne_fun hs continuous_const).inter ((isOpen_ne_fun (by fun_prop) continuous_const).inter (isOpen_ne_fun (by fun_prop) continuous_const))
  · have e : Vt / (∑ k, n k) - (prParams bs A).b n = (Vt - linz bs n) / ∑ k, n k := by
      simp only [prParams, lin, linz]; ring
    rw [e]; exact div_ne_zero hn.2.1 hn.1
  · have h0 := hn.1
    have e : (Vt / ∑ k, n k) ^ 2 + (prParams bs A).delta n * (Vt / ∑ k, n k) + (prParams bs A).epsilon n = (Vt ^ 2 + 2 * linz bs n * Vt - linz bs n ^ 2) / (∑ k, n k) ^ 2 := by
      simp only [prParams, lin, linz, prEps]; field_simp; ring
    rw [e]; exact div_ne_zero hn.2.2 (pow_ne_zero 2 h0)

/-- **C115.** The pressure derivatives of a Peng-Robinson mixture, from the parameter derivatives the code computes (C41): the first and second ones are right. -/
theorem C115_PR {bs : Fin N → ℝ} {A : Fin N → Fin N → ℝ} (hA : ∀ i j, A i j = A j i) (hz : z ∈ prSet bs Vt) (hs : ∑ k, z k = 1) :
    (∀ i, PD (pTot (prParams bs A) R T Vt) i z (dP R T Vt (lin bs z) (2 * lin bs z) (prEps (lin bs z)) (quad A z) (dbDns (lin bs z) bs) (prDdeltaDns bs (lin bs z)) (prDepsDns (lin bs z) bs)
      (daDns (quad A z) (rowsA A z)) i)) ∧
    (∀ i j, PD2 (pTot (prParams bs A) R T Vt) i j z (d2P R T Vt (lin bs z) (2 * lin bs z) (prEps (lin bs z)) (quad A z) (dbDns (lin bs z) bs) (prDdeltaDns bs (lin bs z)) (prDepsDns (lin bs z) bs)
      (daDns (quad A z) (rowsA A z)) (d2bDninjs (lin bs z) bs) (prD2delta (lin bs z) bs) (prD2eps (lin bs z) bs) (d2aDninjs (quad A z) A (rowsA A z) z) i j)) ∧
    (∀ i j k, PD3 (pTot (prParams bs A) R T Vt) i j k z (d3PWith R T Vt (lin bs z) (2 * lin bs z) (prEps (lin bs z)) (quad A z) (dbDns (lin bs z) bs) (prDdeltaDns bs (lin bs z)) (prDepsDns (lin bs z) bs)
      (daDns (quad A z) (rowsA A z)) (d2bDninjs (lin bs z) bs) (prD2delta (lin bs z) bs) (prD2eps (lin bs z) bs) (d2aDninjs (quad A z) A (rowsA A z) z) (d3bDninjnks (lin bs z) bs)
      (prD3delta (lin bs z) bs) (prD3eps (lin bs z) bs) (d3aDninjnks (quad A z) A z) i j k k)) := by
  have hU := pr_domain bs A Vt
  have sub : prSet bs Vt ⊆ Amounts N := fun n hn => hn.1
  have jb := (lin_jet bs).mono sub
  have jd := ((lin_jet bs).smul 2).mono sub
  have je := (((lin_jet bs).mul (lin_jet bs)).smul (-1)).mono sub
  have ja := ((quadz_jet hA (Amounts N)).mul invsq_jet).mono sub
  have e2 : (fun n : Fin N → ℝ => (-1) * (lin bs n * lin bs n)) = fun n => prEps (lin bs n) := by
    funext n; unfold prEps; ring
  rw [e2] at je
  rw [← quad_eq] at ja
  obtain ⟨b1, b2, b3, jb⟩ : ∃ b1 b2 b3, Jet (prSet bs Vt) (lin bs) b1 b2 b3 := ⟨_, _, _, jb⟩
  obtain ⟨d1, d2, d3, jd⟩ : ∃ d1 d2 d3, Jet (prSet bs Vt) (fun n => 2 * lin bs n) d1 d2 d3 := ⟨_, _, _, jd⟩
  obtain ⟨e1, e2, e3, je⟩ : ∃ e1 e2 e3, Jet (prSet bs Vt) (fun n => prEps (lin bs n)) e1 e2 e3 := ⟨_, _, _, je⟩
  obtain ⟨a1, a2, a3, ja⟩ : ∃ a1 a2 a3, Jet (prSet bs Vt) (quad A) a1 a2 a3 := ⟨_, _, _, ja⟩
  have hj : ParamJets (prSet bs Vt) (prParams bs A) _ _ _ _ _ _ _ _ _ _ _ _ := ⟨jb, jd, je, ja⟩
  have h1 := C41_covolume hs bs
  have h2 := C41_PR_delta hs bs
  have h3 := C41_PR_epsilon hs bs
  have h4 := C41_attraction hs hA
  have o := hU.isOpen
  obtain ⟨P1, P2, P3, h, hP⟩ := pTot_jet (R := R) (T := T) hU hj
  obtain ⟨k1, k2, k3⟩ := hP z hz hs
  simp only [fun i => (jb.d1 z hz i).unique (h1.1 i), fun i => (jd.d1 z hz i).unique (h2.2.1 i), fun i => (je.d1 z hz i).unique (h3.2.2.2.1 i), fun i => (ja.d1 z hz i).unique (h4.2.2.1 i),
    fun i j => pd2_unique (jb.pd2 o hz i j) (h1.2.1 i j), fun i j => pd2_unique (jd.pd2 o hz i j) (h2.2.2.1 i j), fun i j => pd2_unique (je.pd2 o hz i j) (h3.2.2.2.2.1 i j),
    fun i j => pd2_unique (ja.pd2 o hz i j) (h4.2.2.2.2.1 i j), fun i j k => pd3_unique (jb.pd3 o hz i j k) (h1.2.2.1 i j k), fun i j k => pd3_unique (jd.pd3 o hz i j k) (h2.2.2.2 i j k),
    fun i j k => pd3_unique (je.pd3 o hz i j k) (h3.2.2.2.2.2 i j k), fun i j k => pd3_unique (ja.pd3 o hz i j k) (h4.2.2.2.2.2 i j k)] at k1 k2 k3
  refine ⟨fun i => (h.d1 z hz i).congr_d (k1 i), fun i j => ?_, fun i j k => k3 i j k ▸ h.pd3 o hz i j k⟩
  have hp := h.pd2 o hz i j
  rw [k2] at hp
  unfold d2P
  split_ifs with hij
  · exact hp
  · convert hp using 1
    have sa : d2aDninjs (quad A z) A (rowsA A z) z j i = d2aDninjs (quad A z) A (rowsA A z) z i j := by
      unfold d2aDninjs
      rw [if_neg hij, if_pos (not_le.mp hij).le]
    simp only [d2PEntry, d2bDninjs, prD2delta, prD2eps, sa, prParams]
    ring

/-- **C115.** For a binary Peng-Robinson mixture the third derivatives are wrong (line 3939 takes `ε_j` where the variable is `k`). -/
theorem C115_third_fails : ∃ (bs z : Fin 2 → ℝ) (A : Fin 2 → Fin 2 → ℝ) (R T Vt : ℝ), 0 < R ∧ 0 < T ∧ (∀ i, 0 < bs i ∧ bs i < Vt) ∧ (∀ i, 0 < z i) ∧ ∑ k, z k = 1 ∧ (∀ i j, A i j = A j i) ∧ z ∈ prSet bs Vt ∧
    ¬ PD3 (pTot (prParams bs A) R T Vt) 0 0 1 z (d3P R T Vt (lin bs z) (2 * lin bs z) (prEps (lin bs z)) (quad A z) (dbDns (lin bs z) bs) (prDdeltaDns bs (lin bs z)) (prDepsDns (lin bs z) bs)
      (daDns (quad A z) (rowsA A z)) (d2bDninjs (lin bs z) bs) (prD2delta (lin bs z) bs) (prD2eps (lin bs z) bs) (d2aDninjs (quad A z) A (rowsA A z) z) (d3bDninjnks (lin bs z) bs)
      (prD3delta (lin bs z) bs) (prD3eps (lin bs z) bs) (d3aDninjnks (quad A z) A z) 0 0 1) := by
  have hs : ∑ k, (![1 / 2, 1 / 2] : Fin 2 → ℝ) k = 1 := by norm_num [Fin.sum_univ_two]
  have hz : (![1 / 2, 1 / 2] : Fin 2 → ℝ) ∈ prSet ![1 / 2, 3 / 2] 3 := by
    refine ⟨by rw [hs]; exact one_ne_zero, ?_, ?_⟩ <;> norm_num [linz, Fin.sum_univ_two]
  have hl : lin ![1 / 2, 3 / 2] (![1 / 2, 1 / 2] : Fin 2 → ℝ) = 1 := by norm_num [lin, Fin.sum_univ_two]
  have hq : quad (fun _ _ => 1) (![1 / 2, 1 / 2] : Fin 2 → ℝ) = 1 := by norm_num [quad, Fin.sum_univ_two]
  have hr : ∀ i, rowsA (fun _ _ => 1) (![1 / 2, 1 / 2] : Fin 2 → ℝ) i = 1 := by intro i; norm_num [rowsA, Fin.sum_univ_two]
  refine ⟨![1 / 2, 3 / 2], ![1 / 2, 1 / 2], fun _ _ => 1, 1, 1, 3, one_pos, one_pos, ?_, ?_, hs, fun _ _ => rfl, hz, fun h => ?_⟩
  · intro i; fin_cases i <;> norm_num
  · intro i; fin_cases i <;> norm_num
  · have := pd3_unique h ((C115_PR (R := 1) (T := 1) (fun _ _ => rfl) hz hs).2.2 0 0 1)
    revert this
    simp only [d3P, d3PWith, hl, hq, dbDns, prDdeltaDns, prDepsDns, daDns, hr, d2bDninjs, prD2delta, prD2eps, d2aDninjs, hessTerm, d3bDninjnks, prD3delta, prD3eps, d3aDninjnks, prEps, Fin.sum_univ_two]
    norm_num

end Pressure

/-! ## Volume at constant temperature and pressure -/

section Volume

variable {U : Set (Fin N → ℝ)} {m : Params N} {b1 d1 e1 a1 : Fin N → (Fin N → ℝ) → ℝ} {b2 d2 e2 a2 : Fin N → Fin N → (Fin N → ℝ) → ℝ} {b3 d3 e3 a3 : Fin N → Fin N → Fin N → (Fin N → ℝ) → ℝ}
  {R T P : ℝ} {z : Fin N → ℝ} {v : (Fin N → ℝ) → ℝ}

theorem slope_ne {R T P V b δ ε a : ℝ} (h : Regular R T P V b δ ε a) : -(R * T) * (V ^ 2 + δ * V + ε) ^ 2 + a * (2 * V + δ) * (V - b) ^ 2 ≠ 0 := by
  intro h0
  apply h.slope
  have h1 := (sub_pos.mpr h.hb).ne'
  have h2 := h.qpos.ne'
  rw [div_add_div _ _ (pow_ne_zero 2 h1) (pow_ne_zero 2 h2), div_eq_zero_iff]
  left
  rw [← h0]; ring

/-- The first derivative of the volume as a quotient. -/
theorem dV_quot {V b δ ε a : ℝ} {db ddelta deps da : Fin N → ℝ} (h : Regular R T P V b δ ε a) (i : Fin N) :
    dVdzs R T P (P * V / (R * T)) b δ ε a db ddelta deps da i =
      (-(R * T) * (V ^ 2 + δ * V + ε) ^ 2 * db i + (da i * (V ^ 2 + δ * V + ε) - a * (ddelta i * V + deps i)) * (V - b) ^ 2) /
        (-(R * T) * (V ^ 2 + δ * V + ε) ^ 2 + a * (2 * V + δ) * (V - b) ^ 2) := by
  have hR := h.hR
  have hT := h.hT
  have hP := h.hP
  have hq := h.qpos.ne'
  have hK0 := slope_ne h
  have eV : P * V / (R * T) * (R * T) / P = V := by field_simp
  simp only [dVdzs, eV]
  obtain ⟨K, hK⟩ : ∃ K, K = -(R * T) * (V ^ 2 + δ * V + ε) ^ 2 + a * (2 * V + δ) * (V - b) ^ 2 := ⟨_, rfl⟩
  rw [← hK] at hK0 ⊢
  have eD : δ * V * (δ * (a * ((V - b) * (V - b)))) + δ * (ε * (a * ((V - b) * (V - b)))) -
      R * T * (δ * V + ε + V * V) * ((δ * V + ε + V * V) * (δ * V + ε + V * V)) +
      3 * (δ * (a * ((V - b) * (V - b))) * (V * V)) + (V * V * (V * (a * ((V - b) * (V - b)))) +
      ε * (V * (a * ((V - b) * (V - b))))) + (V * V * (V * (a * ((V - b) * (V - b)))) +
      ε * (V * (a * ((V - b) * (V - b))))) = (V ^ 2 + δ * V + ε) * K := by rw [hK]; ring
  rw [eD]
  have e2 : δ * V + ε + V * V = V ^ 2 + δ * V + ε := by ring
  rw [e2]
  have e4 : δ * V * (a * ((V - b) * (V - b))) + a * ((V - b) * (V - b)) * (V * V) + ε * (a * ((V - b) * (V - b))) =
      a * (V - b) ^ 2 * (V ^ 2 + δ * V + ε) := by ring
  have e5 : δ * (a * ((V - b) * (V - b))) * (V * V) + (V * V * (V * (a * ((V - b) * (V - b)))) +
      ε * (V * (a * ((V - b) * (V - b))))) = a * (V - b) ^ 2 * V * (V ^ 2 + δ * V + ε) := by ring
  rw [e4, e5]
  clear e4 e5 eD hK
  generalize V ^ 2 + δ * V + ε = Q at *
  field_simp
  ring

/-- A continuous family of regular states at fixed temperature and pressure. -/
structure Family (U : Set (Fin N → ℝ)) (m : Params N) (R T P : ℝ) (v : (Fin N → ℝ) → ℝ) : Prop where
  isOpen : IsOpen U
  cont : ContinuousOn v U
  regular : ∀ n ∈ U, Regular R T P (v n) (m.b n) (m.delta n) (m.epsilon n) (m.a n)

theorem Family.branch (h : Family U m R T P v) {n : Fin N → ℝ} (hn : n ∈ U) : Branch m R T P n v :=
  ⟨h.cont.continuousAt (h.isOpen.mem_nhds hn), (h.isOpen.eventually_mem hn).mono fun y hy => (h.regular y hy).solves⟩

/-- **C115.** `_d2V_dij_wrapper`: the second derivatives of the molar volume at constant temperature and pressure, with mole fractions or mole numbers as variables, on every continuous family of regular states. -/
theorem C115_volume (hv : Family U m R T P v) (hj : ParamJets U m b1 d1 e1 a1 b2 d2 e2 a2 b3 d3 e3 a3) (hz : z ∈ U) (i j : Fin N) :
    PD2 v i j z (d2V R T (v z) (m.b z) (m.delta z) (m.epsilon z) (m.a z)
      (dVdzs R T P (P * v z / (R * T)) (m.b z) (m.delta z) (m.epsilon z) (m.a z) (fun i => b1 i z) (fun i => d1 i z) (fun i => e1 i z) (fun i => a1 i z))
      (fun i => b1 i z) (fun i => e1 i z) (fun i => d1 i z) (fun i => a1 i z) (fun i j => b2 i j z) (fun i j => e2 i j z) (fun i j => d2 i j z) (fun i j => a2 i j z) i j) := by
  have hV : ∀ n ∈ U, ∀ k, PD v k n (dVdzs R T P (P * v n / (R * T)) (m.b n) (m.delta n) (m.epsilon n) (m.a n) (fun i => b1 i n) (fun i => d1 i n) (fun i => e1 i n) (fun i => a1 i n) k) := fun n hn k =>
    C55_volume (hv.branch hn) (hv.regular n hn) (hj.b.d1 n hn k) (hj.d.d1 n hn k) (hj.e.d1 n hn k) (hj.a.d1 n hn k)
  refine ⟨fun n => (-(R * T) * (v n ^ 2 + m.delta n * v n + m.epsilon n) ^ 2 * b1 i n +
      (a1 i n * (v n ^ 2 + m.delta n * v n + m.epsilon n) - m.a n * (d1 i n * v n + e1 i n)) * (v n - m.b n) ^ 2) /
        (-(R * T) * (v n ^ 2 + m.delta n * v n + m.epsilon n) ^ 2 + m.a n * (2 * v n + m.delta n) * (v n - m.b n) ^ 2),
    (hv.isOpen.eventually_mem hz).mono fun n hn => (hV n hn i).congr_d (dV_quot (hv.regular n hn) i), ?_⟩
  have hr := hv.regular z hz
  have qi := dV_quot (db := fun i => b1 i z) (ddelta := fun i => d1 i z) (deps := fun i => e1 i z) (da := fun i => a1 i z) hr i
  have hj' := hV z hz j
  have hK := slope_ne hr
  have hQ := hr.qpos.ne'
  have hW := (sub_pos.mpr hr.hb).ne'
  obtain ⟨D, hD⟩ : ∃ D, D = dVdzs R T P (P * v z / (R * T)) (m.b z) (m.delta z) (m.epsilon z) (m.a z) (fun i => b1 i z) (fun i => d1 i z) (fun i => e1 i z) (fun i => a1 i z) := ⟨_, rfl⟩
  rw [← hD] at qi hj' ⊢
  have pq := ((pd_pow hj' 2).add ((hj.d.d1 z hz j).mul hj')).add (hj.e.d1 z hz j)
  have pw := hj'.sub (hj.b.d1 z hz j)
  have pn := ((((pd_pow pq 2).const_mul (-(R * T))).mul (hj.b.d2 z hz i j))).add
    ((((hj.a.d2 z hz i j).mul pq).sub ((hj.a.d1 z hz j).mul (((hj.d.d2 z hz i j).mul hj').add (hj.e.d2 z hz i j)))).mul (pd_pow pw 2))
  have pk := ((pd_pow pq 2).const_mul (-(R * T))).add (((hj.a.d1 z hz j).mul ((hj'.const_mul 2).add (hj.d.d1 z hz j))).mul (pd_pow pw 2))
  refine (pn.div pk hK).congr_d ?_
  simp only [Nat.add_one_sub_one, pow_one, Nat.cast_ofNat, d2V]
  rw [eq_div_iff hK] at qi
  clear hV hj' pq pw pn pk hD hr hv hj hz
  have eK : m.a z * (v z - m.b z) * (v z - m.b z) * (v z + v z) + m.a z * (v z - m.b z) * (v z - m.b z) * m.delta z -
      (m.epsilon z + v z * v z + v z * m.delta z) * (m.epsilon z + v z * v z + v z * m.delta z) * (R * T) =
      -(R * T) * (v z ^ 2 + m.delta z * v z + m.epsilon z) ^ 2 + m.a z * (2 * v z + m.delta z) * (v z - m.b z) ^ 2 := by ring
  have eQ : m.epsilon z + v z * v z + v z * m.delta z = v z ^ 2 + m.delta z * v z + m.epsilon z := by ring
  rw [eK, eQ, ← qi]
  have hWQ := mul_ne_zero hW hQ
  rw [div_eq_div_iff (pow_ne_zero 2 hK) (mul_ne_zero hWQ hK)]
  generalize D i = Di at *
  generalize D j = Dj at *
  generalize m.b z = b at *
  generalize m.delta z = δ at *
  generalize m.epsilon z = ε at *
  generalize m.a z = a at *
  generalize v z = V at *
  clear hWQ hQ hW eQ eK
  generalize V ^ 2 + δ * V + ε = Q at *
  generalize V - b = W at *
  linear_combination (-2) * ((2 * V * Dj + (d1 j z * V + δ * Dj) + e1 j z) * W + Q * (Dj - b1 j z)) * (-(R * T) * Q ^ 2 + a * (2 * V + δ) * W ^ 2) ^ 2 * qi

end Volume

/-! ## Derivatives of the pressure derivatives along the composition -/

section Along

open Verif.Departure (Fluid pT pV pTT pVV pTV V_P T_P V_T T_V T_PV V_PT T_PP V_PP T_VV V_TT d2T_dPdV d2V_dPdT d2T_dP2 d2V_dP2 d2T_dV2 d2V_dT2 V_P_eq T_P_eq V_T_eq T_V_eq)

variable {g : (Fin N → ℝ) → Fluid} {v : (Fin N → ℝ) → ℝ} {R T : ℝ} {z : Fin N → ℝ} {i : Fin N} {db ddelta deps da daT daTT dV : Fin N → ℝ}

/-- The derivatives of the parameters of a mixture, of the attraction with its temperature derivatives, and of the volume with respect to a mole number or mole fraction. -/
structure Comp (g : (Fin N → ℝ) → Fluid) (v : (Fin N → ℝ) → ℝ) (R T : ℝ) (z : Fin N → ℝ) (i : Fin N) (db ddelta deps da daT daTT dV : Fin N → ℝ) : Prop where
  gas : ∀ n, (g n).R = R
  b : PD (fun n => (g n).b) i z (db i)
  delta : PD (fun n => (g n).delta) i z (ddelta i)
  epsilon : PD (fun n => (g n).epsilon) i z (deps i)
  a : PD (fun n => (g n).a T) i z (da i)
  aT : PD (fun n => (g n).a1 T) i z (daT i)
  aTT : PD (fun n => (g n).a2 T) i z (daTT i)
  vol : PD v i z (dV i)
  off : (g z).Off (v z)

/-- The stored derivatives of the pressure. -/
noncomputable def stored (f : Fluid) (T V : ℝ) : Main := ⟨pT f T V, pV f T V, pTT f T V, pVV f T V, pTV f T V⟩

/-- **C115.** `_d_main_derivatives_and_departures_dnx`: the five lists are the derivatives of the stored pressure derivatives (C30) with respect to composition, the volume following the composition. -/
theorem C115_main (h : Comp g v R T z i db ddelta deps da daT daTT dV) :
    let d := mainDn R T (v z) (g z).b (g z).delta (g z).epsilon ((g z).a T) ((g z).a1 T) ((g z).a2 T) db ddelta deps da daT daTT dV i
    PD (fun n => pT (g n) T (v n)) i z d.PT ∧ PD (fun n => pV (g n) T (v n)) i z d.PV ∧ PD (fun n => pTT (g n) T (v n)) i z d.PTT ∧ PD (fun n => pVV (g n) T (v n)) i z d.PVV ∧
    PD (fun n => pTV (g n) T (v n)) i z d.PTV := by
  have h1 := h.off.b
  have h2 := h.off.q
  have pw := h.vol.sub h.b
  have pq := ((h.vol.mul (h.vol.add h.delta))).add h.epsilon
  have h2' : v z * (v z + (g z).delta) + (g z).epsilon ≠ 0 := by convert h2 using 1; ring
  have w := (PD.const (j := i) (x := z) 1).div pw h1
  have q := (PD.const (j := i) (x := z) 1).div pq h2'
  have x5 := (h.vol.add h.vol).add h.delta
  have eq : v z ^ 2 + (g z).delta * v z + (g z).epsilon = v z * (v z + (g z).delta) + (g z).epsilon := by ring
  have eq' : (g z).epsilon + v z ^ 2 + v z * (g z).delta = v z * (v z + (g z).delta) + (g z).epsilon := by ring
  have second := (((h.a.mul (q.mul q)).add (((w.mul w).const_mul (R * T)).mul w)).sub ((((h.a.mul x5).mul (x5.mul (q.mul q)))).mul q))
  refine ⟨?_, ?_, ?_, ?_, ?_⟩
  · refine PD.congr_d (d := _) (by
      simp only [pT, Fluid.main, Departure.main, h.gas]
      exact (w.const_mul R).sub (h.aT.mul q)) ?_
    simp only [mainDn, eq']
    clear second
    generalize v z * (v z + (g z).delta) + (g z).epsilon = Q at *
    generalize v z - (g z).b = W at *
    field_simp
    ring
  · refine PD.congr_d (d := _) (by
      simp only [pV, Fluid.main, Departure.main, h.gas]
      exact (x5.mul (h.a.mul (q.mul q))).sub ((w.mul w).const_mul (R * T))) ?_
    simp only [mainDn, eq']
    clear second
    generalize v z * (v z + (g z).delta) + (g z).epsilon = Q at *
    generalize v z - (g z).b = W at *
    field_simp
    ring
  · refine PD.congr_d (d := _) (by
      simp only [pTT, Fluid.main, Departure.main, h.gas]
      exact h.aTT.neg.mul q) ?_
    simp only [mainDn, eq']
    clear second
    generalize v z * (v z + (g z).delta) + (g z).epsilon = Q at *
    field_simp
    ring
  · refine PD.congr_d (d := _) (by
      simp only [pVV, Fluid.main, Departure.main, h.gas]
      exact second.add second) ?_
    simp only [mainDn, eq']
    clear second
    generalize v z * (v z + (g z).delta) + (g z).epsilon = Q at *
    generalize v z - (g z).b = W at *
    field_simp
    ring
  · refine PD.congr_d (d := _) (by
      simp only [pTV, Fluid.main, Departure.main, h.gas]
      exact (h.aT.mul (x5.mul (q.mul q))).sub ((w.mul w).const_mul R)) ?_
    simp only [mainDn, eq']
    clear second
    generalize v z * (v z + (g z).delta) + (g z).epsilon = Q at *
    generalize v z - (g z).b = W at *
    field_simp
    ring

/-- **C115.** `_dnz_derivatives_and_departures`: the ten further lists are the derivatives with respect to composition of the stored derivatives of volume and temperature (C31, C56). -/
theorem C115_more (h : Comp g v R T z i db ddelta deps da daT daTT dV) (hT : pT (g z) T (v z) ≠ 0) (hV : pV (g z) T (v z) ≠ 0) :
    let d := mainDn R T (v z) (g z).b (g z).delta (g z).epsilon ((g z).a T) ((g z).a1 T) ((g z).a2 T) db ddelta deps da daT daTT dV i
    let e := moreDn (stored (g z) T (v z)) (V_T (g z) T (v z)) d
    PD (fun n => V_T (g n) T (v n)) i z e.VT ∧ PD (fun n => V_P (g n) T (v n)) i z e.VP ∧ PD (fun n => T_V (g n) T (v n)) i z e.TV ∧ PD (fun n => T_P (g n) T (v n)) i z e.TP ∧
    PD (fun n => T_PP (g n) T (v n)) i z e.TPP ∧ PD (fun n => V_PP (g n) T (v n)) i z e.VPP ∧ PD (fun n => T_VV (g n) T (v n)) i z e.TVV ∧ PD (fun n => V_TT (g n) T (v n)) i z e.VTT ∧
    PD (fun n => T_PV (g n) T (v n)) i z e.TPV ∧ PD (fun n => V_PT (g n) T (v n)) i z e.VPT := by
  intro d e
  obtain ⟨h1, h2, h3, h4, h5⟩ := C115_main h
  change PD _ i z d.PT at h1
  change PD _ i z d.PV at h2
  change PD _ i z d.PTT at h3
  change PD _ i z d.PVV at h4
  change PD _ i z d.PTV at h5
  have vp := (PD.const (j := i) (x := z) 1).div h2 hV
  have tp := (PD.const (j := i) (x := z) 1).div h1 hT
  have vt := h1.neg.div h2 hV
  have tv := h2.neg.div h1 hT
  refine ⟨?_, ?_, ?_, ?_, ?_, ?_, ?_, ?_, ?_, ?_⟩
  · simp only [V_T_eq]
    refine vt.congr_d ?_
    simp only [e, moreDn, stored]; field_simp; ring
  · simp only [V_P_eq]
    refine vp.congr_d ?_
    simp only [e, moreDn, stored, V_T_eq]; field_simp; ring
  · simp only [T_V_eq]
    refine tv.congr_d ?_
    simp only [e, moreDn, stored, V_T_eq]; field_simp; ring
  · simp only [T_P_eq]
    refine tp.congr_d ?_
    simp only [e, moreDn, stored]; field_simp; ring
  · simp only [T_PP, d2T_dP2, T_P_eq]
    refine (((h3.neg.mul tp).mul tp).mul tp).congr_d ?_
    simp only [e, moreDn, stored]; field_simp; ring
  · simp only [V_PP, d2V_dP2, V_P_eq]
    refine (((h4.neg.mul vp).mul vp).mul vp).congr_d ?_
    simp only [e, moreDn, stored]; field_simp; ring
  · simp only [T_VV, d2T_dV2, T_P_eq]
    refine ((tp.mul tp).mul ((((h4.mul h1).sub (h2.mul h5)).neg).add ((((h5.mul h1).sub (h2.mul h3)).mul tp).mul h2))).congr_d ?_
    simp only [e, moreDn, stored]; field_simp; ring
  · simp only [V_TT, d2V_dT2, V_P_eq]
    refine ((vp.mul vp).mul ((((h3.mul h2).sub (h1.mul h5)).neg).add ((((h5.mul h2).sub (h1.mul h4)).mul vp).mul h1))).congr_d ?_
    simp only [e, moreDn, stored]; field_simp; ring
  · simp only [T_PV, d2T_dPdV, T_P_eq]
    refine ((((h5.mul h1).sub (h2.mul h3)).neg).mul ((tp.mul tp).mul tp)).congr_d ?_
    simp only [e, moreDn, stored]; field_simp; ring
  · simp only [V_PT, d2V_dPdT, V_P_eq]
    refine ((((((h5.mul h2).sub (h1.mul h4)).neg).mul vp).mul vp).mul vp).congr_d ?_
    simp only [e, moreDn, stored]; field_simp; ring

end Along

/-! ## Entropy of mixing and conversions -/

section Mixing

variable {z : Fin N → ℝ}

theorem pd_frac (hs : ∑ k, z k ≠ 0) (k i : Fin N) : PD (fun n => n k / ∑ l, n l) i z ((if k = i then 1 else 0) / (∑ l, z l) - z k / (∑ l, z l) ^ 2) := by
  refine ((PD.coord k i z).div (pd_total z i) hs).congr_d ?_
  field_simp

/-- `R T (Σ x ln x + ln P)`, the part of the Helmholtz energy that depends on mixing and pressure, for amounts `n` and the pressure as a function of them. -/
noncomputable def mixing (R T : ℝ) (p : (Fin N → ℝ) → ℝ) (n : Fin N → ℝ) : ℝ := R * T * ((∑ k, n k / (∑ l, n l) * Real.log (n k / ∑ l, n l)) + Real.log (p n))

theorem pd_mixing {p : (Fin N → ℝ) → ℝ} {R T : ℝ} {d : ℝ} (hz : ∀ k, 0 < z k) (hp : 0 < p z) (i : Fin N) (h : PD p i z d) :
    PD (mixing R T p) i z (R * T * ((Real.log (z i / ∑ l, z l) - ∑ k, z k / (∑ l, z l) * Real.log (z k / ∑ l, z l)) / (∑ l, z l) + d / p z)) := by
  have hs : 0 < ∑ l, z l := Finset.sum_pos (fun k _ => hz k) ⟨i, Finset.mem_univ i⟩
  have hx : ∀ k, 0 < z k / ∑ l, z l := fun k => div_pos (hz k) hs
  have hk : ∀ k ∈ Finset.univ, PD (fun n : Fin N → ℝ => n k / (∑ l, n l) * Real.log (n k / ∑ l, n l)) i z
      (((if k = i then 1 else 0) / (∑ l, z l) - z k / (∑ l, z l) ^ 2) * (Real.log (z k / ∑ l, z l) + 1)) := by
    intro k _
    have hf := pd_frac hs.ne' k i
    refine (hf.mul (PD.comp (Real.hasDerivAt_log (hx k).ne') hf)).congr_d ?_
    have := (hz k).ne'
    field_simp
  refine (((PD.sum hk).add (PD.comp (Real.hasDerivAt_log hp.ne') h)).const_mul (R * T)).congr_d ?_
  have e : ∀ k, ((if k = i then 1 else 0) / (∑ l, z l) - z k / (∑ l, z l) ^ 2) * (Real.log (z k / ∑ l, z l) + 1) =
      (if k = i then (Real.log (z k / ∑ l, z l) + 1) / (∑ l, z l) else 0) - (z k / (∑ l, z l) * Real.log (z k / ∑ l, z l)) / (∑ l, z l) - z k / (∑ l, z l) ^ 2 := by
    intro k; split_ifs <;> ring
  simp only [e, Finset.sum_sub_distrib, Finset.sum_ite_eq', Finset.mem_univ, if_true, ← Finset.sum_div]
  field_simp
  ring

/-- **C115.** `dScomp_dns` and `d2Scomp_dninjs`: first and second mole number derivatives of `R T (Σ x ln x + ln P)`. The values have the sign and factor of `-T S`, not of an entropy. -/
theorem C115_mixing {U : Set (Fin N → ℝ)} {p : (Fin N → ℝ) → ℝ} {P1 : Fin N → (Fin N → ℝ) → ℝ} {P2 : Fin N → Fin N → (Fin N → ℝ) → ℝ} {P3 : Fin N → Fin N → Fin N → (Fin N → ℝ) → ℝ} {R T : ℝ}
    (hU : IsOpen U) (hj : Jet U p P1 P2 P3) (hpos : ∀ n ∈ U, 0 < p n ∧ ∀ k, 0 < n k) (hz : z ∈ U) (hs : ∑ k, z k = 1) :
    (∀ i, PD (mixing R T p) i z (dScomp R T (p z) z (fun i => P1 i z) i)) ∧ (∀ i j, PD2 (mixing R T p) i j z (d2Scomp R T (p z) z (fun i => P1 i z) (fun i j => P2 i j z) i j)) := by
  obtain ⟨hp, hk⟩ := hpos z hz
  refine ⟨fun i => (pd_mixing hk hp i (hj.d1 z hz i)).congr_d ?_, fun i j => ?_⟩
  · simp only [dScomp, hs, div_one]; ring
  · refine ⟨_, (hU.eventually_mem hz).mono fun n hn => pd_mixing (hpos n hn).2 (hpos n hn).1 i (hj.d1 n hn i), ?_⟩
    have hs' : ∑ k, z k ≠ 0 := by rw [hs]; exact one_ne_zero
    have hm := pd_mixing (R := 1) (T := 1) (p := fun _ => 1) hk one_pos j (PD.const 1)
    have em : mixing 1 1 (fun _ => 1) = fun n : Fin N → ℝ => ∑ k, n k / (∑ l, n l) * Real.log (n k / ∑ l, n l) := by
      funext n; simp [mixing]
    rw [em] at hm
    have hx : 0 < z i / ∑ l, z l := by rw [hs, div_one]; exact hk i
    have hl := PD.comp (Real.hasDerivAt_log hx.ne') (pd_frac hs' i j)
    refine (((((hl.sub hm).div (pd_total z j) hs').add ((hj.d2 z hz i j).div (hj.d1 z hz j) hp.ne'))).const_mul (R * T)).congr_d ?_
    have hi := (hk i).ne'
    have hp' := hp.ne'
    have et : ∑ k, (2 * z k * Real.log (z k) + 3 * z k) = 2 * (∑ k, z k * Real.log (z k)) + 3 := by
      rw [Finset.sum_add_distrib, ← Finset.mul_sum, hs, mul_one, Finset.mul_sum]
      congr 1; exact Finset.sum_congr rfl fun k _ => by ring
    simp only [d2Scomp, hs, div_one, one_mul, one_pow, mul_one, zero_div, add_zero, et]
    by_cases hij : i = j
    · subst hij
      simp only [if_true, ne_eq, not_true_eq_false, if_false]
      field_simp
      ring
    · simp only [if_neg hij, ne_eq, hij, not_false_eq_true, if_true, if_false]
      field_simp
      ring

/-- **C115.** `dxs_to_dns` and `dxs_to_dn_partials`: mole number derivatives of a molar quantity and of its extensive counterpart from derivatives with independent mole fractions. -/
theorem C115_conversion {F : (Fin N → ℝ) → ℝ} {dxs : Fin N → ℝ} (hF : DifferentiableAt ℝ F z) (hd : ∀ i, PD F i z (dxs i)) (hs : ∑ k, z k = 1) (i : Fin N) :
    PD (fun n => F fun k => n k / ∑ l, n l) i z (dxsToDns dxs z i) ∧ PD (fun n => (∑ l, n l) * F fun k => n k / ∑ l, n l) i z (dxsToDnPartials dxs z (F z) i) := by
  have hs' : ∑ k, z k ≠ 0 := by rw [hs]; exact one_ne_zero
  have ez : (fun k => z k / ∑ l, z l) = z := by funext k; rw [hs, div_one]
  have h1 : PD (fun n => F fun k => n k / ∑ l, n l) i z (dxsToDns dxs z i) := by
    have hx : (fun k => Function.update z i (z i) k / ∑ l, Function.update z i (z i) l) = z := by rw [Function.update_eq_self]; exact ez
    have := curve_deriv (F := F) (x := z) hF hd (c := fun s k => Function.update z i s k / ∑ l, Function.update z i s l) (t := z i) hx (fun k => pd_frac hs' k i)
    refine HasDerivAt.congr_deriv this ?_
    simp only [hs, div_one, one_pow, dxsToDns, sub_mul, ite_mul, one_mul, zero_mul, Finset.sum_sub_distrib, Finset.sum_ite_eq', Finset.mem_univ, if_true]
  refine ⟨h1, ((pd_total z i).mul h1).congr_d ?_⟩
  simp only [ez, hs, dxsToDnPartials, dxsToDns]
  ring

/-- **C115.** `d2ns_to_dn2_partials`: second mole number derivatives of an extensive quantity from those of the molar one. -/
theorem C115_conversion_second {U : Set (Fin N → ℝ)} {F : (Fin N → ℝ) → ℝ} {F1 : Fin N → (Fin N → ℝ) → ℝ} {F2 : Fin N → Fin N → (Fin N → ℝ) → ℝ} {F3 : Fin N → Fin N → Fin N → (Fin N → ℝ) → ℝ}
    (hU : IsOpen U) (hj : Jet U F F1 F2 F3) (hz : z ∈ U) (hs : ∑ k, z k = 1) (i j : Fin N) : PD2 (fun n => (∑ l, n l) * F n) i j z (d2nsToDn2 (fun i j => F2 i j z) (fun i => F1 i z) i j) := by
  have h := ((total_jet U).mul hj).pd2 hU hz i j
  convert h using 1
  simp only [d2nsToDn2, hs]
  ring

end Mixing

section VolumeNs

variable {m : Params N} {R T P V : ℝ} {z : Fin N → ℝ} {v : (Fin N → ℝ) → ℝ} {db ddelta deps da : Fin N → ℝ}

/-- A branch of volumes is differentiable where the parameters are. -/
theorem branch_diff (hv : Branch m R T P z v) (h : Regular R T P (v z) (m.b z) (m.delta z) (m.epsilon z) (m.a z)) (hb : DifferentiableAt ℝ m.b z) (hd : DifferentiableAt ℝ m.delta z)
    (he : DifferentiableAt ℝ m.epsilon z) (ha : DifferentiableAt ℝ m.a z) : DifferentiableAt ℝ v z := by
  obtain ⟨ψ, h1, -, -, h4⟩ := volume_branch (sub_pos.mpr h.hb).ne' h.qpos.ne' h.solves h.slope
  have hd4 : DifferentiableAt ℝ (fun n => (m.b n, m.delta n, m.epsilon n, m.a n)) z := hb.prodMk (hd.prodMk (he.prodMk ha))
  have hc : Tendsto (fun n => ((m.b n, m.delta n, m.epsilon n, m.a n), v n)) (𝓝 z) (𝓝 ((m.b z, m.delta z, m.epsilon z, m.a z), v z)) := hd4.continuousAt.prodMk_nhds hv.cont
  have e : v =ᶠ[𝓝 z] fun n => ψ (m.b n, m.delta n, m.epsilon n, m.a n) := by
    filter_upwards [hv.solves, hc.eventually h4] with n a b
    exact (b a).symm
  exact (DifferentiableAt.comp z h1 hd4).congr_of_eventuallyEq e

/-- **C115.** `dV_dns`, `dnV_dns`, `dZ_dzs`, `dZ_dns`, `dnZ_dns`: the mole number derivatives of molar volume, total volume and compressibility factor at constant temperature and pressure. -/
theorem C115_volume_ns (hs : ∑ k, z k = 1) (hv : Branch m R T P z v) (h : Regular R T P (v z) (m.b z) (m.delta z) (m.epsilon z) (m.a z)) (hb : DifferentiableAt ℝ m.b z) (hd : DifferentiableAt ℝ m.delta z)
    (he : DifferentiableAt ℝ m.epsilon z) (ha : DifferentiableAt ℝ m.a z) (db1 : ∀ i, PD m.b i z (db i)) (dd1 : ∀ i, PD m.delta i z (ddelta i)) (de1 : ∀ i, PD m.epsilon i z (deps i))
    (da1 : ∀ i, PD m.a i z (da i)) (i : Fin N) :
    let Z := P * v z / (R * T)
    let dz := dVdzs R T P Z (m.b z) (m.delta z) (m.epsilon z) (m.a z) db ddelta deps da
    let dZ := dZdzs R T P Z (m.b z) (m.delta z) (m.epsilon z) (m.a z) db ddelta deps da
    PD (fun n => v fun k => n k / ∑ l, n l) i z (dVdns R T P Z (m.b z) (m.delta z) (m.epsilon z) (m.a z) db ddelta deps da z i) ∧
    PD (fun n => (∑ l, n l) * v fun k => n k / ∑ l, n l) i z (dxsToDnPartials dz z (Z * R * T / P) i) ∧
    PD (fun n => P * v n / (R * T)) i z (dZ i) ∧
    PD (fun n => P * v (fun k => n k / ∑ l, n l) / (R * T)) i z (dxsToDns dZ z i) ∧
    PD (fun n => (∑ l, n l) * (P * v (fun k => n k / ∑ l, n l) / (R * T))) i z (dxsToDnPartials dZ z Z i) := by
  intro Z dz dZ
  have hR := h.hR
  have hT := h.hT
  have hP := h.hP
  have hdv := branch_diff hv h hb hd he ha
  have h1 : ∀ i, PD v i z (dz i) := fun i => C55_volume hv h (db1 i) (dd1 i) (de1 i) (da1 i)
  have h2 : ∀ i, PD (fun n => P * v n / (R * T)) i z (dZ i) := fun i => by
    have := (h1 i).mul_const (P / (T * R))
    have e : (fun n => v n * (P / (T * R))) = fun n => P * v n / (R * T) := by funext n; field_simp
    rw [e] at this
    exact this
  have c1 := C115_conversion hdv h1 hs i
  have hdZ : DifferentiableAt ℝ (fun n => P * v n / (R * T)) z := by fun_prop
  have c2 := C115_conversion hdZ h2 hs i
  have eV : Z * R * T / P = v z := by simp only [Z]; field_simp
  rw [eV]
  exact ⟨c1.1, c1.2, h2 i, c2.1, c2.2⟩

end VolumeNs

/-! ## Examples -/

/-- A binary Peng-Robinson mixture that satisfies the hypotheses of `C115_PR`, with a pressure that depends on the composition. -/
example : ∃ (bs z : Fin 2 → ℝ) (A : Fin 2 → Fin 2 → ℝ), (∀ i j, A i j = A j i) ∧ z ∈ prSet bs 3 ∧ ∑ k, z k = 1 ∧ lin bs z = 1 ∧
    dP 1 1 3 (lin bs z) (2 * lin bs z) (prEps (lin bs z)) (quad A z) (dbDns (lin bs z) bs) (prDdeltaDns bs (lin bs z)) (prDepsDns (lin bs z) bs) (daDns (quad A z) (rowsA A z)) 0 = 193 / 392 := by
  have hs : ∑ k, (![1 / 2, 1 / 2] : Fin 2 → ℝ) k = 1 := by norm_num [Fin.sum_univ_two]
  have hl : lin ![1 / 2, 3 / 2] (![1 / 2, 1 / 2] : Fin 2 → ℝ) = 1 := by norm_num [lin, Fin.sum_univ_two]
  have hq : quad (fun _ _ => 1) (![1 / 2, 1 / 2] : Fin 2 → ℝ) = 1 := by norm_num [quad, Fin.sum_univ_two]
  refine ⟨![1 / 2, 3 / 2], ![1 / 2, 1 / 2], fun _ _ => 1, fun _ _ => rfl, ⟨by rw [hs]; exact one_ne_zero, ?_, ?_⟩, hs, hl, ?_⟩
  · norm_num [linz, Fin.sum_univ_two]
  · norm_num [linz, Fin.sum_univ_two]
  · rw [hl, hq]
    norm_num [dP, prEps, dbDns, prDdeltaDns, prDepsDns, daDns, rowsA, Fin.sum_univ_two]

theorem const_jet (U : Set (Fin N → ℝ)) (c : ℝ) : Jet U (fun _ => c) (fun _ _ => 0) (fun _ _ _ => 0) (fun _ _ _ _ => 0) :=
  ⟨fun _ _ _ => PD.const _, fun _ _ _ _ => PD.const _, fun _ _ _ _ _ => PD.const _⟩

/-- A family of regular states whose volume, covolume and attraction vary with composition, with the derivatives of its parameters. -/
example : ∃ (U : Set (Fin 2 → ℝ)) (m : Params 2) (v : (Fin 2 → ℝ) → ℝ) (z : Fin 2 → ℝ), Family U m 1 2 1 v ∧ z ∈ U ∧ ∑ k, z k = 1 ∧ m.a z = 15 / 4 ∧
    ∃ b1 d1 e1 a1 b2 d2 e2 a2 b3 d3 e3 a3, ParamJets U m b1 d1 e1 a1 b2 d2 e2 a2 b3 d3 e3 a3 ∧ a1 0 z = 4 ∧ a2 0 0 z = 2 := by
  have hl : ∀ n : Fin 2 → ℝ, linz ![1, 0] n = n 0 := by intro n; simp [linz, Fin.sum_univ_two]
  let U : Set (Fin 2 → ℝ) := {n | 0 < n 0}
  let m : Params 2 := ⟨linz ![1, 0], fun _ => 1, fun _ => 0, fun n => (linz ![1, 0] n + 1) * (linz ![1, 0] n + 2)⟩
  have hU : IsOpen U := isOpen_lt continuous_const (continuous_apply 0)
  have jl := (linz_jet (![1, 0] : Fin 2 → ℝ)).mono (Set.subset_univ U)
  refine ⟨U, m, fun n => n 0 + 1, ![1 / 2, 1 / 2], ⟨hU, by fun_prop, fun n hn => ?_⟩, ?_, by norm_num [Fin.sum_univ_two], ?_, _, _, _, _, _, _, _, _, _, _, _, _,
    ⟨jl, const_jet U 1, const_jet U 0, (jl.add (const_jet U 1)).mul (jl.add (const_jet U 2))⟩, ?_, ?_⟩
  · have h0 : 0 < n 0 := hn
    refine ⟨one_pos, two_pos, one_pos, by simp [m, hl], by norm_num [m], ?_, ?_, ?_⟩
    · have : √((1 : ℝ) ^ 2 - 4 * 0) = 1 := by norm_num
      simp only [m, this]; linarith
    · simp only [m, pressure, hl]
      have h1 : (n 0 + 1) ^ 2 + 1 * (n 0 + 1) + 0 ≠ 0 := by positivity
      field_simp; ring
    · simp only [m, hl]
      have e : -(1 * 2) / (n 0 + 1 - n 0) ^ 2 + (n 0 + 1) * (n 0 + 2) * (2 * (n 0 + 1) + 1) / ((n 0 + 1) ^ 2 + 1 * (n 0 + 1) + 0) ^ 2 =
          -(2 * (n 0) ^ 2 + 4 * n 0 + 1) / ((n 0 + 1) * (n 0 + 2)) := by
        have h2 : (n 0 + 1) ^ 2 + 1 * (n 0 + 1) + 0 = (n 0 + 1) * (n 0 + 2) := by ring
        have h3 : n 0 + 1 - n 0 = 1 := by ring
        rw [h2, h3]
        field_simp; ring
      rw [e]
      exact (div_neg_of_neg_of_pos (by nlinarith) (by positivity)).ne
  · show (0 : ℝ) < (![1 / 2, 1 / 2] : Fin 2 → ℝ) 0
    norm_num
  · simp only [m, hl]; norm_num
  · simp only [hl]; norm_num
  · simp only [hl]; norm_num

/-- A mixture whose covolume, attraction and volume vary with composition: hypotheses of `C115_main` and `C115_more`. -/
example : ∃ (g : (Fin 2 → ℝ) → Departure.Fluid) (v : (Fin 2 → ℝ) → ℝ) (z db da dV : Fin 2 → ℝ), Comp g v 1 1 z 0 db (fun _ => 0) (fun _ => 0) da (fun _ => 0) (fun _ => 0) dV ∧ db 0 = 1 ∧ da 0 = 3 ∧ dV 0 = 2 ∧
    Departure.pT (g z) 1 (v z) ≠ 0 ∧ Departure.pV (g z) 1 (v z) ≠ 0 := by
  let g : (Fin 2 → ℝ) → Departure.Fluid := fun n => ⟨1, n 0, 1, 0, fun _ => 3 * n 0, fun _ => 0, fun _ => 0, fun _ => 0⟩
  have h0 : PD (fun n : Fin 2 → ℝ => n 0) 0 ![1 / 2, 1 / 2] 1 := (PD.coord 0 0 _).congr_d (by simp)
  refine ⟨g, fun n => 2 * n 0 + 2, ![1 / 2, 1 / 2], fun _ => 1, fun _ => 3, fun _ => 2,
    ⟨fun _ => rfl, h0, PD.const 1, PD.const 0, (h0.const_mul 3).congr_d (by norm_num), PD.const 0, PD.const 0, (((h0.const_mul 2).add (PD.const 2)).congr_d (by norm_num)), ?_⟩, rfl, rfl, rfl, ?_, ?_⟩
  · constructor <;> norm_num [g]
  · norm_num [g, Departure.pT, Departure.Fluid.main, Departure.main]
  · norm_num [g, Departure.pV, Departure.Fluid.main, Departure.main]

/-- Positive amounts with a pressure equal to the total amount: hypotheses of `C115_mixing` and `C115_conversion_second`. -/
example : ∃ (U : Set (Fin 2 → ℝ)) (p : (Fin 2 → ℝ) → ℝ) (P1 : Fin 2 → (Fin 2 → ℝ) → ℝ) (P2 : Fin 2 → Fin 2 → (Fin 2 → ℝ) → ℝ) (P3 : Fin 2 → Fin 2 → Fin 2 → (Fin 2 → ℝ) → ℝ) (z : Fin 2 → ℝ),
    IsOpen U ∧ Jet U p P1 P2 P3 ∧ (∀ n ∈ U, 0 < p n ∧ ∀ k, 0 < n k) ∧ z ∈ U ∧ ∑ k, z k = 1 ∧ P1 0 z = 1 := by
  refine ⟨{n | 0 < n 0} ∩ {n | 0 < n 1}, _, _, _, _, ![1 / 2, 1 / 2], (isOpen_lt continuous_const (continuous_apply 0)).inter (isOpen_lt continuous_const (continuous_apply 1)), total_jet _, ?_, ?_,
    by norm_num [Fin.sum_univ_two], rfl⟩
  · intro n hn
    have h0 : 0 < n 0 := hn.1
    have h1 : 0 < n 1 := hn.2
    refine ⟨by rw [Fin.sum_univ_two]; positivity, fun k => ?_⟩
    fin_cases k
    · exact h0
    · exact h1
  · constructor <;> norm_num

end Verif.MixSecond
