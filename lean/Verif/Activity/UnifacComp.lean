import Verif.Activity.Unifac

/-!
# The UNIFAC model (`thermo/unifac.py` 4163-4333, 4395-4490, 4750-4870, 4940-5157): composition derivatives

C98. Mole fractions are independent variables, as everywhere in the code.
-/

namespace Verif.Unifac

open Real Finset GibbsExcess

variable {M N : ℕ}

/-! ## Volume and area terms (4163-4212) -/

/-- `unifac_dVis_dxs`. -/
def dVis (rs : Fin N → ℝ) (s : ℝ) (i j : Fin N) : ℝ := rs i * (-s * s) * rs j

/-- `unifac_d2Vis_dxixjs`. -/
def d2Vis (rs : Fin N → ℝ) (s : ℝ) (i j k : Fin N) : ℝ := rs i * (2 * s * s * s) * rs j * rs k

/-- `unifac_d3Vis_dxixjxks`. -/
def d3Vis (rs : Fin N → ℝ) (s : ℝ) (i j k l : Fin N) : ℝ := rs i * (-6 * s * s * s * s) * rs j * rs k * rs l

theorem pd_sumInv (rs x : Fin N → ℝ) (j : Fin N) (h : ∑ i, rs i * x i ≠ 0) : PD (sumInv rs) j x (-(sumInv rs x * sumInv rs x) * rs j) := by
  have h1 : PD (fun x => ∑ i, rs i * x i) j x (rs j) := by
    have := PD.linear rs j x
    simpa only [mul_comm] using this
  have h2 := h1.inv h
  simp only [← one_div] at h2
  refine h2.congr_d ?_
  unfold sumInv
  field_simp

/-- **C98.** The derivatives of volume and area terms up to the third are derivatives of each other. -/
theorem C98_volumes (rs x : Fin N → ℝ) (h : ∑ i, rs i * x i ≠ 0) (i j k l : Fin N) :
    PD (fun x => Vis rs x i) j x (dVis rs (sumInv rs x) i j)
      ∧ PD (fun x => dVis rs (sumInv rs x) i j) k x (d2Vis rs (sumInv rs x) i j k)
      ∧ PD (fun x => d2Vis rs (sumInv rs x) i j k) l x (d3Vis rs (sumInv rs x) i j k l) := by
  have hs := fun j => pd_sumInv rs x j h
  refine ⟨?_, ?_, ?_⟩
  · unfold Vis dVis
    exact ((hs j).const_mul (rs i)).congr_d (by ring)
  · unfold dVis d2Vis
    exact ((((hs k).neg.mul (hs k)).const_mul (rs i)).mul_const (rs j)).congr_d (by ring)
  · unfold d2Vis d3Vis
    exact (((((((hs l).const_mul 2).mul (hs l)).mul (hs l)).const_mul (rs i)).mul_const (rs j)).mul_const (rs k)).congr_d (by ring)

/-! ## Group area fractions (4245-4333) -/

/-- `cmp_v_count` (5534-5539). -/
def VS (vs : Mat M N) (j : Fin N) : ℝ := ∑ k, vs k j

/-- `unifac_dThetas_dxs`. -/
def dThetas (Qs : Fin M → ℝ) (vs : Mat M N) (VS : Fin N → ℝ) (w : Fin M → ℝ) (F G : ℝ) (i : Fin M) (j : Fin N) : ℝ :=
  let tot0 := (∑ k, Qs k * w k) * F
  let tot1 := ∑ k, -(Qs k * vs k j)
  let vec0 := F * (G * (tot0 * VS j + tot1) - VS j)
  F * G * Qs i * (w i * vec0 + vs i j)

/-- `unifac_d2Thetas_dxixjs`; entry `[j][k][i]`. -/
noncomputable def d2Thetas (Qs : Fin M → ℝ) (vs : Mat M N) (VS : Fin N → ℝ) (w : Fin M → ℝ) (F : ℝ) (j k : Fin N) (i : Fin M) : ℝ :=
  let q := 1 / ∑ i, Qs i * w i
  let vec0 := fun j => ∑ n, Qs n * (-F * VS j * w n + vs n j)
  let tot0 := (∑ n, Qs n * (VS j * (-2 * F * VS k * w n + vs n k) + VS k * vs n j)) * F * q
  let v := -F * (VS j * vs i k + VS k * vs i j) + w i * tot0 + 2 * F * F * VS j * VS k * w i
  let v2 := v + q * (2 * q * w i * vec0 j * vec0 k - vs i j * vec0 k - vs i k * vec0 j + F * w i * (VS j * vec0 k + VS k * vec0 j))
  v2 * Qs i * q

/-- `unifac_ws` (4355-4367). -/
def ws (psis : Mat M M) (dTh : Mat M N) (k : Fin M) (i : Fin N) : ℝ := ∑ m, psis m k * dTh m i

/-- `unifac_dlnGammas_subgroups_dxs` (4395-4410). -/
def dlnGammas_dxs (Qs : Fin M → ℝ) (W : Mat M N) (psis : Mat M M) (th Z : Fin M → ℝ) (dTh : Mat M N) (k : Fin M) (i : Fin N) : ℝ :=
  (-W k i * Z k - ∑ m, psis k m * Z m * (dTh m i - W m i * Z m * th m)) * Qs k

/-- `unifac_d2lnGammas_subgroups_dTdxs` (4412-4449). -/
def d2lnGammas_dTdxs (Qs F Z : Fin M → ℝ) (W : Mat M N) (psis dpsis : Mat M M) (th : Fin M → ℝ) (dTh : Mat M N) (k : Fin M) (i : Fin N) : ℝ :=
  let mat0 := fun k j => ∑ m, dTh m j * dpsis m k
  let vec0 := fun i => Z i * Z i
  let vec1 := fun m => 2 * F m * vec0 m * Z m * th m
  (-(Z k * (mat0 k i - F k * W k i * Z k)
    + ∑ m, (dTh m i * Z m * (dpsis k m - F m * Z m * psis k m) - vec0 m * th m * (mat0 m i * psis k m + W m i * dpsis k m)
      + vec1 m * W m i * psis k m))) * Qs k

/-- `unifac_d2lnGammas_subgroups_dxixjs` (4451-4490); entry `[i][j][k]`. -/
def d2lnGammas_dxixjs (Qs Z : Fin M → ℝ) (W : Mat M N) (psis : Mat M M) (th : Fin M → ℝ) (dTh : Mat M N) (d2Th : Fin N → Fin N → Fin M → ℝ)
    (i j : Fin N) (k : Fin M) : ℝ :=
  let vec0 := fun k => ∑ m, psis m k * d2Th i j m
  (-((∑ m, (d2Th i j m + Z m * ((2 * W m i * W m j * Z m - vec0 m) * th m - (W m j * dTh m i + W m i * dTh m j))) * psis k m * Z m)
    + Z k * (vec0 k - W k i * W k j * Z k))) * Qs k

/-! ## Components (4750-4870, 4940-5157) -/

/-- `unifac_dlngammas_r_dxs`, also used for `d2lngammas_r_dTdxs` (7971). -/
def dlngammas_r_dxs (vs : Mat M N) (d : Mat M N) (i j : Fin N) : ℝ := ∑ m, vs m i * d m j

/-- `unifac_d2lngammas_r_dxixjs`. -/
def d2lngammas_r_dxixjs (vs : Mat M N) (d : Fin N → Fin N → Fin M → ℝ) (i j k : Fin N) : ℝ := ∑ m, vs m i * d j k m

/-- `unifac_dlngammas_c_dxs`. -/
noncomputable def dlngammas_c_dxs (version : ℕ) (qs F : Fin N → ℝ) (dF : Mat N N) (V : Fin N → ℝ) (dV : Mat N N) (Vm : Fin N → ℝ) (dVm : Mat N N)
    (i j : Fin N) : ℝ :=
  if version = 4 then -dVm i j + dVm i j / Vm i
  else -5 * qs i * ((dV i j - V i * dF i j * (1 / F i)) / V i - dV i j * (1 / F i) + V i * dF i j * (1 / F i) * (1 / F i))
    - dVm i j + dVm i j / Vm i

/-- `unifac_d2lngammas_c_dxixjs`. -/
noncomputable def d2lngammas_c_dxixjs (version : ℕ) (qs F : Fin N → ℝ) (dF : Mat N N) (d2F : Fin N → Mat N N) (V : Fin N → ℝ) (dV : Mat N N)
    (d2V : Fin N → Mat N N) (Vm : Fin N → ℝ) (dVm : Mat N N) (d2Vm : Fin N → Mat N N) (i j k : Fin N) : ℝ :=
  if version = 4 then -d2Vm i j k + 1 / Vm i * d2Vm i j k - 1 / Vm i ^ 2 * dVm i j * dVm i k
  else
    let Vi := V i
    let x1 := 1 / F i
    let x4 := x1 * x1
    let x5 := V i * x4
    let x15 := 1 / Vi
    let x6 := dF i j
    let x10 := dV i j
    let x0 := d2Vm i j k
    let x2 := d2V i j k
    let x3 := d2F i j k
    let x7 := dV i k
    let x8 := x6 * x7
    let x9 := dF i k
    let x11 := x10 * x9
    let x12 := 2 * x6 * x9
    let x13 := Vi * x1
    let x14 := x10 - x13 * x6
    5 * qs i * (-x1 * x14 * x15 * x9 + x1 * x2 - x11 * x4 + x15 * (x1 * x11 + x1 * x8 - x12 * x5 + x13 * x3 - x2)
        - x3 * x5 - x4 * x8 + x14 * x7 * (x15 * x15) + Vi * x12 * (x1 * x1 * x1))
      - x0 + x0 / Vm i - dVm i j * dVm i k * (1 / (Vm i * Vm i))

/-- `unifac_d3lngammas_c_dxixjxks`. -/
noncomputable def d3lngammas_c_dxixjxks (version : ℕ) (qs F : Fin N → ℝ) (dF : Mat N N) (d2F : Fin N → Mat N N) (d3F : Fin N → Fin N → Mat N N)
    (V : Fin N → ℝ) (dV : Mat N N) (d2V : Fin N → Mat N N) (d3V : Fin N → Fin N → Mat N N)
    (Vm : Fin N → ℝ) (dVm : Mat N N) (d2Vm : Fin N → Mat N N) (d3Vm : Fin N → Fin N → Mat N N) (i j k m : Fin N) : ℝ :=
  if version = 4 then
    d3Vm i j k m * (1 / Vm i - 1) - 1 / Vm i ^ 2 * (dVm i j * d2Vm i k m + dVm i k * d2Vm i j m + dVm i m * d2Vm i j k)
      + 2 / Vm i ^ 3 * dVm i j * dVm i k * dVm i m
  else
    let Vi := V i
    let ViD := Vm i
    let Fi := F i
    let qi := qs i
    let x0 := d3Vm i j k m
    let x1 := 1 / F i
    let x2 := 5 * qs i
    let x3 := x2 * d3F i j k m
    let x4 := x2 * d3V i j k m
    let x5 := 1 / Vm i ^ 2
    let x6 := dVm i j
    let x7 := dVm i k
    let x8 := dVm i m
    let x9 := 1 / F i ^ 2
    let x10 := x2 * x9
    let x11 := dF i j
    let x12 := d2F i k m
    let x13 := x11 * x12
    let x14 := d2V i k m
    let x15 := d2F i j m
    let x16 := dF i k
    let x17 := x10 * x16
    let x18 := d2V i j m
    let x19 := d2F i j k
    let x20 := dF i m
    let x21 := x10 * x20
    let x22 := d2V i j k
    let x23 := dV i j
    let x24 := dV i k
    let x25 := dV i m
    let x26 := x2 / V i ^ 2
    let x27 := 1 / F i ^ 3
    let x28 := 10 * qs i
    let x29 := x27 * x28
    let x30 := Vi * x29
    let x31 := x11 * x16
    let x32 := x20 * x29
    let x33 := x25 * x28
    (-Vi) * x3 * x9 - x0 + x1 * x3 + x1 * x4 - x10 * x11 * x14 - x10 * x12 * x23
      - x10 * x13 - x10 * x15 * x24 - x10 * x19 * x25 + x11 * x24 * x32 + x13 * x30
      + x14 * x23 * x26 + x15 * x16 * x30 - x15 * x17 + x16 * x23 * x32 - x17 * x18
      + x18 * x24 * x26 + x19 * x20 * x30 - x19 * x21 - x21 * x22 + x22 * x25 * x26
      + x27 * x31 * x33 + x31 * x32 - x5 * x6 * d2Vm i k m
      - x5 * x7 * d2Vm i j m
      - x5 * x8 * d2Vm i j k
      + x0 / ViD + 2 * x6 * x7 * x8 / ViD ^ 3 - x4 / Vi - x23 * x24 * x33 / Vi ^ 3 - 30 * Vi * qi * x20 * x31 / Fi ^ 4

/-- `unifac_dGE_dxs`, `unifac_dGE_dxs_skip_comb`. -/
def dGE_dxs (R T : ℝ) (xs r : Fin N → ℝ) (dr : Mat N N) (c : Fin N → ℝ) (dc : Mat N N) (i : Fin N) : ℝ :=
  (r i + c i + ∑ j, xs j * (dc j i + dr j i)) * (R * T)

/-- `unifac_d2GE_dTdxs`. -/
def d2GE_dTdxs (R T : ℝ) (xs r : Fin N → ℝ) (dr : Mat N N) (drdT : Fin N → ℝ) (d2r : Mat N N) (c : Fin N → ℝ) (dc : Mat N N) (i : Fin N) : ℝ :=
  (r i + c i + T * drdT i + ∑ j, (xs j * (dc j i + dr j i) + T * xs j * d2r j i)) * R

/-- `unifac_d2GE_dxixjs`. -/
def d2GE_dxixjs (R T : ℝ) (xs : Fin N → ℝ) (dr : Mat N N) (d2r : Fin N → Mat N N) (dc : Mat N N) (d2c : Fin N → Mat N N) (i j : Fin N) : ℝ :=
  (dc i j + dr i j + (dc j i + dr j i) + ∑ k, xs k * (d2c k i j + d2r k i j)) * (R * T)

/-- `unifac_dgammas_dns` (4966-4979). -/
def dgammas_dns (xs : Fin N → ℝ) (d : Mat N N) (i j : Fin N) : ℝ := d i j - ∑ k, xs k * d i k

namespace Model

variable (m : Model M N)

/-- `dThetas_dxs` (6524-6585). -/
noncomputable def dTh (x : Fin N → ℝ) : Mat M N :=
  dThetas m.Qs m.vs (VS m.vs) (VSXS m.vs x) (XsSumInv m.vs x) (thetaSumInv (Xs m.vs x) m.Qs)

/-- `d2Thetas_dxixjs` (6587-6661). -/
noncomputable def d2Th (x : Fin N → ℝ) : Fin N → Fin N → Fin M → ℝ :=
  d2Thetas m.Qs m.vs (VS m.vs) (VSXS m.vs x) (XsSumInv m.vs x)

/-- `Theta_Psi_sum_invs` (6722). -/
noncomputable def Z (T : ℝ) (x : Fin N → ℝ) : Fin M → ℝ := invs (thetaPsi (m.th x) (m.psis T))

/-- `Ws` (6750). -/
noncomputable def W (T : ℝ) (x : Fin N → ℝ) : Mat M N := ws (m.psis T) (m.dTh x)

/-- `dlnGammas_subgroups_dxs`, `d2lnGammas_subgroups_dTdxs`, `d2lnGammas_subgroups_dxixjs` (7010-7200). -/
noncomputable def dlnGdx (T : ℝ) (x : Fin N → ℝ) : Mat M N := dlnGammas_dxs m.Qs (m.W T x) (m.psis T) (m.th x) (m.Z T x) (m.dTh x)
@[inherit_doc dlnGdx] noncomputable def d2lnGdTdx (T : ℝ) (x : Fin N → ℝ) : Mat M N :=
  d2lnGammas_dTdxs m.Qs (thetaPsi (m.th x) (m.dpsis T)) (m.Z T x) (m.W T x) (m.psis T) (m.dpsis T) (m.th x) (m.dTh x)
@[inherit_doc dlnGdx] noncomputable def d2lnGdxx (T : ℝ) (x : Fin N → ℝ) : Fin N → Fin N → Fin M → ℝ :=
  d2lnGammas_dxixjs m.Qs (m.Z T x) (m.W T x) (m.psis T) (m.th x) (m.dTh x) (m.d2Th x)

/-- `dlngammas_r_dxs`, `d2lngammas_r_dTdxs`, `d2lngammas_r_dxixjs` (7905-8003). -/
noncomputable def drdx (T : ℝ) (x : Fin N → ℝ) : Mat N N := dlngammas_r_dxs m.vs (m.dlnGdx T x)
@[inherit_doc drdx] noncomputable def d2rdTdx (T : ℝ) (x : Fin N → ℝ) : Mat N N := dlngammas_r_dxs m.vs (m.d2lnGdTdx T x)
@[inherit_doc drdx] noncomputable def d2rdxx (T : ℝ) (x : Fin N → ℝ) : Fin N → Mat N N := d2lngammas_r_dxixjs m.vs (m.d2lnGdxx T x)

/-- `dlngammas_c_dxs`, `d2lngammas_c_dxixjs`, `d3lngammas_c_dxixjxks` (8489-8808), zero for version 3 (`skip_comb`). -/
noncomputable def dcdx (x : Fin N → ℝ) (i j : Fin N) : ℝ :=
  if m.version = 3 then 0 else dlngammas_c_dxs m.version m.qs (Vis m.qs x) (dVis m.qs (sumInv m.qs x)) (Vis m.rs x) (dVis m.rs (sumInv m.rs x))
    (Vis m.rsm x) (dVis m.rsm (sumInv m.rsm x)) i j
@[inherit_doc dcdx] noncomputable def d2cdxx (x : Fin N → ℝ) (i j k : Fin N) : ℝ :=
  if m.version = 3 then 0 else d2lngammas_c_dxixjs m.version m.qs (Vis m.qs x) (dVis m.qs (sumInv m.qs x)) (d2Vis m.qs (sumInv m.qs x))
    (Vis m.rs x) (dVis m.rs (sumInv m.rs x)) (d2Vis m.rs (sumInv m.rs x))
    (Vis m.rsm x) (dVis m.rsm (sumInv m.rsm x)) (d2Vis m.rsm (sumInv m.rsm x)) i j k
@[inherit_doc dcdx] noncomputable def d3cdxxx (x : Fin N → ℝ) (i j k l : Fin N) : ℝ :=
  if m.version = 3 then 0 else d3lngammas_c_dxixjxks m.version m.qs
    (Vis m.qs x) (dVis m.qs (sumInv m.qs x)) (d2Vis m.qs (sumInv m.qs x)) (d3Vis m.qs (sumInv m.qs x))
    (Vis m.rs x) (dVis m.rs (sumInv m.rs x)) (d2Vis m.rs (sumInv m.rs x)) (d3Vis m.rs (sumInv m.rs x))
    (Vis m.rsm x) (dVis m.rsm (sumInv m.rsm x)) (d2Vis m.rsm (sumInv m.rsm x)) (d3Vis m.rsm (sumInv m.rsm x)) i j k l

/-- `dGE_dxs`, `d2GE_dTdxs`, `d2GE_dxixjs` (8035-8156), `dgammas_dxs`, `dgammas_dns` (8303-8369). -/
noncomputable def dGEdx (R T : ℝ) (x : Fin N → ℝ) : Fin N → ℝ := Unifac.dGE_dxs R T x (m.r T x) (m.drdx T x) (m.comb x) (m.dcdx x)
@[inherit_doc dGEdx] noncomputable def d2GEdTdx (R T : ℝ) (x : Fin N → ℝ) : Fin N → ℝ :=
  Unifac.d2GE_dTdxs R T x (m.r T x) (m.drdx T x) (m.dr T x) (m.d2rdTdx T x) (m.comb x) (m.dcdx x)
@[inherit_doc dGEdx] noncomputable def d2GEdxx (R T : ℝ) (x : Fin N → ℝ) : Mat N N :=
  Unifac.d2GE_dxixjs R T x (m.drdx T x) (m.d2rdxx T x) (m.dcdx x) (m.d2cdxx x)
@[inherit_doc dGEdx] noncomputable def dgdx (T : ℝ) (x : Fin N → ℝ) (i j : Fin N) : ℝ := (m.drdx T x i j + m.dcdx x i j) * m.gammas T x i
@[inherit_doc dGEdx] noncomputable def dgdn (T : ℝ) (x : Fin N → ℝ) : Mat N N := Unifac.dgammas_dns x (m.dgdx T x)

/-- What is needed for the combinatorial part. -/
structure Sizes : Prop where
  rs : ∀ i, 0 < m.rs i
  qs : ∀ i, 0 < m.qs i

end Model

/-! ## Area fractions -/

section Area

variable {m : Model M N} {x : Fin N → ℝ}

theorem pd_VSXS (m : Model M N) (x : Fin N → ℝ) (k : Fin M) (j : Fin N) : PD (fun x => VSXS m.vs x k) j x (m.vs k j) := by
  have := PD.linear (m.vs k) j x
  unfold VSXS
  simpa only [mul_comm] using this

theorem XsSumInv_eq (m : Model M N) (x : Fin N → ℝ) : XsSumInv m.vs x = 1 / ∑ k, VSXS m.vs x k := rfl

theorem Xs_eq (m : Model M N) (x : Fin N → ℝ) (k : Fin M) : Xs m.vs x k = VSXS m.vs x k * XsSumInv m.vs x := rfl

theorem sum_XQ (m : Model M N) (x : Fin N → ℝ) : ∑ i, Xs m.vs x i * m.Qs i = (∑ k, m.Qs k * VSXS m.vs x k) * XsSumInv m.vs x := by
  rw [sum_mul]
  exact sum_congr rfl fun i _ => by rw [Xs_eq]; ring

theorem pd_XsSumInv (h : m.Ok x) (j : Fin N) : PD (XsSumInv m.vs) j x (-(XsSumInv m.vs x * XsSumInv m.vs x) * VS m.vs j) := by
  have h1 : PD (fun x => ∑ k, VSXS m.vs x k) j x (VS m.vs j) := PD.sum fun k _ => pd_VSXS m x k j
  have hc := (count_pos h).ne'
  have h2 := h1.inv hc
  simp only [← one_div] at h2
  refine h2.congr_d ?_
  rw [XsSumInv_eq]
  field_simp

theorem pd_area (m : Model M N) (x : Fin N → ℝ) (j : Fin N) : PD (fun x => ∑ k, m.Qs k * VSXS m.vs x k) j x (∑ k, m.Qs k * m.vs k j) :=
  PD.sum fun k _ => (pd_VSXS m x k j).const_mul (m.Qs k)

theorem pd_thetaSumInv (h : m.Ok x) (j : Fin N) : PD (fun x => thetaSumInv (Xs m.vs x) m.Qs) j x
    (-(thetaSumInv (Xs m.vs x) m.Qs * thetaSumInv (Xs m.vs x) m.Qs) * ((∑ k, m.Qs k * m.vs k j) * XsSumInv m.vs x
      + (∑ k, m.Qs k * VSXS m.vs x k) * (-(XsSumInv m.vs x * XsSumInv m.vs x) * VS m.vs j))) := by
  have h1 := (pd_area m x j).mul (pd_XsSumInv h j)
  have hne : (∑ k, m.Qs k * VSXS m.vs x k) * XsSumInv m.vs x ≠ 0 := by
    have := count_pos h
    have := area_pos h
    rw [XsSumInv_eq]
    positivity
  have h2 := h1.inv hne
  simp only [← one_div] at h2
  have e : (fun x => thetaSumInv (Xs m.vs x) m.Qs) = fun x => 1 / ((∑ k, m.Qs k * VSXS m.vs x k) * XsSumInv m.vs x) := by
    funext x; rw [thetaSumInv, sum_XQ]
  rw [congrFun e x, e]
  refine h2.congr_d ?_
  field_simp

theorem G_eq (h : m.Ok x) : thetaSumInv (Xs m.vs x) m.Qs = (∑ k, VSXS m.vs x k) / ∑ k, m.Qs k * VSXS m.vs x k := by
  have := (count_pos h).ne'
  have := (area_pos h).ne'
  rw [thetaSumInv, sum_XQ, XsSumInv_eq]
  field_simp

/-- The derivative of an area fraction in reduced form. -/
theorem dTh_eq (h : m.Ok x) (i : Fin M) (j : Fin N) : m.dTh x i j
    = m.Qs i * (m.vs i j / (∑ k, m.Qs k * VSXS m.vs x k) - VSXS m.vs x i * (∑ k, m.Qs k * m.vs k j) / (∑ k, m.Qs k * VSXS m.vs x k) ^ 2) := by
  have hc := (count_pos h).ne'
  have ha := (area_pos h).ne'
  unfold Model.dTh dThetas
  dsimp only
  rw [sum_neg_distrib, G_eq h, XsSumInv_eq]
  generalize ∑ k, VSXS m.vs x k = C at *
  generalize ∑ k, m.Qs k * VSXS m.vs x k = D at *
  field_simp
  ring

theorem sum_dTh (h : m.Ok x) (j : Fin N) : ∑ i, m.dTh x i j = 0 := by
  have ha := (area_pos h).ne'
  have e : ∀ i, m.dTh x i j = m.Qs i * m.vs i j * (1 / ∑ k, m.Qs k * VSXS m.vs x k)
      - m.Qs i * VSXS m.vs x i * ((∑ k, m.Qs k * m.vs k j) / (∑ k, m.Qs k * VSXS m.vs x k) ^ 2) := fun i => by
    rw [dTh_eq h]; ring
  simp only [e]
  rw [sum_sub_distrib, ← sum_mul, ← sum_mul]
  field_simp
  ring

/-- **C98.** The derivatives of group area fractions. -/
theorem C98_fractions (h : m.Ok x) (i : Fin M) (j k : Fin N) :
    PD (fun x => m.th x i) j x (m.dTh x i j) ∧ PD (fun x => m.dTh x i j) k x (m.d2Th x j k i) ∧ ∑ i, m.dTh x i j = 0 := by
  have hc := (count_pos h).ne'
  have ha := (area_pos h).ne'
  refine ⟨?_, ?_, sum_dTh h j⟩
  · have h1 := (((pd_VSXS m x i j).mul (pd_XsSumInv h j)).const_mul (m.Qs i)).mul (pd_thetaSumInv h j)
    unfold Model.th thetas
    simp only [Xs_eq]
    refine h1.congr_d ?_
    rw [dTh_eq h, G_eq h, XsSumInv_eq]
    generalize ∑ k, VSXS m.vs x k = C at *
    generalize ∑ k, m.Qs k * VSXS m.vs x k = D at *
    field_simp
    ring
  · unfold Model.dTh dThetas
    have hv := (((((pd_area m x k).mul (pd_XsSumInv h k)).mul_const (VS m.vs j)).add (PD.const (∑ k, -(m.Qs k * m.vs k j)))))
    have h1 := ((((pd_XsSumInv h k).mul (pd_thetaSumInv h k)).mul_const (m.Qs i)).mul
      (((pd_VSXS m x i k).mul ((pd_XsSumInv h k).mul (((pd_thetaSumInv h k).mul hv).sub (PD.const (VS m.vs j))))).add (PD.const (m.vs i j))))
    refine h1.congr_d ?_
    unfold Model.d2Th d2Thetas
    dsimp only
    have e1 : ∀ j, ∑ n, m.Qs n * (-XsSumInv m.vs x * VS m.vs j * VSXS m.vs x n + m.vs n j)
        = -XsSumInv m.vs x * VS m.vs j * (∑ k, m.Qs k * VSXS m.vs x k) + ∑ k, m.Qs k * m.vs k j := by
      intro j
      rw [mul_sum, ← sum_add_distrib]
      exact sum_congr rfl fun n _ => by ring
    have e2 : ∑ n, m.Qs n * (VS m.vs j * (-2 * XsSumInv m.vs x * VS m.vs k * VSXS m.vs x n + m.vs n k) + VS m.vs k * m.vs n j)
        = VS m.vs j * (-2 * XsSumInv m.vs x * VS m.vs k * (∑ k, m.Qs k * VSXS m.vs x k) + ∑ n, m.Qs n * m.vs n k)
          + VS m.vs k * ∑ n, m.Qs n * m.vs n j := by
      rw [mul_sum (a := -2 * XsSumInv m.vs x * VS m.vs k), ← sum_add_distrib, mul_sum, mul_sum, ← sum_add_distrib]
      exact sum_congr rfl fun n _ => by ring
    simp only [e1, e2, sum_neg_distrib]
    rw [G_eq h, XsSumInv_eq]
    generalize ∑ k, VSXS m.vs x k = C at *
    generalize ∑ k, m.Qs k * VSXS m.vs x k = D at *
    field_simp
    ring

end Area

/-! ## Groups -/

section Groups

variable {m : Model M N} {x : Fin N → ℝ}

theorem S_pos (h : m.Ok x) (T : ℝ) (k : Fin M) : 0 < thetaPsi (m.th x) (m.psis T) k :=
  thetaPsi_pos (C97_fractions h).1 (C97_fractions h).2.1 T k

theorem pd_thetaPsi (h : m.Ok x) (p : Mat M M) (k : Fin M) (j : Fin N) :
    PD (fun x => thetaPsi (m.th x) p k) j x (∑ n, m.dTh x n j * p n k) :=
  PD.sum fun n _ => ((C98_fractions h n j j).1).mul_const (p n k)

theorem W_eq (T : ℝ) (k : Fin M) (j : Fin N) : ∑ n, m.dTh x n j * m.psis T n k = m.W T x k j :=
  sum_congr rfl fun n _ => mul_comm _ _

theorem pd_Z (h : m.Ok x) (T : ℝ) (k : Fin M) (j : Fin N) : PD (fun x => m.Z T x k) j x (-(m.W T x k j * m.Z T x k * m.Z T x k)) := by
  have h1 := (pd_thetaPsi h (m.psis T) k j).inv (S_pos h T k).ne'
  simp only [← one_div] at h1
  unfold Model.Z invs
  refine h1.congr_d ?_
  rw [W_eq]
  have := (S_pos h T k).ne'
  field_simp

theorem pd_W (h : m.Ok x) (T : ℝ) (k : Fin M) (i j : Fin N) : PD (fun x => m.W T x k i) j x (∑ n, m.psis T n k * m.d2Th x i j n) := by
  unfold Model.W ws
  exact PD.sum fun n _ => ((C98_fractions h n i j).2.1).const_mul (m.psis T n k)

/-- **C98.** First and second composition derivatives and mixed derivatives of the activity coefficients of groups. -/
theorem C98_groups (h : m.Ok x) (T : ℝ) (hT : 0 < T) (k : Fin M) (i j : Fin N) :
    PD (fun x => m.lnG T (m.th x) k) j x (m.dlnGdx T x k j) ∧ PD (fun x => m.dlnGdx T x k i) j x (m.d2lnGdxx T x i j k)
      ∧ HasDerivAt (fun T => m.dlnGdx T x k j) (m.d2lnGdTdx T x k j) T ∧ PD (fun x => m.dlnG T (m.th x) k) j x (m.d2lnGdTdx T x k j) := by
  have hp := fun i j => C97_psi m.version (m.a i j) (m.b i j) (m.c i j) T hT
  have p1 : ∀ i j, HasDerivAt (fun T => m.psis T i j) (m.dpsis T i j) T := fun i j => (hp i j).1
  refine ⟨?_, ?_, ?_, ?_⟩
  · unfold Model.lnG lnGammas
    have hl := PD.comp (F := fun x => thetaPsi (m.th x) (m.psis T) k) (hasDerivAt_log (S_pos h T k).ne') (pd_thetaPsi h (m.psis T) k j)
    have h1 := (((PD.const 1).sub (PD.sum fun n (_ : n ∈ univ) => (((C98_fractions h n j j).1.mul (pd_Z h T n j)).mul_const (m.psis T k n)))).sub hl).const_mul (m.Qs k)
    refine h1.congr_d ?_
    rw [W_eq]
    unfold Model.dlnGdx dlnGammas_dxs
    have e : (thetaPsi (m.th x) (m.psis T) k)⁻¹ = m.Z T x k := (one_div _).symm
    rw [e]
    have e2 : ∀ A B C : ℝ, A = B → m.Qs k * (0 - A - m.Z T x k * C) = (-C * m.Z T x k - B) * m.Qs k := by
      intro A B C hh; rw [hh]; ring
    refine e2 _ _ _ (sum_congr rfl fun n _ => ?_)
    ring
  · unfold Model.dlnGdx dlnGammas_dxs
    have h1 := ((((pd_W h T k i j).neg.mul (pd_Z h T k j))).sub (PD.sum fun n (_ : n ∈ univ) =>
      ((pd_Z h T n j).const_mul (m.psis T k n)).mul (((C98_fractions h n i j).2.1).sub
        (((pd_W h T n i j).mul (pd_Z h T n j)).mul ((C98_fractions h n j j).1))))).mul_const (m.Qs k)
    refine h1.congr_d ?_
    unfold Model.d2lnGdxx d2lnGammas_dxixjs
    dsimp only
    have e2 : ∀ A B C D : ℝ, A = -D → B = C → (A - B) * m.Qs k = -(C + D) * m.Qs k := by
      intro A B C D h1 h2; rw [h1, h2]; ring
    refine e2 _ _ _ _ ?_ (sum_congr rfl fun n _ => ?_)
    · ring
    · ring
  · have s1 : ∀ n, HasDerivAt (fun T => thetaPsi (m.th x) (m.psis T) n) (thetaPsi (m.th x) (m.dpsis T) n) T :=
      fun n => deriv_thetaPsi (th' := m.th x) n p1
    have z1 : ∀ n, HasDerivAt (fun T => m.Z T x n) (-(thetaPsi (m.th x) (m.dpsis T) n * m.Z T x n * m.Z T x n)) T :=
      fun n => deriv_invs n (s1 n) (S_pos h T n).ne'
    have w1 : ∀ n, HasDerivAt (fun T => m.W T x n j) (∑ l, m.dTh x l j * m.dpsis T l n) T := by
      intro n
      refine (HasDerivAt.fun_sum fun l (_ : l ∈ univ) => (p1 l n).mul_const (m.dTh x l j)).congr_deriv ?_
      exact sum_congr rfl fun l _ => mul_comm _ _
    unfold Model.dlnGdx dlnGammas_dxs
    have h1 := (((w1 k).fun_neg.fun_mul (z1 k)).fun_sub (HasDerivAt.fun_sum fun n (_ : n ∈ univ) =>
      ((p1 k n).fun_mul (z1 n)).fun_mul ((((w1 n).fun_mul (z1 n)).mul_const (m.th x n)).const_sub (m.dTh x n j)))).mul_const (m.Qs k)
    refine h1.congr_deriv ?_
    unfold Model.d2lnGdTdx d2lnGammas_dTdxs
    dsimp only
    have e2 : ∀ A B C D : ℝ, A = -C → B = D → (A - B) * m.Qs k = -(C + D) * m.Qs k := by
      intro A B C D h1 h2; rw [h1, h2]; ring
    refine e2 _ _ _ _ ?_ (sum_congr rfl fun n _ => ?_)
    · ring
    · ring
  · unfold Model.dlnG dlnGammas_dT
    have hS := fun n => pd_thetaPsi h (m.dpsis T) n j
    have h1 := ((PD.sum fun n (_ : n ∈ univ) => (((((hS n).const_mul (m.psis T k n)).mul (pd_Z h T n j)).sub (PD.const (m.dpsis T k n))).mul (pd_Z h T n j)).mul
      ((C98_fractions h n j j).1)).sub ((hS k).mul (pd_Z h T k j))).const_mul (m.Qs k)
    refine h1.congr_d ?_
    unfold Model.d2lnGdTdx d2lnGammas_dTdxs
    dsimp only
    have e2 : ∀ A B C D : ℝ, A = -D → B = C → m.Qs k * (A - B) = -(C + D) * m.Qs k := by
      intro A B C D h1 h2; rw [h1, h2]; ring
    refine e2 _ _ _ _ ?_ ?_
    · rw [← sum_neg_distrib]
      refine sum_congr rfl fun n _ => ?_
      have e : invs (thetaPsi (m.th x) (m.psis T)) n = m.Z T x n := rfl
      unfold Model.Z
      ring
    · unfold Model.Z
      ring

end Groups

/-! ## Components -/

section Components

variable {m : Model M N} {x : Fin N → ℝ}

theorem rsm_pos (hs : m.Sizes) (i : Fin N) : 0 < m.rsm i := by
  unfold Model.rsm
  split_ifs
  · exact rpow_pos_of_pos (hs.rs i) _
  · exact rpow_pos_of_pos (hs.rs i) _
  · exact hs.rs i

theorem sum_pos_of (h : m.Ok x) {rs : Fin N → ℝ} (hr : ∀ i, 0 < rs i) : 0 < ∑ i, rs i * x i := by
  have hne : ∃ i, x i ≠ 0 := by
    by_contra hh
    push Not at hh
    have := h.sum
    simp [hh] at this
  obtain ⟨i, hi⟩ := hne
  exact sum_pos' (fun j _ => mul_nonneg (hr j).le (h.nonneg j)) ⟨i, mem_univ i, mul_pos (hr i) (lt_of_le_of_ne (h.nonneg i) hi.symm)⟩

theorem Vis_pos (h : m.Ok x) {rs : Fin N → ℝ} (hr : ∀ i, 0 < rs i) (i : Fin N) : 0 < Vis rs x i := by
  have := sum_pos_of h hr
  have := hr i
  unfold Vis sumInv
  positivity

theorem pd_logVis (h : m.Ok x) {rs : Fin N → ℝ} (hr : ∀ i, 0 < rs i) (i j : Fin N) :
    PD (fun x => log (Vis rs x i)) j x (dVis rs (sumInv rs x) i j / Vis rs x i) := by
  have h1 := PD.comp (F := fun x => Vis rs x i) (hasDerivAt_log (Vis_pos h hr i).ne') (C98_volumes rs x (sum_pos_of h hr).ne' i j j j).1
  exact h1.congr_d (by ring)

/-- **C98.** Composition derivatives of the combinatorial part up to the third, in all versions. -/
theorem C98_combinatorial (h : m.Ok x) (hs : m.Sizes) (hN : N ≠ 1) (i j k l : Fin N) :
    PD (fun x => m.comb x i) j x (m.dcdx x i j) ∧ PD (fun x => m.dcdx x i j) k x (m.d2cdxx x i j k)
      ∧ PD (fun x => m.d2cdxx x i j k) l x (m.d3cdxxx x i j k l) := by
  unfold Model.comb Model.dcdx Model.d2cdxx Model.d3cdxxx
  by_cases h3 : m.version = 3
  · simp only [if_pos h3]
    exact ⟨PD.const 0, PD.const 0, PD.const 0⟩
  simp only [if_neg h3, if_pos hN]
  have V := fun i j k l => C98_volumes m.rs x (sum_pos_of h hs.rs).ne' i j k l
  have F := fun i j k l => C98_volumes m.qs x (sum_pos_of h hs.qs).ne' i j k l
  have W := fun i j k l => C98_volumes m.rsm x (sum_pos_of h (rsm_pos hs)).ne' i j k l
  have v0 := (Vis_pos h hs.rs i).ne'
  have f0 := (Vis_pos h hs.qs i).ne'
  have w0 := (Vis_pos h (rsm_pos hs) i).ne'
  have lw := fun j => pd_logVis h (rsm_pos hs) i j
  have lvf : ∀ j, PD (fun x => log (Vis m.rs x i / Vis m.qs x i)) j x
      (dVis m.rs (sumInv m.rs x) i j / Vis m.rs x i - dVis m.qs (sumInv m.qs x) i j / Vis m.qs x i) := by
    intro j
    have h1 := PD.comp (F := fun x => Vis m.rs x i / Vis m.qs x i) (hasDerivAt_log (div_ne_zero v0 f0)) ((V i j j j).1.div (F i j j j).1 f0)
    refine h1.congr_d ?_
    field_simp
  by_cases h4 : m.version = 4
  · unfold lngammas_c dlngammas_c_dxs d2lngammas_c_dxixjs d3lngammas_c_dxixjxks
    simp only [if_pos h4]
    refine ⟨?_, ?_, ?_⟩
    · exact (((lw j).add (PD.const 1)).sub (W i j j j).1).congr_d (by ring)
    · refine ((W i j k k).2.1.neg.add ((W i j k k).2.1.div (W i k k k).1 w0)).congr_d ?_
      field_simp
      ring
    · have hi := ((PD.const (j := l) 1).div (W i l l l).1 w0)
      have hi2 := (PD.const (j := l) 1).div (((W i l l l).1.mul (W i l l l).1)) (mul_ne_zero w0 w0)
      simp only [← pow_two] at hi2
      refine (((W i j k l).2.2.neg.add (hi.mul (W i j k l).2.2)).sub ((hi2.mul (W i j l l).2.1).mul (W i k l l).2.1)).congr_d ?_
      field_simp
      ring
  · unfold lngammas_c dlngammas_c_dxs d2lngammas_c_dxixjs d3lngammas_c_dxixjxks
    simp only [if_neg h4]
    refine ⟨?_, ?_, ?_⟩
    · refine ((((PD.const 1).sub (W i j j j).1).add (lw j)).sub
        ((((PD.const 1).sub ((V i j j j).1.div (F i j j j).1 f0)).add (lvf j)).const_mul (5 * m.qs i))).congr_d ?_
      field_simp
      ring
    · have hi := ((PD.const (j := k) 1).div (F i k k k).1 f0)
      have hv := (V i k k k).1
      have hd := (V i j k k).2.1
      have hf := (F i j k k).2.1
      refine (((((((hd.sub ((hv.mul hf).mul hi)).div hv v0).sub (hd.mul hi)).add (((hv.mul hf).mul hi).mul hi)).const_mul (-5 * m.qs i)).sub
        (W i j k k).2.1).add ((W i j k k).2.1.div (W i k k k).1 w0)).congr_d ?_
      field_simp
      ring
    · have hv := (V i l l l).1
      have hf := (F i l l l).1
      have hw := (W i l l l).1
      have hi := (PD.const (j := l) 1).div hf f0
      have hiv := (PD.const (j := l) 1).div hv v0
      have hiw := (PD.const (j := l) 1).div (hw.mul hw) (mul_ne_zero w0 w0)
      have x6 := (F i j l l).2.1
      have x10 := (V i j l l).2.1
      have x0 := (W i j k l).2.2
      have x2 := (V i j k l).2.2
      have x3 := (F i j k l).2.2
      have x7 := (V i k l l).2.1
      have x9 := (F i k l l).2.1
      have x8 := x6.mul x7
      have x4 := hi.mul hi
      have x5 := hv.mul x4
      have x11 := x10.mul x9
      have x12 := (x6.const_mul 2).mul x9
      have x13 := hv.mul hi
      have x14 := x10.sub (x13.mul x6)
      have big := ((((((((((hi.neg.mul x14).mul hiv).mul x9).add (hi.mul x2)).sub (x11.mul x4)).add
        (hiv.mul (((((hi.mul x11).add (hi.mul x8)).sub (x12.mul x5)).add (x13.mul x3)).sub x2))).sub (x3.mul x5)).sub (x4.mul x8)).add
        ((x14.mul x7).mul (hiv.mul hiv))).add ((hv.mul x12).mul ((hi.mul hi).mul hi)))
      have all := (((big.const_mul (5 * m.qs i)).sub x0).add (x0.div hw w0)).sub ((((W i j l l).2.1.mul (W i k l l).2.1)).mul hiw)
      refine all.congr_d ?_
      generalize Vis m.rs x i = v at *
      generalize Vis m.qs x i = f at *
      generalize Vis m.rsm x i = w at *
      field_simp
      ring

/-- **C98.** Composition and mixed derivatives of the residual part. -/
theorem C98_residual (h : m.Ok x) (hN : N ≠ 1) (T : ℝ) (hT : 0 < T) (i j k : Fin N) :
    PD (fun x => m.r T x i) j x (m.drdx T x i j) ∧ PD (fun x => m.drdx T x i j) k x (m.d2rdxx T x i j k)
      ∧ HasDerivAt (fun T => m.drdx T x i j) (m.d2rdTdx T x i j) T ∧ PD (fun x => m.dr T x i) j x (m.d2rdTdx T x i j) := by
  have g := fun n j k => C98_groups h T hT n j k
  refine ⟨?_, ?_, ?_, ?_⟩
  · simp only [Model.r, if_pos hN]
    unfold lngammas_r
    refine (PD.sum fun n _ => (((g n j j).1.sub (PD.const _)).const_mul (m.vs n i))).congr_d ?_
    exact sum_congr rfl fun n _ => by rw [sub_zero]
  · unfold Model.drdx dlngammas_r_dxs
    exact PD.sum fun n _ => (g n j k).2.1.const_mul (m.vs n i)
  · unfold Model.drdx dlngammas_r_dxs
    exact HasDerivAt.fun_sum fun n _ => (g n j j).2.2.1.const_mul (m.vs n i)
  · unfold Model.dr lngammas_r
    refine (PD.sum fun n _ => (((g n j j).2.2.2.sub (PD.const _)).const_mul (m.vs n i))).congr_d ?_
    exact sum_congr rfl fun n _ => by rw [sub_zero]

theorem pd_xf {f : Fin N → (Fin N → ℝ) → ℝ} {d : Fin N → ℝ} (j : Fin N) (hf : ∀ i, PD (f i) j x (d i)) :
    PD (fun x => ∑ i, x i * f i x) j x (f j x + ∑ i, x i * d i) := by
  refine (PD.sum fun i (_ : i ∈ univ) => (PD.coord i j x).mul (hf i)).congr_d ?_
  rw [sum_add_distrib]
  simp

/-- **C98.** Composition and mixed derivatives of the excess Gibbs energy. -/
theorem C98_GE (h : m.Ok x) (hs : m.Sizes) (hN : N ≠ 1) (R T : ℝ) (hT : 0 < T) (i j : Fin N) :
    PD (fun x => m.GE R T x) i x (m.dGEdx R T x i) ∧ PD (fun x => m.dGEdx R T x i) j x (m.d2GEdxx R T x i j)
      ∧ HasDerivAt (fun T => m.dGEdx R T x i) (m.d2GEdTdx R T x i) T := by
  have c := fun i j k => C98_combinatorial h hs hN i j k k
  have r := fun i j k => C98_residual h hN T hT i j k
  refine ⟨?_, ?_, ?_⟩
  · simp only [Model.GE, if_neg hN]
    unfold Unifac.GE
    refine ((pd_xf i fun n => (c n i i).1.add (r n i i).1).mul_const (R * T)).congr_d ?_
    unfold Model.dGEdx dGE_dxs
    ring
  · unfold Model.dGEdx dGE_dxs
    refine ((((r i j j).1.add (c i j j).1).add (pd_xf j fun n => (c n i j).2.1.add (r n i j).2.1)).mul_const (R * T)).congr_d ?_
    unfold Model.d2GEdxx d2GE_dxixjs
    ring
  · unfold Model.dGEdx dGE_dxs
    have h1 := ((((C97_residual_dT h hN T hT i).1.add_const (m.comb x i)).fun_add (HasDerivAt.fun_sum fun n (_ : n ∈ univ) =>
      ((r n i i).2.2.1.const_add (m.dcdx x n i)).const_mul (x n))).fun_mul ((hasDerivAt_id' T).const_mul R))
    refine h1.congr_deriv ?_
    unfold Model.d2GEdTdx d2GE_dTdxs
    rw [sum_add_distrib, sum_congr rfl fun n _ => (by ring : T * x n * m.d2rdTdx T x n i = T * (x n * m.d2rdTdx T x n i)), ← mul_sum]
    ring

/-- The residual part alone satisfies the Gibbs-Duhem equation. -/
theorem duhem_r (h : m.Ok x) (T : ℝ) (j : Fin N) : ∑ i, x i * m.drdx T x i j = 0 := by
  have hc := (count_pos h).ne'
  have ha := (area_pos h).ne'
  have e1 : ∑ i, x i * m.drdx T x i j = ∑ k, VSXS m.vs x k * m.dlnGdx T x k j := by
    unfold Model.drdx dlngammas_r_dxs VSXS
    simp only [mul_sum, sum_mul]
    rw [sum_comm]
    exact sum_congr rfl fun k _ => sum_congr rfl fun i _ => by ring
  have e2 : ∀ k, VSXS m.vs x k * m.dlnGdx T x k j = (∑ k, m.Qs k * VSXS m.vs x k)
      * (m.th x k * (-m.W T x k j * m.Z T x k) - ∑ n, m.th x k * m.psis T k n * (m.Z T x n * (m.dTh x n j - m.W T x n j * m.Z T x n * m.th x n))) := by
    intro k
    have : VSXS m.vs x k * m.Qs k = (∑ k, m.Qs k * VSXS m.vs x k) * m.th x k := by
      rw [th_eq hc]; field_simp
    unfold Model.dlnGdx dlnGammas_dxs
    have e : ∑ n, m.th x k * m.psis T k n * (m.Z T x n * (m.dTh x n j - m.W T x n j * m.Z T x n * m.th x n))
        = m.th x k * ∑ n, m.psis T k n * m.Z T x n * (m.dTh x n j - m.W T x n j * m.Z T x n * m.th x n) := by
      rw [mul_sum]; exact sum_congr rfl fun n _ => by ring
    rw [e]
    linear_combination (-m.W T x k j * m.Z T x k - ∑ n, m.psis T k n * m.Z T x n * (m.dTh x n j - m.W T x n j * m.Z T x n * m.th x n)) * this
  rw [e1, sum_congr rfl fun k _ => e2 k, ← mul_sum, sum_sub_distrib, sum_comm (f := fun k n => m.th x k * m.psis T k n * _)]
  have e3 : ∀ n, ∑ k, m.th x k * m.psis T k n * (m.Z T x n * (m.dTh x n j - m.W T x n j * m.Z T x n * m.th x n))
      = m.dTh x n j - m.W T x n j * m.Z T x n * m.th x n := by
    intro n
    rw [← sum_mul]
    have hS := (S_pos h T n).ne'
    have : thetaPsi (m.th x) (m.psis T) n * m.Z T x n = 1 := by
      unfold Model.Z invs; field_simp
    unfold thetaPsi at this
    rw [← mul_assoc, this, one_mul]
  rw [sum_congr rfl fun n _ => e3 n, sum_sub_distrib, sum_dTh h j]
  rw [sum_congr rfl fun k _ => (by ring : m.th x k * (-m.W T x k j * m.Z T x k) = -(m.W T x k j * m.Z T x k * m.th x k)), sum_neg_distrib]
  ring

theorem duhem_V (h : m.Ok x) {rs : Fin N → ℝ} (hr : ∀ i, 0 < rs i) (j : Fin N) :
    ∑ i, x i * (-dVis rs (sumInv rs x) i j + dVis rs (sumInv rs x) i j / Vis rs x i) = 0 := by
  have hS := (sum_pos_of h hr).ne'
  have e : ∀ i, x i * (-dVis rs (sumInv rs x) i j + dVis rs (sumInv rs x) i j / Vis rs x i)
      = rs j * sumInv rs x * sumInv rs x * (rs i * x i) - rs j * sumInv rs x * x i := by
    intro i
    have h1 := (hr i).ne'
    have h2 : sumInv rs x ≠ 0 := by unfold sumInv; exact one_div_ne_zero hS
    unfold dVis Vis
    field_simp
    ring
  rw [sum_congr rfl fun i _ => e i, sum_sub_distrib, ← mul_sum, ← mul_sum, h.sum]
  unfold sumInv
  field_simp
  ring

theorem duhem_VF (h : m.Ok x) {rs qs : Fin N → ℝ} (hr : ∀ i, 0 < rs i) (hq : ∀ i, 0 < qs i) (j : Fin N) :
    ∑ i, x i * (-5 * qs i * ((dVis rs (sumInv rs x) i j - Vis rs x i * dVis qs (sumInv qs x) i j * (1 / Vis qs x i)) / Vis rs x i
      - dVis rs (sumInv rs x) i j * (1 / Vis qs x i) + Vis rs x i * dVis qs (sumInv qs x) i j * (1 / Vis qs x i) * (1 / Vis qs x i))) = 0 := by
  have hS := (sum_pos_of h hr).ne'
  have hQ := (sum_pos_of h hq).ne'
  have h2 : sumInv rs x ≠ 0 := by unfold sumInv; exact one_div_ne_zero hS
  have h3 : sumInv qs x ≠ 0 := by unfold sumInv; exact one_div_ne_zero hQ
  have e : ∀ i, x i * (-5 * qs i * ((dVis rs (sumInv rs x) i j - Vis rs x i * dVis qs (sumInv qs x) i j * (1 / Vis qs x i)) / Vis rs x i
      - dVis rs (sumInv rs x) i j * (1 / Vis qs x i) + Vis rs x i * dVis qs (sumInv qs x) i j * (1 / Vis qs x i) * (1 / Vis qs x i)))
      = -5 * (sumInv qs x * qs j - sumInv rs x * rs j) * (qs i * x i)
        + 5 * (sumInv qs x * qs j - sumInv rs x * rs j) * (sumInv rs x / sumInv qs x) * (rs i * x i) := by
    intro i
    have h1 := (hr i).ne'
    have h4 := (hq i).ne'
    unfold dVis Vis
    field_simp
    ring
  rw [sum_congr rfl fun i _ => e i, sum_add_distrib, ← mul_sum, ← mul_sum]
  have e1 : ∑ i, rs i * x i = 1 / sumInv rs x := by unfold sumInv; rw [one_div_one_div]
  have e2 : ∑ i, qs i * x i = 1 / sumInv qs x := by unfold sumInv; rw [one_div_one_div]
  rw [e1, e2]
  field_simp
  ring

theorem duhem_c (h : m.Ok x) (hs : m.Sizes) (j : Fin N) : ∑ i, x i * m.dcdx x i j = 0 := by
  unfold Model.dcdx
  by_cases h3 : m.version = 3
  · simp [h3]
  simp only [if_neg h3]
  unfold dlngammas_c_dxs
  by_cases h4 : m.version = 4
  · simp only [if_pos h4]
    exact duhem_V h (rsm_pos hs) j
  · simp only [if_neg h4]
    have h1 := duhem_V h (rsm_pos hs) j
    have h2 := duhem_VF h hs.rs hs.qs j
    have := congrArg₂ (· + ·) h2 h1
    simp only [← sum_add_distrib, add_zero] at this
    rw [← this]
    exact sum_congr rfl fun i _ => by ring

/-- **C98 (Gibbs-Duhem).** In all versions the changes of the logarithms of the activity coefficients weighted with the mole fractions cancel,
for a change of any single mole fraction. -/
theorem C98_gibbs_duhem (h : m.Ok x) (hs : m.Sizes) (T : ℝ) (j : Fin N) : ∑ i, x i * (m.drdx T x i j + m.dcdx x i j) = 0 := by
  rw [sum_congr rfl fun i _ => mul_add (x i) _ _, sum_add_distrib, duhem_r h T j, duhem_c h hs j, add_zero]

/-- **C98.** The activity coefficients are those that follow from the excess Gibbs energy: its derivatives are `RT` times their logarithms, and
the general method of the base class (`GibbsExcess.gammas`), which this class replaces, gives the same. -/
theorem C98_generic (h : m.Ok x) (hs : m.Sizes) (hN : N ≠ 1) (R T : ℝ) (hR : R ≠ 0) (hT : T ≠ 0) (i : Fin N) :
    m.dGEdx R T x i = R * T * log (m.gammas T x i) ∧ GibbsExcess.gammas R T (m.GE R T x) x (m.dGEdx R T x) i = m.gammas T x i := by
  have e : ∀ i, m.dGEdx R T x i = R * T * (m.r T x i + m.comb x i) := by
    intro i
    unfold Model.dGEdx dGE_dxs
    have := C98_gibbs_duhem h hs T i
    rw [sum_congr rfl fun j _ => (by ring : x j * (m.dcdx x j i + m.drdx T x j i) = x j * (m.drdx T x j i + m.dcdx x j i)), this]
    ring
  refine ⟨by rw [e, Model.gammas, log_exp], ?_⟩
  unfold GibbsExcess.gammas Model.gammas
  congr 1
  simp only [e]
  rw [Model.GE, if_neg hN, Unifac.GE]
  have e3 : ∑ j, x j * (R * T * (m.r T x j + m.comb x j)) = (∑ j, x j * (m.comb x j + m.r T x j)) * (R * T) := by
    rw [sum_mul]; exact sum_congr rfl fun j _ => by ring
  rw [e3]
  field_simp
  ring

theorem diff_th (h : m.Ok x) (k : Fin M) : DifferentiableAt ℝ (fun x => m.th x k) x := by
  have hc : ∑ i, ∑ j, m.vs i j * x j ≠ 0 := (count_pos h).ne'
  have hF : DifferentiableAt ℝ (fun x => XsSumInv m.vs x) x := by
    unfold XsSumInv
    fun_prop (disch := assumption)
  have hX : ∀ k, DifferentiableAt ℝ (fun x => Xs m.vs x k) x := by
    intro k
    unfold Xs
    fun_prop
  have hS : ∑ i, Xs m.vs x i * m.Qs i ≠ 0 := by
    rw [sum_XQ, XsSumInv_eq]
    have := count_pos h
    have := area_pos h
    positivity
  unfold Model.th thetas thetaSumInv
  fun_prop (disch := assumption)

theorem diff_gammas (h : m.Ok x) (hs : m.Sizes) (T : ℝ) (i : Fin N) : DifferentiableAt ℝ (fun x => m.gammas T x i) x := by
  have ht := fun k => diff_th h k
  have hS : ∀ k, DifferentiableAt ℝ (fun x => thetaPsi (m.th x) (m.psis T) k) x := by
    intro k
    unfold thetaPsi
    fun_prop
  have h0 := fun k => (S_pos h T k).ne'
  have hL : ∀ k, DifferentiableAt ℝ (fun x => m.lnG T (m.th x) k) x := by
    intro k
    unfold Model.lnG lnGammas invs
    have h1 : ∀ n, DifferentiableAt ℝ (fun x => 1 / thetaPsi (m.th x) (m.psis T) n) x := fun n => by
      have h1 := hS n
      have h2 := h0 n
      fun_prop (disch := assumption)
    have h2 : DifferentiableAt ℝ (fun x => log (thetaPsi (m.th x) (m.psis T) k)) x := (hS k).log (h0 k)
    fun_prop
  have hr : DifferentiableAt ℝ (fun x => m.r T x i) x := by
    unfold Model.r
    split_ifs
    · unfold lngammas_r
      fun_prop
    · exact differentiableAt_const _
  have hV : ∀ rs : Fin N → ℝ, (∀ i, 0 < rs i) → DifferentiableAt ℝ (fun x => Vis rs x i) x := by
    intro rs hrs
    have := (sum_pos_of h hrs).ne'
    unfold Vis sumInv
    fun_prop (disch := assumption)
  have hc : DifferentiableAt ℝ (fun x => m.comb x i) x := by
    unfold Model.comb
    split_ifs
    · exact differentiableAt_const _
    · have h1 := hV _ hs.rs
      have h2 := hV _ hs.qs
      have h3 := hV _ (rsm_pos hs)
      have v0 := (Vis_pos h hs.rs i).ne'
      have f0 := (Vis_pos h hs.qs i).ne'
      have w0 := (Vis_pos h (rsm_pos hs) i).ne'
      have l3 := h3.log w0
      have d12 : DifferentiableAt ℝ (fun x => Vis m.rs x i / Vis m.qs x i) x := by fun_prop (disch := assumption)
      have l12 := d12.log (div_ne_zero v0 f0)
      unfold lngammas_c
      split_ifs
      · fun_prop
      · fun_prop
    · exact differentiableAt_const _
  unfold Model.gammas
  fun_prop

/-- **C98.** Derivatives of the activity coefficients with respect to mole fractions and, at a total amount of one, to amounts. -/
theorem C98_gammas (h : m.Ok x) (hs : m.Sizes) (hN : N ≠ 1) (T : ℝ) (hT : 0 < T) (i j : Fin N) :
    PD (fun x => m.gammas T x i) j x (m.dgdx T x i j)
      ∧ PD (fun n => m.gammas T (fun k => n k / ∑ l, n l) i) j x (m.dgdn T x i j) := by
  have h1 : ∀ j, PD (fun x => m.gammas T x i) j x (m.dgdx T x i j) := by
    intro j
    unfold Model.gammas
    have := PD.comp (F := fun x => m.r T x i + m.comb x i) (Real.hasDerivAt_exp _) ((C98_residual h hN T hT i j j).1.add (C98_combinatorial h hs hN i j j j).1)
    refine this.congr_d ?_
    unfold Model.dgdx Model.gammas
    ring
  refine ⟨h1 j, ?_⟩
  exact C23_dns (g := fun j => m.dgdx T x i j) h.sum (diff_gammas h hs T i) h1 j

theorem demo_sizes : demo.Sizes := ⟨by intro i; fin_cases i <;> norm_num [demo], by intro i; fin_cases i <;> norm_num [demo]⟩

example : GibbsExcess.gammas 8 300 (demo.GE 8 300 ![1 / 4, 3 / 4]) ![1 / 4, 3 / 4] (demo.dGEdx 8 300 ![1 / 4, 3 / 4]) 0 = demo.gammas 300 ![1 / 4, 3 / 4] 0 :=
  (C98_generic (demo_ok (by intro i; fin_cases i <;> norm_num) (by simp [Fin.sum_univ_two]; norm_num)) demo_sizes (by decide) 8 300 (by norm_num) (by norm_num) 0).2

example (i j : Fin 2) := C98_gammas (m := demo) (x := ![1 / 4, 3 / 4])
  (demo_ok (by intro i; fin_cases i <;> norm_num) (by simp [Fin.sum_univ_two]; norm_num)) demo_sizes (by decide) 300 (by norm_num) i j

end Components

end Verif.Unifac
