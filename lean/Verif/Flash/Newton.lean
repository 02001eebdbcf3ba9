import Mathlib.Data.Real.Basic
import Mathlib.Analysis.SpecialFunctions.Log.Basic
import Mathlib.Analysis.SpecialFunctions.Log.Deriv
import Mathlib.Analysis.SpecialFunctions.Exp
import Mathlib.Analysis.SpecialFunctions.ExpDeriv
import Mathlib.Analysis.Calculus.Deriv.Prod
import Mathlib.Analysis.Calculus.Deriv.Comp
import Mathlib.Analysis.Calculus.Deriv.Inv
import Mathlib.Analysis.Calculus.Deriv.Pow
import Mathlib.Analysis.Calculus.FDeriv.Pi
import Mathlib.Analysis.Calculus.FDeriv.Mul
import Mathlib.Tactic.Ring
import Mathlib.Tactic.Linarith
import Mathlib.Tactic.FieldSimp
import Mathlib.Tactic.NormNum
import Mathlib.Algebra.BigOperators.Fin
import Mathlib.Algebra.BigOperators.Field

/-!
# Simultaneous solution of the equilibrium equations (`thermo/flash/flash_utils.py` 677-1366, 1644-1687, 1775-1958)

C91: a zero of the equations handed to the solvers is an equilibrium with material balance, and the matrices of derivatives
handed to Newton's method are the derivatives of the equations.

A phase at given conditions is its function from composition to logarithms of fugacity coefficients, with a matrix of
derivatives supplied by the phase. The solvers (`newton_system`, `root`, `fsolve`) are external. Truncation of logarithms
and exponentials is not modelled.
-/

namespace Verif.FlashNewton

open scoped BigOperators

/-- A composition, or amounts. -/
abbrev Comp (n : ℕ) := Fin n → ℝ

/-- `D` is the vector of partial derivatives of the differentiable function `f` at `x`. -/
def Grad {n : ℕ} (f : Comp n → ℝ) (D x : Comp n) : Prop :=
  HasFDerivAt f (∑ k, D k • (ContinuousLinearMap.proj k : Comp n →L[ℝ] ℝ)) x

theorem Grad.along {n : ℕ} {f : Comp n → ℝ} {D c' : Comp n} {c : ℝ → Comp n} {t : ℝ} (h : Grad f D (c t))
    (hc : ∀ k, HasDerivAt (fun s => c s k) (c' k) t) : HasDerivAt (fun s => f (c s)) (∑ k, D k * c' k) t := by
  have h1 : HasDerivAt c c' t := hasDerivAt_pi.2 hc
  have h2 := HasFDerivAt.comp_hasDerivAt t h h1
  refine h2.congr_deriv ?_
  simp [ContinuousLinearMap.sum_apply]

/-- A linear function. -/
theorem Grad.linear {n : ℕ} (A x : Comp n) : Grad (fun y => ∑ k, A k * y k) A x := by
  have h := (∑ k, A k • (ContinuousLinearMap.proj k : Comp n →L[ℝ] ℝ)).hasFDerivAt (x := x)
  have hf : (fun y : Comp n => ∑ k, A k * y k) = ⇑(∑ k, A k • (ContinuousLinearMap.proj k : Comp n →L[ℝ] ℝ)) := by
    funext y
    simp [ContinuousLinearMap.sum_apply]
  unfold Grad
  rw [hf]
  exact h

theorem Grad.const {n : ℕ} (c : ℝ) (x : Comp n) : Grad (fun _ => c) (fun _ => 0) x := by
  have h := hasFDerivAt_const (𝕜 := ℝ) c x
  unfold Grad
  simpa using h

theorem hasDerivAt_update {n : ℕ} (x : Comp n) (j k : Fin n) (t : ℝ) :
    HasDerivAt (fun s => Function.update x j s k) (if k = j then 1 else 0) t := by
  by_cases h : k = j
  · subst h
    simpa using hasDerivAt_id' t
  · simpa [Function.update_of_ne h, h] using hasDerivAt_const t (x k)

/-! ## Two phases in logarithms of `K` and vapor fraction -/

/-- Feed and the two phases, with the derivatives by mole fractions they supply. -/
structure Two (n : ℕ) where
  (zs : Comp n) (lnphiL lnphiG : Comp n → Comp n) (DL DG : Comp n → Fin n → Comp n)

/-- Line 1242. -/
noncomputable def xsOf {n : ℕ} (zs K : Comp n) (V : ℝ) : Comp n := fun i => zs i / (1 + V * (K i - 1))
/-- Line 1243. -/
noncomputable def ysOf {n : ℕ} (zs K : Comp n) (V : ℝ) : Comp n := fun i => K i * xsOf zs K V i
/-- Line 1235. -/
noncomputable def Ks {n : ℕ} (u : Comp n) : Comp n := fun i => Real.exp (u i)

/-- `Rachford_Rice_flash_error` of `chemicals`. -/
noncomputable def rr {n : ℕ} (zs K : Comp n) (V : ℝ) : ℝ := ∑ i, zs i * (K i - 1) / (1 + V * (K i - 1))

/-- Line 1302. -/
noncomputable def errK {n : ℕ} (p : Two n) (u : Comp n) (V : ℝ) (i : Fin n) : ℝ :=
  u i - p.lnphiL (xsOf p.zs (Ks u) V) i + p.lnphiG (ysOf p.zs (Ks u) V) i

/-- `RR_denoms_inv2` (1263-1266). -/
noncomputable def inv2 {n : ℕ} (K : Comp n) (V : ℝ) (i : Fin n) : ℝ := 1 / ((1 + V * (K i - 1)) * (1 + V * (K i - 1)))

/-- `zsKsRRinvs2` (1278). -/
noncomputable def zK {n : ℕ} (p : Two n) (u : Comp n) (V : ℝ) (j : Fin n) : ℝ := p.zs j * Ks u j * inv2 (Ks u) V j
/-- `RR_terms` (1268). -/
noncomputable def rrTerm {n : ℕ} (p : Two n) (u : Comp n) (V : ℝ) (k : Fin n) : ℝ :=
  p.zs k * (Ks u k - 1) * inv2 (Ks u) V k

/-- Lines 1280-1286. -/
noncomputable def jKK {n : ℕ} (p : Two n) (u : Comp n) (V : ℝ) (i j : Fin n) : ℝ :=
  (if i = j then 1 else 0)
    + zK p u V j * (V * p.DL (xsOf p.zs (Ks u) V) i j + (1 - V) * p.DG (ysOf p.zs (Ks u) V) i j)
/-- Lines 1269-1274. -/
noncomputable def jKV {n : ℕ} (p : Two n) (u : Comp n) (V : ℝ) (i : Fin n) : ℝ :=
  ∑ k, rrTerm p u V k * (p.DL (xsOf p.zs (Ks u) V) i k - Ks u k * p.DG (ysOf p.zs (Ks u) V) i k)
/-- Lines 1290-1292. -/
noncomputable def jVK {n : ℕ} (p : Two n) (u : Comp n) (V : ℝ) (j : Fin n) : ℝ := zK p u V j * (1 - V) + V * zK p u V j
/-- Lines 1295-1298. -/
noncomputable def jVV {n : ℕ} (p : Two n) (u : Comp n) (V : ℝ) : ℝ := -∑ i, rrTerm p u V i * (Ks u i - 1)

theorem hasDerivAt_K {n : ℕ} (u : Comp n) (j k : Fin n) :
    HasDerivAt (fun t => Ks (Function.update u j t) k) (if k = j then Ks u j else 0) (u j) := by
  have h := (hasDerivAt_update u j k (u j)).exp
  refine h.congr_deriv ?_
  by_cases hk : k = j
  · subst hk; simp [Ks]
  · simp [hk]

theorem hasDerivAt_x {n : ℕ} (p : Two n) (u : Comp n) (V : ℝ) (hd : ∀ i, 1 + V * (Ks u i - 1) ≠ 0) (j k : Fin n) :
    HasDerivAt (fun t => xsOf p.zs (Ks (Function.update u j t)) V k) (if k = j then -(V * zK p u V j) else 0) (u j) := by
  have h1 := ((((hasDerivAt_K u j k).sub_const 1).const_mul V).const_add 1)
  have h2 := (hasDerivAt_const (u j) (p.zs k)).fun_div h1 (by simpa using hd k)
  refine h2.congr_deriv ?_
  simp only [Function.update_eq_self]
  by_cases hk : k = j
  · subst hk
    have := hd k
    simp only [if_true, zK, inv2]
    field_simp
    ring
  · simp [hk]

theorem hasDerivAt_y {n : ℕ} (p : Two n) (u : Comp n) (V : ℝ) (hd : ∀ i, 1 + V * (Ks u i - 1) ≠ 0) (j k : Fin n) :
    HasDerivAt (fun t => ysOf p.zs (Ks (Function.update u j t)) V k) (if k = j then (1 - V) * zK p u V j else 0) (u j) := by
  have h2 := (hasDerivAt_K u j k).fun_mul (hasDerivAt_x p u V hd j k)
  refine h2.congr_deriv ?_
  simp only [Function.update_eq_self]
  by_cases hk : k = j
  · subst hk
    have := hd k
    simp only [if_true, zK, inv2, xsOf]
    field_simp
    ring
  · simp [hk]

/-- **C91.** The derivative of an equation by the logarithm of a `K` value. -/
theorem C91_two_KK {n : ℕ} (p : Two n) (u : Comp n) (V : ℝ) (hd : ∀ i, 1 + V * (Ks u i - 1) ≠ 0) (i j : Fin n)
    (hL : Grad (fun x => p.lnphiL x i) (p.DL (xsOf p.zs (Ks u) V) i) (xsOf p.zs (Ks u) V))
    (hG : Grad (fun x => p.lnphiG x i) (p.DG (ysOf p.zs (Ks u) V) i) (ysOf p.zs (Ks u) V)) :
    HasDerivAt (fun t => errK p (Function.update u j t) V i) (jKK p u V i j) (u j) := by
  have hL' : Grad (fun x => p.lnphiL x i) (p.DL (xsOf p.zs (Ks u) V) i)
      ((fun t => xsOf p.zs (Ks (Function.update u j t)) V) (u j)) := by simpa using hL
  have hG' : Grad (fun x => p.lnphiG x i) (p.DG (ysOf p.zs (Ks u) V) i)
      ((fun t => ysOf p.zs (Ks (Function.update u j t)) V) (u j)) := by simpa using hG
  have h1 := Grad.along (c := fun t => xsOf p.zs (Ks (Function.update u j t)) V) hL' (hasDerivAt_x p u V hd j)
  have h2 := Grad.along (c := fun t => ysOf p.zs (Ks (Function.update u j t)) V) hG' (hasDerivAt_y p u V hd j)
  refine (((hasDerivAt_update u j i (u j)).fun_sub h1).fun_add h2).congr_deriv ?_
  simp only [mul_ite, mul_zero, Finset.sum_ite_eq', Finset.mem_univ, if_true, jKK]
  ring

theorem hasDerivAt_xV {n : ℕ} (p : Two n) (u : Comp n) (V : ℝ) (hd : ∀ i, 1 + V * (Ks u i - 1) ≠ 0) (k : Fin n) :
    HasDerivAt (fun t => xsOf p.zs (Ks u) t k) (-rrTerm p u V k) V := by
  have h1 := (((hasDerivAt_id V).mul_const (Ks u k - 1)).const_add 1)
  have h2 := (hasDerivAt_const V (p.zs k)).fun_div h1 (hd k)
  refine h2.congr_deriv ?_
  have := hd k
  simp only [rrTerm, inv2, id]
  field_simp
  ring

/-- **C91.** The derivative of an equation by the vapor fraction. -/
theorem C91_two_KV {n : ℕ} (p : Two n) (u : Comp n) (V : ℝ) (hd : ∀ i, 1 + V * (Ks u i - 1) ≠ 0) (i : Fin n)
    (hL : Grad (fun x => p.lnphiL x i) (p.DL (xsOf p.zs (Ks u) V) i) (xsOf p.zs (Ks u) V))
    (hG : Grad (fun x => p.lnphiG x i) (p.DG (ysOf p.zs (Ks u) V) i) (ysOf p.zs (Ks u) V)) :
    HasDerivAt (fun t => errK p u t i) (jKV p u V i) V := by
  have hL' : Grad (fun x => p.lnphiL x i) (p.DL (xsOf p.zs (Ks u) V) i) ((fun t => xsOf p.zs (Ks u) t) V) := hL
  have hG' : Grad (fun x => p.lnphiG x i) (p.DG (ysOf p.zs (Ks u) V) i) ((fun t => ysOf p.zs (Ks u) t) V) := hG
  have h1 := Grad.along (c := fun t => xsOf p.zs (Ks u) t) hL' (hasDerivAt_xV p u V hd)
  have h2 := Grad.along (c := fun t => ysOf p.zs (Ks u) t) hG' (fun k => (hasDerivAt_xV p u V hd k).const_mul (Ks u k))
  refine (((hasDerivAt_const V (u i)).fun_sub h1).fun_add h2).congr_deriv ?_
  rw [jKV, zero_sub, ← Finset.sum_neg_distrib, ← Finset.sum_add_distrib]
  exact Finset.sum_congr rfl fun k _ => by ring

/-- **C91.** The derivatives of the Rachford-Rice equation by the logarithm of a `K` value and by the vapor fraction. -/
theorem C91_two_V {n : ℕ} (p : Two n) (u : Comp n) (V : ℝ) (hd : ∀ i, 1 + V * (Ks u i - 1) ≠ 0) :
    (∀ j, HasDerivAt (fun t => rr p.zs (Ks (Function.update u j t)) V) (jVK p u V j) (u j))
      ∧ HasDerivAt (fun t => rr p.zs (Ks u) t) (jVV p u V) V := by
  constructor
  · intro j
    have h : ∀ k ∈ Finset.univ, HasDerivAt (fun t => p.zs k * (Ks (Function.update u j t) k - 1)
        / (1 + V * (Ks (Function.update u j t) k - 1))) (if k = j then zK p u V j else 0) (u j) := by
      intro k _
      have h1 := ((((hasDerivAt_K u j k).sub_const 1).const_mul V).const_add 1)
      have h2 := (((hasDerivAt_K u j k).sub_const 1).const_mul (p.zs k)).fun_div h1 (by simpa using hd k)
      refine h2.congr_deriv ?_
      simp only [Function.update_eq_self]
      by_cases hk : k = j
      · subst hk
        have := hd k
        simp only [if_true, zK, inv2]
        field_simp
        ring
      · simp [hk]
    refine (HasDerivAt.fun_sum h).congr_deriv ?_
    simp [jVK]
    ring
  · have h : ∀ k ∈ Finset.univ, HasDerivAt (fun t => p.zs k * (Ks u k - 1) / (1 + t * (Ks u k - 1)))
        (-(rrTerm p u V k * (Ks u k - 1))) V := by
      intro k _
      have h1 := (((hasDerivAt_id V).mul_const (Ks u k - 1)).const_add 1)
      have h2 := (hasDerivAt_const V (p.zs k * (Ks u k - 1))).fun_div h1 (hd k)
      refine h2.congr_deriv ?_
      have := hd k
      simp only [rrTerm, inv2, id]
      field_simp
      ring
    refine (HasDerivAt.fun_sum h).congr_deriv ?_
    rw [jVV, Finset.sum_neg_distrib]

/-- Two components with linear logarithms of fugacity coefficients. -/
noncomputable def twoDemo : Two 2 where
  zs := ![1 / 2, 1 / 2]
  lnphiL := fun x i => ∑ k, (![![1, 2], ![3, 4]] : Fin 2 → Comp 2) i k * x k
  lnphiG := fun x i => ∑ k, (![![5, 6], ![7, 8]] : Fin 2 → Comp 2) i k * x k
  DL := fun _ => ![![1, 2], ![3, 4]]
  DG := fun _ => ![![5, 6], ![7, 8]]

example : (∀ i, 1 + 1 / 2 * (Ks ![Real.log 3, 0] i - 1) ≠ 0)
    ∧ (∀ x i, Grad (fun x => twoDemo.lnphiL x i) (twoDemo.DL x i) x)
    ∧ (∀ x i, Grad (fun x => twoDemo.lnphiG x i) (twoDemo.DG x i) x)
    ∧ jKK twoDemo ![Real.log 3, 0] (1 / 2) 0 0 = 17 / 8 ∧ jKV twoDemo ![Real.log 3, 0] (1 / 2) 0 = -7 / 2
    ∧ jVK twoDemo ![Real.log 3, 0] (1 / 2) 0 = 3 / 8 ∧ jVV twoDemo ![Real.log 3, 0] (1 / 2) = -1 / 2 := by
  have h3 : Real.exp (Real.log 3) = 3 := Real.exp_log (by norm_num)
  refine ⟨?_, fun x i => ?_, fun x i => ?_, ?_, ?_, ?_, ?_⟩
  · intro i
    fin_cases i <;> simp [Ks, h3] <;> norm_num
  · exact Grad.linear _ x
  · exact Grad.linear _ x
  · simp [jKK, zK, inv2, twoDemo, Ks, h3]; norm_num
  · simp [jKV, rrTerm, inv2, twoDemo, Ks, h3, Fin.sum_univ_two]; norm_num
  · simp [jVK, zK, inv2, twoDemo, Ks, h3]; norm_num
  · simp [jVV, rrTerm, inv2, twoDemo, Ks, h3, Fin.sum_univ_two]; norm_num

/-- Compositions from a zero of the Rachford-Rice equation make up the feed and are mole fractions. -/
theorem rr_zero {n : ℕ} (zs K : Comp n) (V : ℝ) (hd : ∀ i, 1 + V * (K i - 1) ≠ 0) (hz : ∑ i, zs i = 1)
    (h : rr zs K V = 0) : (∀ i, V * ysOf zs K V i + (1 - V) * xsOf zs K V i = zs i) ∧ ∑ i, xsOf zs K V i = 1
      ∧ ∑ i, ysOf zs K V i = 1 := by
  have hb : ∀ i, V * ysOf zs K V i + (1 - V) * xsOf zs K V i = zs i := by
    intro i
    have := hd i
    rw [ysOf, xsOf]
    field_simp
    ring
  have hyx : ∑ i, ysOf zs K V i = ∑ i, xsOf zs K V i := by
    rw [← sub_eq_zero, ← Finset.sum_sub_distrib, ← h, rr]
    refine Finset.sum_congr rfl fun i _ => ?_
    rw [ysOf, xsOf]
    ring
  have hs : V * ∑ i, ysOf zs K V i + (1 - V) * ∑ i, xsOf zs K V i = 1 := by
    rw [Finset.mul_sum, Finset.mul_sum, ← Finset.sum_add_distrib]
    exact (Finset.sum_congr rfl fun i _ => hb i).trans hz
  have hx : ∑ i, xsOf zs K V i = 1 := by
    rw [hyx] at hs
    linarith
  exact ⟨hb, hx, hyx.trans hx⟩

/-- **C91.** At a zero of the equations of `nonlin_2P_newton` the phases make up the feed, their mole fractions sum to one,
and the fugacities agree. -/
theorem C91_two_zero {n : ℕ} (p : Two n) (u : Comp n) (V P : ℝ) (hd : ∀ i, 1 + V * (Ks u i - 1) ≠ 0)
    (hz : ∑ i, p.zs i = 1) (hK : ∀ i, errK p u V i = 0) (hV : rr p.zs (Ks u) V = 0) :
    let xs := xsOf p.zs (Ks u) V
    let ys := ysOf p.zs (Ks u) V
    (∀ i, V * ys i + (1 - V) * xs i = p.zs i) ∧ ∑ i, xs i = 1 ∧ ∑ i, ys i = 1
      ∧ ∀ i, ys i * Real.exp (p.lnphiG ys i) * P = xs i * Real.exp (p.lnphiL xs i) * P := by
  obtain ⟨hb, hx, hy⟩ := rr_zero p.zs (Ks u) V hd hz hV
  refine ⟨hb, hx, hy, fun i => ?_⟩
  have h := hK i
  rw [errK] at h
  have hl : p.lnphiL (xsOf p.zs (Ks u) V) i = u i + p.lnphiG (ysOf p.zs (Ks u) V) i := by linarith
  rw [hl, Real.exp_add, ysOf, Ks]
  ring

/-- An ideal liquid. -/
noncomputable def twoIdeal : Two 2 where
  zs := ![1 / 2, 1 / 2]
  lnphiL := fun _ => ![Real.log 2, Real.log (1 / 2)]
  lnphiG := fun _ _ => 0
  DL := fun _ _ _ => 0
  DG := fun _ _ _ => 0

example : (∀ i, errK twoIdeal ![Real.log 2, Real.log (1 / 2)] (1 / 2) i = 0)
    ∧ rr twoIdeal.zs (Ks ![Real.log 2, Real.log (1 / 2)]) (1 / 2) = 0
    ∧ ∀ i, 1 + 1 / 2 * (Ks ![Real.log 2, Real.log (1 / 2)] i - 1) ≠ 0 := by
  have h2 : Real.exp (Real.log 2) = 2 := Real.exp_log (by norm_num)
  have h5 : Real.exp (Real.log (1 / 2)) = 1 / 2 := Real.exp_log (by norm_num)
  refine ⟨fun i => ?_, ?_, fun i => ?_⟩
  · fin_cases i <;> simp [errK, twoIdeal]
  · simp only [rr, Ks, Fin.sum_univ_two, twoIdeal, Matrix.cons_val_zero, Matrix.cons_val_one, h2, h5]
    norm_num
  · fin_cases i <;> simp only [Ks, Fin.zero_eta, Fin.mk_one, Matrix.cons_val_zero, Matrix.cons_val_one, h2, h5] <;> norm_num

/-! ## The other two phase formulations -/

/-- Vapor fraction of the transformed variable (1049). -/
noncomputable def vfOf (w : ℝ) : ℝ := 1 / (1 + Real.exp (-w))
/-- Start value of the transformed variable (1068). -/
noncomputable def vfInto (V : ℝ) : ℝ := -Real.log ((1 - V) / V)

/-- **C91.** The transformed variable keeps the vapor fraction inside its range, and is the guess at the start. -/
theorem C91_transform (w V : ℝ) (h0 : 0 < V) (h1 : V < 1) : (0 < vfOf w ∧ vfOf w < 1) ∧ vfOf (vfInto V) = V := by
  have hp := Real.exp_pos (-w)
  refine ⟨⟨by rw [vfOf]; positivity, by rw [vfOf, div_lt_one (by positivity)]; linarith⟩, ?_⟩
  rw [vfOf, vfInto, neg_neg, Real.exp_log (div_pos (by linarith) h0)]
  field_simp
  ring

example : (0 : ℝ) < 1 / 4 ∧ (1 / 4 : ℝ) < 1 := by norm_num

/-- `new_Ks` (1060). -/
noncomputable def newKs {n : ℕ} (p : Two n) (K : Comp n) (V : ℝ) : Comp n := fun i =>
  Real.exp (p.lnphiL (xsOf p.zs K V) i - p.lnphiG (ysOf p.zs K V) i)

/-- The equations of `nonlin_2P_HSGUAbeta` (1109-1141) at one value of the variable iterated on, with the specified property of
the phases as functions of composition. Those of `nonlin_2P` (1047-1066) are the first two. -/
noncomputable def errH {n : ℕ} (p : Two n) (hL hG : Comp n → ℝ) (spec : ℝ) (u : Comp n) (w : ℝ) : Comp n × ℝ × ℝ :=
  (fun i => newKs p (Ks u) (vfOf w) i - Ks u i, rr p.zs (newKs p (Ks u) (vfOf w)) (vfOf w),
    vfOf w * hG (ysOf p.zs (Ks u) (vfOf w)) + (1 - vfOf w) * hL (xsOf p.zs (Ks u) (vfOf w)) - spec)

/-- **C91.** At a zero of these equations the phases make up the feed, the fugacities agree, and the specification is met. -/
theorem C91_spec_zero {n : ℕ} (p : Two n) (hL hG : Comp n → ℝ) (spec : ℝ) (u : Comp n) (w P : ℝ) (hz : ∑ i, p.zs i = 1)
    (h : errH p hL hG spec u w = (fun _ => 0, 0, 0)) :
    let V := vfOf w
    let xs := xsOf p.zs (Ks u) V
    let ys := ysOf p.zs (Ks u) V
    (∀ i, V * ys i + (1 - V) * xs i = p.zs i) ∧ ∑ i, xs i = 1 ∧ ∑ i, ys i = 1
      ∧ (∀ i, ys i * Real.exp (p.lnphiG ys i) * P = xs i * Real.exp (p.lnphiL xs i) * P)
      ∧ V * hG ys + (1 - V) * hL xs = spec := by
  obtain ⟨h1, h2⟩ := Prod.mk.injEq .. ▸ h
  obtain ⟨h2, h3⟩ := Prod.mk.injEq .. ▸ h2
  have hv := (C91_transform w (1 / 2) (by norm_num) (by norm_num)).1
  have hd : ∀ i, 1 + vfOf w * (Ks u i - 1) ≠ 0 := by
    intro i
    have hk : 0 < Ks u i := Real.exp_pos _
    have := mul_pos hv.1 hk
    exact ne_of_gt (by nlinarith [hv.2])
  have hK : newKs p (Ks u) (vfOf w) = Ks u := by
    funext i
    have := congrFun h1 i
    simpa [sub_eq_zero] using this
  rw [hK] at h2
  obtain ⟨hb, hx, hy⟩ := rr_zero p.zs (Ks u) (vfOf w) hd hz h2
  refine ⟨hb, hx, hy, fun i => ?_, by linarith⟩
  have hi := congrFun hK i
  rw [newKs, Real.exp_sub, div_eq_iff (ne_of_gt (Real.exp_pos _))] at hi
  rw [hi, ysOf]
  ring

example : errH twoIdeal (fun x => x 0) (fun y => 3 * y 0) (7 / 6) ![Real.log 2, Real.log (1 / 2)] 0 = (fun _ => 0, 0, 0) := by
  have h2 : Real.exp (Real.log 2) = 2 := Real.exp_log (by norm_num)
  have h5 : Real.exp (Real.log (1 / 2)) = 1 / 2 := Real.exp_log (by norm_num)
  have hv : vfOf 0 = 1 / 2 := by rw [vfOf]; simp; norm_num
  have hK : newKs twoIdeal (Ks ![Real.log 2, Real.log (1 / 2)]) (1 / 2) = ![2, 1 / 2] := by
    funext i
    fin_cases i <;> simp only [newKs, twoIdeal, sub_zero, Fin.zero_eta, Fin.mk_one, Matrix.cons_val_zero, Matrix.cons_val_one,
      h2, h5]
  have hu : Ks ![Real.log 2, Real.log (1 / 2)] = ![2, 1 / 2] := by
    funext i
    fin_cases i <;> simp only [Ks, Fin.zero_eta, Fin.mk_one, Matrix.cons_val_zero, Matrix.cons_val_one, h2, h5]
  rw [errH, hv, hK, hu]
  refine Prod.ext ?_ (Prod.ext ?_ ?_)
  · funext i
    simp
  · simp [rr, twoIdeal, Fin.sum_univ_two]; norm_num
  · simp [xsOf, ysOf, twoIdeal]; norm_num

/-- The equations of `dew_P_newton` (1656-1675) at one pressure: fugacities and the Rachford-Rice equation at vapor fraction
one. -/
noncomputable def errDewP {n : ℕ} (p : Two n) (u : Comp n) (P : ℝ) : Comp n × ℝ :=
  (fun i => xsOf p.zs (Ks u) 1 i * Real.exp (p.lnphiL (xsOf p.zs (Ks u) 1) i) * P
    - ysOf p.zs (Ks u) 1 i * Real.exp (p.lnphiG (ysOf p.zs (Ks u) 1) i) * P, rr p.zs (Ks u) 1)

/-- **C91.** At a zero of these equations the vapor is the feed and the liquid is in equilibrium with it. -/
theorem C91_dew_P {n : ℕ} (p : Two n) (u : Comp n) (P : ℝ) (hz : ∑ i, p.zs i = 1) (h : errDewP p u P = (fun _ => 0, 0)) :
    ysOf p.zs (Ks u) 1 = p.zs ∧ ∑ i, xsOf p.zs (Ks u) 1 i = 1
      ∧ ∀ i, xsOf p.zs (Ks u) 1 i * Real.exp (p.lnphiL (xsOf p.zs (Ks u) 1) i) * P
        = p.zs i * Real.exp (p.lnphiG p.zs i) * P := by
  obtain ⟨h1, h2⟩ := Prod.mk.injEq .. ▸ h
  have hd : ∀ i, 1 + 1 * (Ks u i - 1) ≠ 0 := by
    intro i
    have hk : 0 < Ks u i := Real.exp_pos _
    exact ne_of_gt (by linarith)
  obtain ⟨hb, hx, _⟩ := rr_zero p.zs (Ks u) 1 hd hz h2
  have hy : ysOf p.zs (Ks u) 1 = p.zs := by
    funext i
    have := hb i
    linarith
  refine ⟨hy, hx, fun i => ?_⟩
  have := congrFun h1 i
  simp only [hy] at this
  linarith

example : errDewP ⟨![2 / 3, 1 / 3], fun _ => ![Real.log 2, Real.log (1 / 2)], fun _ _ => 0, fun _ _ _ => 0, fun _ _ _ => 0⟩
    ![Real.log 2, Real.log (1 / 2)] 3 = (fun _ => 0, 0) := by
  have h2 : Real.exp (Real.log 2) = 2 := Real.exp_log (by norm_num)
  have h5 : Real.exp (Real.log (1 / 2)) = 1 / 2 := Real.exp_log (by norm_num)
  refine Prod.ext ?_ ?_
  · funext i
    fin_cases i <;> simp only [errDewP, ysOf, xsOf, Ks, Fin.zero_eta, Fin.mk_one, Matrix.cons_val_zero, Matrix.cons_val_one,
      h2, h5, Real.exp_zero] <;> norm_num
  · simp only [errDewP, rr, Ks, Fin.sum_univ_two, Matrix.cons_val_zero, Matrix.cons_val_one, h2, h5]
    norm_num

/-! ## Any number of phases in mole flows -/

/-- Mole fractions of flows: absolute values over their sum (733-741). A phase without flow gets the feed composition. The
second normalisation of the code changes nothing. -/
noncomputable def compOf {n : ℕ} (zs v : Comp n) : Comp n :=
  if ∑ k, |v k| = 0 then zs else fun i => |v i| / ∑ k, |v k|

/-- Negative flows are replaced (726-728). -/
noncomputable def clip (f : ℝ) : ℝ := if f < 0 then 1 / 10 ^ 100 else f

/-- Feed, the phases other than the reference phase, and the reference phase. Their order in the lists of the code is that of
C90_order. -/
structure Multi (n m : ℕ) where
  (zs : Comp n) (lnphi : Fin m → Comp n → Comp n) (ref : Comp n → Comp n)

/-- Flow of the reference phase (746). -/
def rest {n m : ℕ} (zs : Comp n) (v : Fin m → Comp n) : Comp n := fun i => zs i - ∑ k, v k i

/-- Logarithmic fugacities over pressure at a composition. -/
noncomputable def lnf {n : ℕ} (phi : Comp n → Comp n) (x : Comp n) (i : Fin n) : ℝ := Real.log (x i) + phi x i

/-- The equations (763-771). -/
noncomputable def errN {n m : ℕ} (p : Multi n m) (v : Fin m → Comp n) (k : Fin m) (i : Fin n) : ℝ :=
  let f := fun k i => clip (v k i)
  let x := compOf p.zs (f k)
  let r := compOf p.zs (rest p.zs f)
  Real.log (x i / r i) + p.lnphi k x i - p.ref r i

/-- What a phase returns as `dlnfugacities_dns` at mole fractions `x`: the derivatives of its logarithmic fugacities by amounts,
for one mole in total. -/
def IsDns {n : ℕ} (phi : Comp n → Comp n) (D : Fin n → Comp n) (x : Comp n) : Prop :=
  ∀ i, Grad (fun a => lnf phi (fun k => a k / ∑ l, a l) i) (D i) x

/-- The matrix (774-784), with the phase fractions `β` and `βref`. -/
noncomputable def jN {n m : ℕ} (D : Fin m → Fin n → Comp n) (Dr : Fin n → Comp n) (b : Fin m → ℝ) (br : ℝ)
    (k : Fin m) (i : Fin n) (l : Fin m) (j : Fin n) : ℝ := D k i j * (if k = l then 1 else 0) / b k + Dr i j / br

theorem compOf_pos {n : ℕ} (zs v : Comp n) (hv : ∀ i, 0 < v i) : compOf zs v = fun i => v i / ∑ k, v k := by
  have h : ∀ k, |v k| = v k := fun k => abs_of_pos (hv k)
  rw [compOf]
  split_ifs with h0
  · funext i
    simp only [h] at h0
    have := (Finset.sum_eq_zero_iff_of_nonneg (fun k _ => (hv k).le)).1 h0 i (Finset.mem_univ i)
    exact absurd this (ne_of_gt (hv i))
  · simp only [h]

theorem clip_pos (f : ℝ) (h : 0 < f) : clip f = f := by rw [clip, if_neg (by linarith)]

/-- Functions of mole fractions have derivatives by amounts inversely proportional to the total amount. -/
theorem Grad.scale {n : ℕ} {f : Comp n → ℝ} {D x : Comp n} {b : ℝ} (hb : 0 < b)
    (h : Grad (fun a => f (fun k => a k / ∑ l, a l)) D x) :
    Grad (fun a => f (fun k => a k / ∑ l, a l)) (fun k => D k / b) (fun k => b * x k) := by
  have hlin : HasFDerivAt (fun a : Comp n => b⁻¹ • a) (b⁻¹ • ContinuousLinearMap.id ℝ (Comp n)) (fun k => b * x k) :=
    (hasFDerivAt_id _).const_smul b⁻¹
  have hx : b⁻¹ • (fun k => b * x k) = x := by
    funext k
    simp [hb.ne']
  have h' : HasFDerivAt (fun a => f (fun k => a k / ∑ l, a l)) (∑ k, D k • (ContinuousLinearMap.proj k : Comp n →L[ℝ] ℝ))
      (b⁻¹ • (fun k => b * x k)) := by rw [hx]; exact h
  have h2 := h'.comp (fun k => b * x k) hlin
  have hf : ((fun a : Comp n => f (fun k => a k / ∑ l, a l)) ∘ fun a : Comp n => b⁻¹ • a)
      = fun a => f (fun k => a k / ∑ l, a l) := by
    funext a
    simp only [Function.comp]
    congr 1
    funext k
    simp only [Pi.smul_apply, smul_eq_mul]
    rw [← Finset.mul_sum, mul_div_mul_left _ _ (inv_ne_zero hb.ne')]
  have h3 : HasFDerivAt (fun a : Comp n => f (fun k => a k / ∑ l, a l)) _ (fun k => b * x k) := hf ▸ h2
  refine h3.congr_fderiv ?_
  ext y
  simp only [ContinuousLinearMap.sum_apply, ContinuousLinearMap.comp_apply, ContinuousLinearMap.smul_apply,
    ContinuousLinearMap.id_apply, ContinuousLinearMap.proj_apply, Pi.smul_apply, smul_eq_mul, div_eq_mul_inv]
  exact Finset.sum_congr rfl fun k _ => by ring

theorem Grad.flows {n : ℕ} {f : Comp n → ℝ} {D v : Comp n} (hv : 0 < ∑ k, v k)
    (h : Grad (fun a => f (fun k => a k / ∑ l, a l)) D (fun k => v k / ∑ l, v l)) :
    Grad (fun a => f (fun k => a k / ∑ l, a l)) (fun k => D k / ∑ l, v l) v := by
  have := Grad.scale hv h
  convert this using 2 with k
  field_simp

theorem sum_pos_of {n : ℕ} (v : Comp n) (hv : ∀ i, 0 < v i) (j : Fin n) : 0 < ∑ k, v k :=
  Finset.sum_pos (fun i _ => hv i) ⟨j, Finset.mem_univ j⟩

/-- Flows after changing one of them. -/
def change {n m : ℕ} (v : Fin m → Comp n) (l : Fin m) (j : Fin n) (t : ℝ) : Fin m → Comp n :=
  Function.update v l (Function.update (v l) j t)

theorem change_self {n m : ℕ} (v : Fin m → Comp n) (l : Fin m) (j : Fin n) : change v l j (v l j) = v := by
  simp [change]

theorem hasDerivAt_change {n m : ℕ} (v : Fin m → Comp n) (l k : Fin m) (j i : Fin n) :
    HasDerivAt (fun t => change v l j t k i) (if k = l ∧ i = j then 1 else 0) (v l j) := by
  unfold change
  by_cases hk : k = l
  · subst hk
    simpa using hasDerivAt_update (v k) j i (v k j)
  · simpa [hk] using hasDerivAt_const (v l j) (v k i)

theorem hasDerivAt_rest {n m : ℕ} (zs : Comp n) (v : Fin m → Comp n) (l : Fin m) (j i : Fin n) :
    HasDerivAt (fun t => rest zs (change v l j t) i) (if i = j then -1 else 0) (v l j) := by
  have h := (hasDerivAt_const (v l j) (zs i)).fun_sub
    (HasDerivAt.fun_sum fun k (_ : k ∈ Finset.univ) => hasDerivAt_change v l k j i)
  refine h.congr_deriv ?_
  by_cases hi : i = j <;> simp [hi]

open Filter Topology in
theorem change_eventually {n m : ℕ} (zs : Comp n) (v : Fin m → Comp n) (hv : ∀ k i, 0 < v k i)
    (hr : ∀ i, 0 < rest zs v i) (l : Fin m) (j : Fin n) :
    ∀ᶠ t in 𝓝 (v l j), (∀ k i, 0 < change v l j t k i) ∧ ∀ i, 0 < rest zs (change v l j t) i := by
  have h1 : ∀ k i, ∀ᶠ t in 𝓝 (v l j), 0 < change v l j t k i := by
    intro k i
    have := (hasDerivAt_change v l k j i).continuousAt
    exact this.eventually (lt_mem_nhds (by simp only [change_self]; exact hv k i))
  have h2 : ∀ i, ∀ᶠ t in 𝓝 (v l j), 0 < rest zs (change v l j t) i := by
    intro i
    have := (hasDerivAt_rest zs v l j i).continuousAt
    exact this.eventually (lt_mem_nhds (by simp only [change_self]; exact hr i))
  exact (eventually_all.2 fun k => eventually_all.2 fun i => h1 k i).and (eventually_all.2 h2)

theorem errN_pos {n m : ℕ} (p : Multi n m) (v : Fin m → Comp n) (hv : ∀ k i, 0 < v k i) (hr : ∀ i, 0 < rest p.zs v i)
    (k : Fin m) (i : Fin n) : errN p v k i = lnf (p.lnphi k) (fun j => v k j / ∑ l, v k l) i
      - lnf p.ref (fun j => rest p.zs v j / ∑ l, rest p.zs v l) i := by
  have hc : (fun k i => clip (v k i)) = v := by
    funext k i
    exact clip_pos _ (hv k i)
  have hk : (fun i => clip (v k i)) = v k := congrFun hc k
  unfold errN
  simp only [hc, hk]
  rw [compOf_pos _ _ (hv k), compOf_pos _ _ hr, Real.log_div, lnf, lnf]
  · ring
  · exact ne_of_gt (div_pos (hv k i) (sum_pos_of _ (hv k) i))
  · exact ne_of_gt (div_pos (hr i) (sum_pos_of _ hr i))

/-- **C91.** For positive flows of all phases the matrix of `nonlin_equilibrium_NP` is that of the derivatives of its
equations. -/
theorem C91_many_jac {n m : ℕ} (p : Multi n m) (v : Fin m → Comp n) (hv : ∀ k i, 0 < v k i) (hr : ∀ i, 0 < rest p.zs v i)
    (D : Fin m → Fin n → Comp n) (Dr : Fin n → Comp n) (hD : ∀ k, IsDns (p.lnphi k) (D k) (fun i => v k i / ∑ j, v k j))
    (hDr : IsDns p.ref Dr (fun i => rest p.zs v i / ∑ j, rest p.zs v j)) (k : Fin m) (i : Fin n) (l : Fin m) (j : Fin n) :
    HasDerivAt (fun t => errN p (change v l j t) k i)
      (jN D Dr (fun k => ∑ j, v k j) (∑ j, rest p.zs v j) k i l j) (v l j) := by
  have hgk : Grad (fun a => lnf (p.lnphi k) (fun k => a k / ∑ l, a l) i) (fun j => D k i j / ∑ l, v k l)
      (change v l j (v l j) k) := by
    rw [change_self]
    exact Grad.flows (f := fun x => lnf (p.lnphi k) x i) (sum_pos_of _ (hv k) i) (hD k i)
  have hgr : Grad (fun a => lnf p.ref (fun k => a k / ∑ l, a l) i) (fun j => Dr i j / ∑ l, rest p.zs v l)
      (rest p.zs (change v l j (v l j))) := by
    rw [change_self]
    exact Grad.flows (f := fun x => lnf p.ref x i) (sum_pos_of _ hr i) (hDr i)
  have h1 := Grad.along (c := fun t => change v l j t k) hgk (hasDerivAt_change v l k j)
  have h2 := Grad.along (c := fun t => rest p.zs (change v l j t)) hgr (hasDerivAt_rest p.zs v l j)
  have h3 := (h1.fun_sub h2).congr_of_eventuallyEq (f₁ := fun t => errN p (change v l j t) k i) (by
    filter_upwards [change_eventually p.zs v hv hr l j] with t ht
    exact errN_pos p _ ht.1 ht.2 k i)
  refine h3.congr_deriv ?_
  rw [jN]
  by_cases hk : k = l
  · simp [hk]
  · simp [hk]

/-- **C91.** At a zero of these equations with positive flows, phase fractions sum to one, the phases make up the feed, their
mole fractions sum to one, and the fugacities of every component are those in the reference phase. -/
theorem C91_many_zero {n m : ℕ} (p : Multi n m) (v : Fin m → Comp n) (hv : ∀ k i, 0 < v k i) (hr : ∀ i, 0 < rest p.zs v i)
    (hz : ∑ i, p.zs i = 1) (P : ℝ) (h : ∀ k i, errN p v k i = 0) :
    let x := fun k => compOf p.zs (v k)
    let r := compOf p.zs (rest p.zs v)
    let b := fun k => ∑ j, v k j
    let br := ∑ j, rest p.zs v j
    ∑ k, b k + br = 1 ∧ (∀ i, ∑ k, b k * x k i + br * r i = p.zs i) ∧ (∀ k, ∑ i, x k i = 1) ∧ ∑ i, r i = 1
      ∧ ∀ k i, x k i * Real.exp (p.lnphi k (x k) i) * P = r i * Real.exp (p.ref r i) * P := by
  have hne : 0 < n := by
    rcases Nat.eq_zero_or_pos n with h0 | h0
    · subst h0
      simp at hz
    · exact h0
  have hb : ∀ k, 0 < ∑ j, v k j := fun k => sum_pos_of _ (hv k) ⟨0, hne⟩
  have hbr : 0 < ∑ j, rest p.zs v j := sum_pos_of _ hr ⟨0, hne⟩
  simp only [fun k => compOf_pos p.zs (v k) (hv k), compOf_pos p.zs _ hr]
  refine ⟨?_, fun i => ?_, fun k => ?_, ?_, fun k i => ?_⟩
  · rw [← hz]
    simp only [rest, Finset.sum_sub_distrib]
    rw [Finset.sum_comm]
    ring
  · have : ∀ k, (∑ j, v k j) * (v k i / ∑ j, v k j) = v k i := fun k => by
      have := (hb k).ne'
      field_simp
    simp only [this]
    rw [mul_div_cancel₀ _ hbr.ne', rest]
    ring
  · rw [← Finset.sum_div, div_self (hb k).ne']
  · rw [← Finset.sum_div, div_self hbr.ne']
  · have h0 := h k i
    rw [errN_pos p v hv hr, lnf, lnf] at h0
    have hxk : 0 < v k i / ∑ j, v k j := div_pos (hv k i) (hb k)
    have hrk : 0 < rest p.zs v i / ∑ j, rest p.zs v j := div_pos (hr i) hbr
    have e : ∀ a c : ℝ, 0 < a → a * Real.exp c = Real.exp (Real.log a + c) := fun a c ha => by
      rw [Real.exp_add, Real.exp_log ha]
    rw [e _ _ hxk, e _ _ hrk, sub_eq_zero.1 h0]

/-- Ideal phases with constant fugacity coefficients. -/
noncomputable def manyDemo (a : ℝ) : Multi 2 1 where
  zs := ![1 / 2, 1 / 2]
  lnphi := fun _ _ => ![0, 0]
  ref := fun _ => ![Real.log a, Real.log (1 / a)]

/-- The premises of the two theorems above: half of a feed with ratios two and one half. -/
example : (∀ (k : Fin 1) i, 0 < (fun _ => ![1 / 3, 1 / 6] : Fin 1 → Comp 2) k i)
    ∧ (∀ i, 0 < rest (manyDemo 2).zs (fun _ => ![1 / 3, 1 / 6] : Fin 1 → Comp 2) i)
    ∧ ∀ k i, errN (manyDemo 2) (fun _ => ![1 / 3, 1 / 6]) k i = 0 := by
  have hv : ∀ (k : Fin 1) i, 0 < (fun _ => ![1 / 3, 1 / 6] : Fin 1 → Comp 2) k i := by
    intro k i
    fin_cases i <;> norm_num
  have hr : ∀ i, 0 < rest (manyDemo 2).zs (fun _ => ![1 / 3, 1 / 6] : Fin 1 → Comp 2) i := by
    intro i
    fin_cases i <;> simp [rest, manyDemo] <;> norm_num
  refine ⟨hv, hr, fun k i => ?_⟩
  rw [errN_pos _ _ hv hr]
  have l3 : Real.log (2 / 3) = Real.log (1 / 3) + Real.log 2 := by
    rw [← Real.log_mul (by norm_num) (by norm_num)]; norm_num
  have l4 : Real.log (1 / 3) = Real.log (2 / 3) + Real.log (1 / 2) := by
    rw [← Real.log_mul (by norm_num) (by norm_num)]; norm_num
  fin_cases i
  · simp only [lnf, rest, manyDemo, Fin.sum_univ_two, Finset.univ_unique, Finset.sum_const, Finset.card_singleton, one_smul,
      Fin.zero_eta, Matrix.cons_val_zero, Matrix.cons_val_one]
    norm_num
    linarith
  · simp only [lnf, rest, manyDemo, Fin.sum_univ_two, Finset.univ_unique, Finset.sum_const, Finset.card_singleton, one_smul,
      Fin.mk_one, Matrix.cons_val_zero, Matrix.cons_val_one]
    norm_num at l4 ⊢
    linarith

/-- The derivatives by amounts of an ideal phase exist. -/
example : IsDns (fun _ => (![0, 0] : Comp 2)) ![![1, -1], ![-2 / 2, 1]] ![1 / 2, 1 / 2] := by
  intro i
  unfold Grad
  have hs : HasFDerivAt (fun a : Comp 2 => ∑ l, a l) (∑ l, (ContinuousLinearMap.proj l : Comp 2 →L[ℝ] ℝ)) ![1 / 2, 1 / 2] :=
    HasFDerivAt.fun_sum fun l _ => hasFDerivAt_apply l _
  have h1 : ∑ l, (![1 / 2, 1 / 2] : Comp 2) l = 1 := by simp [Fin.sum_univ_two]; norm_num
  have hd : HasFDerivAt (fun a : Comp 2 => a i * (∑ l, a l)⁻¹) _ _ := ((hasFDerivAt_apply (𝕜 := ℝ) i (![1 / 2, 1 / 2] : Comp 2)).mul
    ((hasDerivAt_inv (x := ∑ l, (![1 / 2, 1 / 2] : Comp 2) l) (by rw [h1]; norm_num)).comp_hasFDerivAt _ hs))
  have hne : (![1 / 2, 1 / 2] : Comp 2) i * (∑ l, (![1 / 2, 1 / 2] : Comp 2) l)⁻¹ ≠ 0 := by
    rw [h1]; fin_cases i <;> norm_num
  have hl := (HasFDerivAt.log hd hne).add_const 0
  have hf : (fun a : Comp 2 => lnf (fun _ => (![0, 0] : Comp 2)) (fun k => a k / ∑ l, a l) i)
      = fun a => Real.log (a i * (∑ l, a l)⁻¹) + 0 := by
    funext a
    fin_cases i <;> simp [lnf, div_eq_mul_inv]
  rw [hf]
  refine HasFDerivAt.congr_fderiv hl ?_
  ext y
  fin_cases i <;> simp [h1, ContinuousLinearMap.sum_apply, Fin.sum_univ_two] <;> ring

/-- **C91 fails.** The reference phase may get negative flows: then absolute values are taken as its composition, and at a zero
of the equations the phases do not make up the feed. -/
theorem C91_many_fails : ∃ (p : Multi 2 1) (v : Fin 1 → Comp 2), (∀ k i, errN p v k i = 0) ∧ (∀ k i, 0 < v k i)
    ∧ (∑ j, v 0 j) * compOf p.zs (v 0) 0 + (∑ j, rest p.zs v j) * compOf p.zs (rest p.zs v) 0 ≠ p.zs 0 := by
  have hv : ∀ (k : Fin 1) i, 0 < (fun _ => ![1, 1 / 3] : Fin 1 → Comp 2) k i := by
    intro k i
    fin_cases i <;> norm_num
  have hc : (fun (k : Fin 1) i => clip ((fun _ => ![1, 1 / 3] : Fin 1 → Comp 2) k i)) = fun _ => ![1, 1 / 3] := by
    funext k i
    exact clip_pos _ (hv k i)
  have hx : compOf (![1 / 2, 1 / 2] : Comp 2) ![1, 1 / 3] = ![3 / 4, 1 / 4] := by
    rw [compOf_pos _ _ (hv 0)]
    funext i
    fin_cases i <;> simp [Fin.sum_univ_two] <;> norm_num
  have hrest : rest (![1 / 2, 1 / 2] : Comp 2) (fun _ => ![1, 1 / 3] : Fin 1 → Comp 2) = ![-1 / 2, 1 / 6] := by
    funext i
    fin_cases i <;> simp [rest] <;> norm_num
  have hr : compOf (![1 / 2, 1 / 2] : Comp 2) ![-1 / 2, 1 / 6] = ![3 / 4, 1 / 4] := by
    have ha : |(-1 / 2 : ℝ)| = 1 / 2 := by norm_num
    have hb : |(1 / 6 : ℝ)| = 1 / 6 := by norm_num
    have hsum : ∑ k, |(![-1 / 2, 1 / 6] : Comp 2) k| = 2 / 3 := by
      simp only [Fin.sum_univ_two, Matrix.cons_val_zero, Matrix.cons_val_one, ha, hb]
      norm_num
    rw [compOf, if_neg (by rw [hsum]; norm_num), hsum]
    funext i
    fin_cases i <;> simp only [Fin.zero_eta, Fin.mk_one, Matrix.cons_val_zero, Matrix.cons_val_one, ha, hb] <;> norm_num
  refine ⟨⟨![1 / 2, 1 / 2], fun _ _ => 0, fun _ => 0⟩, fun _ => ![1, 1 / 3], fun k i => ?_, hv, ?_⟩
  · have hk : (fun i => clip ((![1, 1 / 3] : Comp 2) i)) = ![1, 1 / 3] := congrFun hc 0
    unfold errN
    simp only [hc, hk]
    rw [hx, hrest, hr]
    fin_cases i <;> simp
  · simp only [hx, hrest, hr]
    simp only [Fin.sum_univ_two, Matrix.cons_val_zero, Matrix.cons_val_one]
    norm_num

/-! ## A specification besides temperature or pressure -/

/-- The additional equation of `nonlin_spec_NP` (927-933) at fixed value of the variable iterated on: molar properties
`s` of the phases, which are functions of composition, add up to the specification. -/
noncomputable def errS {n m : ℕ} (zs : Comp n) (s : Fin m → Comp n → ℝ) (sr : Comp n → ℝ) (spec : ℝ) (v : Fin m → Comp n) : ℝ :=
  (∑ k, s k (compOf zs (v k)) * ∑ j, v k j) + sr (compOf zs (rest zs v)) * ∑ j, rest zs v j - spec

/-- The row of derivatives by flows (971-981): `d` and `dr` are what the phases return as derivatives by amounts, the phases
being the ones the function was called with. -/
noncomputable def jS {n m : ℕ} (s : Fin m → ℝ) (sr : ℝ) (d : Fin m → Comp n) (dr : Comp n) (b : Fin m → ℝ) (br : ℝ)
    (l : Fin m) (j : Fin n) : ℝ := (b l * d l j / b l - br * dr j / br) + (s l - sr)

theorem Grad.total {n : ℕ} {f : Comp n → ℝ} {D v : Comp n} (hv : 0 < ∑ k, v k)
    (h : Grad (fun a => f (fun k => a k / ∑ l, a l)) D (fun k => v k / ∑ l, v l)) {c : ℝ → Comp n} {c' : Comp n} {t : ℝ}
    (hc : ∀ k, HasDerivAt (fun s => c s k) (c' k) t) (he : c t = v) :
    HasDerivAt (fun t => f (fun k => c t k / ∑ l, c t l) * ∑ l, c t l)
      (∑ k, D k * c' k + f (fun k => v k / ∑ l, v l) * ∑ k, c' k) t := by
  subst he
  have h1 := (Grad.flows hv h).along hc
  have h2 := h1.fun_mul (HasDerivAt.fun_sum fun k (_ : k ∈ Finset.univ) => hc k)
  refine h2.congr_deriv ?_
  congr 1
  rw [Finset.sum_mul]
  refine Finset.sum_congr rfl fun k _ => ?_
  field_simp

/-- **C91.** With derivatives `d`, `dr` of the phases at the compositions of the iteration the row is that of the derivatives of
the equation. Missing: the code takes them from other phases, see C91_spec_fails. -/
theorem C91_spec_row_partial {n m : ℕ} (zs : Comp n) (s : Fin m → Comp n → ℝ) (sr : Comp n → ℝ) (spec : ℝ) (v : Fin m → Comp n)
    (hv : ∀ k i, 0 < v k i) (hr : ∀ i, 0 < rest zs v i) (d : Fin m → Comp n) (dr : Comp n)
    (hd : ∀ k, Grad (fun a => s k (fun i => a i / ∑ j, a j)) (d k) (fun i => v k i / ∑ j, v k j))
    (hdr : Grad (fun a => sr (fun i => a i / ∑ j, a j)) dr (fun i => rest zs v i / ∑ j, rest zs v j))
    (l : Fin m) (j : Fin n) :
    HasDerivAt (fun t => errS zs s sr spec (change v l j t))
      (jS (fun k => s k (compOf zs (v k))) (sr (compOf zs (rest zs v))) d dr (fun k => ∑ j, v k j) (∑ j, rest zs v j) l j)
      (v l j) := by
  have h1 := HasDerivAt.fun_sum fun k (_ : k ∈ Finset.univ) => Grad.total (sum_pos_of _ (hv k) j) (hd k)
    (hasDerivAt_change v l k j) (by simp only [change_self])
  have h2 := Grad.total (sum_pos_of _ hr j) hdr (hasDerivAt_rest zs v l j) (by simp only [change_self])
  have h3 := ((h1.fun_add h2).sub_const spec).congr_of_eventuallyEq (f₁ := fun t => errS zs s sr spec (change v l j t)) (by
    filter_upwards [change_eventually zs v hv hr l j] with t ht
    rw [errS, compOf_pos _ _ ht.2]
    simp only [fun k => compOf_pos zs _ (ht.1 k)])
  refine h3.congr_deriv ?_
  have hb := (sum_pos_of _ (hv l) j).ne'
  have hbr := (sum_pos_of _ hr j).ne'
  rw [jS, mul_div_cancel_left₀ _ hb, mul_div_cancel_left₀ _ hbr, compOf_pos _ _ hr, compOf_pos _ _ (hv l)]
  have e : ∀ k, (∑ i, d k i * (if k = l ∧ i = j then (1 : ℝ) else 0)
      + s k (fun i => v k i / ∑ j, v k j) * ∑ i, (if k = l ∧ i = j then (1 : ℝ) else 0))
      = if k = l then d k j + s k (fun i => v k i / ∑ j, v k j) else 0 := by
    intro k
    by_cases hk : k = l <;> simp [hk]
  simp only [e]
  simp
  ring

/-- Derivatives by amounts of the property `x0²`. -/
theorem grad_sq (x : Comp 2) (hx : ∑ l, x l = 1) :
    Grad (fun a => (a 0 / ∑ l, a l) ^ 2) ![2 * x 0 * (1 - x 0), -(2 * x 0 ^ 2)] x := by
  unfold Grad
  have hs : HasFDerivAt (fun a : Comp 2 => ∑ l, a l) (∑ l, (ContinuousLinearMap.proj l : Comp 2 →L[ℝ] ℝ)) x :=
    HasFDerivAt.fun_sum fun l _ => hasFDerivAt_apply l _
  have hd : HasFDerivAt (fun a : Comp 2 => a 0 * (∑ l, a l)⁻¹) _ _ := ((hasFDerivAt_apply (𝕜 := ℝ) (0 : Fin 2) x).mul
    ((hasDerivAt_inv (x := ∑ l, x l) (by rw [hx]; norm_num)).comp_hasFDerivAt _ hs))
  have hp := (hasDerivAt_pow 2 (x 0 * (∑ l, x l)⁻¹)).comp_hasFDerivAt x hd
  have hf : (fun a : Comp 2 => (a 0 / ∑ l, a l) ^ 2) = fun a => (a 0 * (∑ l, a l)⁻¹) ^ 2 := by
    funext a
    rw [div_eq_mul_inv]
  rw [hf]
  refine HasFDerivAt.congr_fderiv hp ?_
  ext y
  simp [hx, ContinuousLinearMap.sum_apply, Fin.sum_univ_two]
  ring

/-- The premises of the theorem above are met. -/
theorem grad_demo : ∀ k : Fin 1, Grad (fun a => (fun x : Comp 2 => x 0 ^ 2) (fun i => a i / ∑ j, a j)) ![3 / 8, -1 / 8]
    (fun i => (fun _ => ![1 / 8, 3 / 8] : Fin 1 → Comp 2) k i / ∑ j, (fun _ => ![1 / 8, 3 / 8] : Fin 1 → Comp 2) k j) := by
  intro k
  have hx : (fun i => (![1 / 8, 3 / 8] : Comp 2) i / ∑ j, (![1 / 8, 3 / 8] : Comp 2) j) = ![1 / 4, 3 / 4] := by
    funext i
    fin_cases i <;> simp [Fin.sum_univ_two] <;> norm_num
  rw [show (fun _ => ![1 / 8, 3 / 8] : Fin 1 → Comp 2) k = ![1 / 8, 3 / 8] from rfl, hx]
  have h := grad_sq ![1 / 4, 3 / 4] (by simp [Fin.sum_univ_two]; norm_num)
  have e : (![2 * (![1 / 4, 3 / 4] : Comp 2) 0 * (1 - (![1 / 4, 3 / 4] : Comp 2) 0), -(2 * (![1 / 4, 3 / 4] : Comp 2) 0 ^ 2)]
      : Comp 2) = ![3 / 8, -1 / 8] := by
    funext i
    fin_cases i <;> simp <;> norm_num
  rw [e] at h
  exact h

/-- **C91 fails.** The derivatives are those of the phases given at the start, not of the iteration: for a phase given at mole
fractions one half whose property is `x0²` the row is not that of the derivatives. -/
theorem C91_spec_fails : ∃ (zs : Comp 2) (s : Comp 2 → ℝ) (d : Comp 2 → Comp 2) (v : Fin 1 → Comp 2) (x0 : Comp 2),
    (∀ x, ∑ l, x l = 1 → Grad (fun a => s (fun i => a i / ∑ j, a j)) (d x) x) ∧ (∀ k i, 0 < v k i)
      ∧ (∀ i, 0 < rest zs v i) ∧ ∑ i, x0 i = 1
      ∧ ¬ HasDerivAt (fun t => errS zs (fun _ => s) (fun _ => 0) 0 (change v 0 0 t))
        (jS (fun k => s (compOf zs (v k))) 0 (fun _ => d x0) 0 (fun k => ∑ j, v k j) (∑ j, rest zs v j) 0 0) (v 0 0) := by
  have hv : ∀ (k : Fin 1) i, 0 < (fun _ => ![1 / 8, 3 / 8] : Fin 1 → Comp 2) k i := by
    intro k i
    fin_cases i <;> norm_num
  have hr : ∀ i, 0 < rest ![1 / 2, 1 / 2] (fun _ => ![1 / 8, 3 / 8] : Fin 1 → Comp 2) i := by
    intro i
    fin_cases i <;> simp [rest] <;> norm_num
  refine ⟨![1 / 2, 1 / 2], fun x => x 0 ^ 2, fun x => ![2 * x 0 * (1 - x 0), -(2 * x 0 ^ 2)], fun _ => ![1 / 8, 3 / 8],
    ![1 / 2, 1 / 2], fun x hx => grad_sq x hx, hv, hr, by simp [Fin.sum_univ_two]; norm_num, fun h => ?_⟩
  have ht := C91_spec_row_partial ![1 / 2, 1 / 2] (fun _ x => x 0 ^ 2) (fun _ => 0) 0 (fun _ => ![1 / 8, 3 / 8]) hv hr
    (fun _ => ![3 / 8, -1 / 8]) 0 grad_demo (by
      have := Grad.const (n := 2) 0 (fun i => rest ![1 / 2, 1 / 2] (fun _ => ![1 / 8, 3 / 8] : Fin 1 → Comp 2) i
        / ∑ j, rest ![1 / 2, 1 / 2] (fun _ => ![1 / 8, 3 / 8] : Fin 1 → Comp 2) j)
      exact this) 0 0
  have := h.unique ht
  rw [jS, jS] at this
  simp [Fin.sum_univ_two] at this
  norm_num at this

/-! ## Dew and bubble points by composition -/

/-- The equations of `dew_bubble_newton_zs` (1838-1855): composition `x` of the phase that appears, and the variable iterated on.
An equation of a component that is not in the feed stays zero. -/
noncomputable def errD {n : ℕ} (zs : Comp n) (phiI : Comp n → ℝ → Comp n) (phiC : ℝ → Comp n) (x : Comp n) (t : ℝ) (i : Fin n) :
    ℝ := if zs i ≠ 0 then Real.log (zs i * (1 / x i)) - phiI x t i + phiC t i else 0
/-- Line 1855. -/
noncomputable def errDsum {n : ℕ} (x : Comp n) : ℝ := 10 - 10 * ∑ i, x i

/-- Lines 1861-1866. `comp_invs` stays zero for components that are not in the feed. -/
noncomputable def jDx {n : ℕ} (zs x : Comp n) (d : Fin n → Comp n) (i j : Fin n) : ℝ :=
  -d i j - (if i = j then (if zs i ≠ 0 then 1 / x i else 0) else 0)
/-- Line 1863. -/
def jDt {n : ℕ} (dI dC : Comp n) (i : Fin n) : ℝ := dC i - dI i

/-- **C91.** If all components are in the feed, the matrix is that of the derivatives of the equations. -/
theorem C91_dew_jac {n : ℕ} (zs : Comp n) (phiI : Comp n → ℝ → Comp n) (phiC : ℝ → Comp n) (x : Comp n) (t : ℝ)
    (hz : ∀ i, 0 < zs i) (hx : ∀ i, 0 < x i) (d : Fin n → Comp n) (hd : ∀ i, Grad (fun y => phiI y t i) (d i) x)
    (dI dC : Comp n) (hI : ∀ i, HasDerivAt (fun s => phiI x s i) (dI i) t) (hC : ∀ i, HasDerivAt (fun s => phiC s i) (dC i) t)
    (i j : Fin n) :
    HasDerivAt (fun s => errD zs phiI phiC (Function.update x j s) t i) (jDx zs x d i j) (x j)
      ∧ HasDerivAt (fun s => errD zs phiI phiC x s i) (jDt dI dC i) t
      ∧ HasDerivAt (fun s => errDsum (Function.update x j s)) (-10) (x j) := by
  refine ⟨?_, ?_, ?_⟩
  · have hd' : Grad (fun y => phiI y t i) (d i) (Function.update x j (x j)) := by simpa using hd i
    have h1 := Grad.along (c := fun s => Function.update x j s) hd' (fun k => hasDerivAt_update x j k (x j))
    have h2 := (hasDerivAt_const (x j) (1 : ℝ)).fun_div (hasDerivAt_update x j i (x j)) (by simpa using (hx i).ne')
    have h3 := (h2.const_mul (zs i)).log (by simp [(hz i).ne', (hx i).ne'])
    have h4 := (h3.fun_sub h1).add_const (phiC t i)
    simp only [errD, if_pos (hz i).ne']
    refine h4.congr_deriv ?_
    simp only [mul_ite, mul_one, mul_zero, Finset.sum_ite_eq', Finset.mem_univ, if_true, jDx, Function.update_eq_self,
      if_pos (hz i).ne']
    have := (hz i).ne'
    have := (hx i).ne'
    by_cases hi : i = j
    · simp only [hi, if_true]
      subst hi
      field_simp
      ring
    · simp [hi]
  · simp only [errD, if_pos (hz i).ne']
    refine (((hasDerivAt_const t (Real.log (zs i * (1 / x i)))).fun_sub (hI i)).fun_add (hC i)).congr_deriv ?_
    rw [jDt]
    ring
  · have h := HasDerivAt.fun_sum fun k (_ : k ∈ Finset.univ) => hasDerivAt_update x j k (x j)
    refine ((hasDerivAt_const (x j) (10 : ℝ)).fun_sub (h.const_mul 10)).congr_deriv ?_
    simp

/-- The premises are met: a liquid whose logarithmic fugacity coefficients are linear in composition and temperature. -/
example : (∀ i : Fin 2, Grad (fun y => (fun y t i => ∑ k, (![![1, 2], ![3, 4]] : Fin 2 → Comp 2) i k * y k + 5 * t
    : Comp 2 → ℝ → Comp 2) y 7 i) ((![![1, 2], ![3, 4]] : Fin 2 → Comp 2) i) ![1 / 3, 2 / 3]) := by
  intro i
  have h := Grad.linear ((![![1, 2], ![3, 4]] : Fin 2 → Comp 2) i) ![1 / 3, 2 / 3]
  unfold Grad at h ⊢
  exact h.add_const _

/-- **C91.** At a zero of the equations the mole fractions of the appearing phase sum to one and the fugacities of all components of
the feed agree. -/
theorem C91_dew_zero {n : ℕ} (zs : Comp n) (phiI : Comp n → ℝ → Comp n) (phiC : ℝ → Comp n) (x : Comp n) (t P : ℝ)
    (hz : ∀ i, 0 ≤ zs i) (hx : ∀ i, 0 < x i) (h : ∀ i, errD zs phiI phiC x t i = 0) (hs : errDsum x = 0) :
    ∑ i, x i = 1 ∧ ∀ i, zs i ≠ 0 → x i * Real.exp (phiI x t i) * P = zs i * Real.exp (phiC t i) * P := by
  refine ⟨by rw [errDsum] at hs; linarith, fun i hi => ?_⟩
  have h0 := h i
  have hzi : 0 < zs i := lt_of_le_of_ne (hz i) (Ne.symm hi)
  have hxi := hx i
  rw [errD, if_pos hi, Real.log_mul hi (by positivity), one_div, Real.log_inv] at h0
  have e : ∀ a c : ℝ, 0 < a → a * Real.exp c = Real.exp (Real.log a + c) := fun a c ha => by
    rw [Real.exp_add, Real.exp_log ha]
  rw [e _ _ (hx i), e _ _ hzi]
  congr 2
  linarith

example : (∀ i, errD (![2 / 3, 1 / 3] : Comp 2) (fun _ _ => ![Real.log 2, Real.log (1 / 2)]) (fun _ _ => 0) ![1 / 3, 2 / 3] 1 i
    = 0) ∧ errDsum (![1 / 3, 2 / 3] : Comp 2) = 0 := by
  constructor
  · intro i
    fin_cases i
    · simp [errD]
    · simp [errD]; norm_num
      rw [show (1 / 2 : ℝ) = 2⁻¹ by norm_num, Real.log_inv]; ring
  · simp [errDsum, Fin.sum_univ_two]; norm_num

/-- **C91 fails.** For a component that is not in the feed the equation is constant but its row of the matrix is not zero, and
nothing determines its mole fraction in the other phase: a zero with a positive one is accepted. -/
theorem C91_dew_absent_fails : ∃ (zs : Comp 2) (phiI : Comp 2 → ℝ → Comp 2) (x : Comp 2) (d : Fin 2 → Comp 2),
    (∀ i, Grad (fun y => phiI y 1 i) (d i) x) ∧ (∀ i, errD zs phiI (fun _ _ => 0) x 1 i = 0) ∧ errDsum x = 0 ∧ zs 1 = 0
      ∧ 0 < x 1 ∧ ¬ HasDerivAt (fun s => errD zs phiI (fun _ _ => 0) (Function.update x 0 s) 1 1) (jDx zs x d 1 0) (x 0) := by
  refine ⟨![1, 0], fun y _ => ![Real.log 2, ∑ k, (![1, 0] : Comp 2) k * y k], ![1 / 2, 1 / 2], ![fun _ => 0, ![1, 0]], fun i => ?_,
    fun i => ?_, ?_, ?_, ?_, ?_⟩
  · fin_cases i
    · exact Grad.const _ _
    · exact Grad.linear _ _
  · fin_cases i <;> simp [errD]
  · simp [errDsum, Fin.sum_univ_two]; norm_num
  · simp
  · simp
  · intro h
    have hc : (fun s => errD (![1, 0] : Comp 2) (fun y _ => ![Real.log 2, ∑ k, (![1, 0] : Comp 2) k * y k]) (fun _ _ => 0)
        (Function.update ![1 / 2, 1 / 2] 0 s) 1 1) = fun _ => 0 := by
      funext s
      simp [errD]
    rw [hc] at h
    have := h.unique (hasDerivAt_const _ _)
    simp [jDx] at this

/-! ## Minimisation of the Gibbs energy -/

/-- Flow of a phase from its transformed variable (1429). -/
noncomputable def share {n : ℕ} (rem w : Comp n) : Comp n := fun i => rem i / (1 + Real.exp (-w i))

/-- The flows of all phases (1421-1444): each takes a share of what is left, the last one the rest. -/
noncomputable def flowsOf {n : ℕ} : Comp n → List (Comp n) → List (Comp n)
  | rem, [] => [rem]
  | rem, w :: ws => share rem w :: flowsOf (fun i => rem i - share rem w i) ws

/-- Transformed guesses (1389-1392). -/
noncomputable def basisOf {n : ℕ} : Comp n → List (Comp n) → List (Comp n)
  | _, [] => []
  | rem, f :: fs => (fun i => -Real.log ((rem i - f i) / f i)) :: basisOf (fun i => rem i - f i) fs

/-- **C91.** With transformed variables all flows are positive and make up the feed. -/
theorem C91_flows {n : ℕ} (rem : Comp n) (ws : List (Comp n)) (h : ∀ i, 0 < rem i) :
    (∀ f ∈ flowsOf rem ws, ∀ i, 0 < f i) ∧ (∀ i, ((flowsOf rem ws).map (fun f => f i)).sum = rem i)
      ∧ (flowsOf rem ws).length = ws.length + 1 := by
  induction ws generalizing rem with
  | nil => simpa [flowsOf] using h
  | cons w ws ih =>
    have hpos : ∀ i, 0 < share rem w i ∧ share rem w i < rem i := fun i => by
      have := Real.exp_pos (-w i)
      have := h i
      refine ⟨by rw [share]; positivity, ?_⟩
      rw [share, div_lt_iff₀ (by positivity)]
      nlinarith
    obtain ⟨h1, h2, h3⟩ := ih (fun i => rem i - share rem w i) (fun i => by linarith [(hpos i).2])
    refine ⟨?_, fun i => ?_, ?_⟩
    · intro f hf i
      rw [flowsOf, List.mem_cons] at hf
      rcases hf with hf | hf
      · rw [hf]; exact (hpos i).1
      · exact h1 f hf i
    · rw [flowsOf, List.map_cons, List.sum_cons, h2 i]
      ring
    · rw [flowsOf, List.length_cons, List.length_cons, h3]

/-- **C91.** The transformed guesses give back the guesses. -/
theorem C91_basis {n : ℕ} (rem : Comp n) (fs : List (Comp n)) (hf : ∀ f ∈ fs, ∀ i, 0 < f i)
    (hs : ∀ i, (fs.map (fun f => f i)).sum < rem i) :
    flowsOf rem (basisOf rem fs) = fs ++ [fun i => rem i - (fs.map (fun f => f i)).sum] := by
  induction fs generalizing rem with
  | nil => simp [flowsOf, basisOf]
  | cons f fs ih =>
    have hf0 : ∀ i, 0 < f i := hf f (by simp)
    have hnn : ∀ i, 0 ≤ (fs.map (fun f => f i)).sum := fun i =>
      List.sum_nonneg (fun x hx => by
        obtain ⟨g, hg, rfl⟩ := List.mem_map.1 hx
        exact (hf g (by simp [hg]) i).le)
    have hlt : ∀ i, f i < rem i := fun i => by
      have := hs i
      rw [List.map_cons, List.sum_cons] at this
      linarith [hnn i]
    have he : share rem (fun i => -Real.log ((rem i - f i) / f i)) = f := by
      funext i
      have h1 := hf0 i
      have h2 : 0 < rem i - f i := by linarith [hlt i]
      have h3 : 0 < rem i := by linarith
      rw [share, neg_neg, Real.exp_log (div_pos h2 h1)]
      field_simp
      ring
    rw [basisOf, flowsOf, he, ih (fun i => rem i - f i) (fun g hg => hf g (by simp [hg])) (fun i => by
      have := hs i
      rw [List.map_cons, List.sum_cons] at this
      linarith)]
    simp only [List.cons_append, List.map_cons, List.sum_cons, sub_sub]

example : (∀ f ∈ [(fun _ => 1 / 4 : Comp 2)], ∀ i, (0 : ℝ) < f i)
    ∧ ∀ i : Fin 2, ([(fun _ => 1 / 4 : Comp 2)].map (fun f => f i)).sum < (fun _ => 1 / 2 : Comp 2) i := by
  constructor
  · intro f hf i
    simp at hf
    subst hf
    norm_num
  · intro i
    norm_num

/-- Vapor flows of `minimize_gibbs_2P_transformed` (1340). -/
noncomputable def vapor2P {n : ℕ} (zs f : Comp n) : Comp n := fun i => 0 + (zs i - 0) / (1 - f i)

/-- **C91 fails.** In `minimize_gibbs_2P_transformed` the transformation, whose variables start as vapor flows between zero and
one, gives more vapor of each component than there is feed. -/
theorem C91_transform_fails {n : ℕ} (zs f : Comp n) (i : Fin n) (hz : 0 < zs i) (h0 : 0 < f i) (h1 : f i < 1) :
    zs i < vapor2P zs f i := by
  rw [vapor2P, zero_add, sub_zero, lt_div_iff₀ (by linarith)]
  nlinarith

example : (0 : ℝ) < (![1 / 4, 1 / 4] : Comp 2) 0 ∧ (![1 / 4, 1 / 4] : Comp 2) 0 < 1 := by norm_num

end Verif.FlashNewton
