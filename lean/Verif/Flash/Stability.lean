import Mathlib.Data.Real.Basic
import Mathlib.Analysis.SpecialFunctions.Log.Basic
import Mathlib.Analysis.SpecialFunctions.Exp
import Mathlib.Analysis.Complex.ExponentialBounds
import Mathlib.Analysis.Calculus.Deriv.Slope
import Mathlib.Analysis.Calculus.Deriv.Inv
import Mathlib.Tactic.Ring
import Mathlib.Tactic.Linarith
import Mathlib.Tactic.FieldSimp
import Mathlib.Tactic.NormNum
import Mathlib.Tactic.Positivity
import Mathlib.Algebra.BigOperators.Fin
import Mathlib.Algebra.Order.BigOperators.Ring.Finset
import Verif.Flash.Newton

/-!
# The stability test (`thermo/flash/flash_utils.py` 3914-4086, 4525-4539; `flash_vl.py` 526-652)

C92: what a converged trial of `stability_iteration_Michelsen` says about the Gibbs energy, how `stability_test_Michelsen`
draws its conclusion from it, and which trial it returns.

Infinite fugacities, overflow and `nan` are not modelled; the Rachford-Rice solver is given by its contract.
-/

namespace Verif.FlashStability

open scoped BigOperators
open Verif.FlashNewton (Grad rr)

/-- A composition. -/
abbrev Comp (n : ℕ) := Fin n → ℝ

/-! ## One trial -/

/-- Feed, its fugacities in the phase under test, pressure, the phase that may appear, and the tolerance. -/
structure Problem (n : ℕ) where
  (zs fTrial : Comp n) (P : ℝ) (lnphi : Comp n → Comp n) (xtol : ℝ)

/-- `Ks`, `zs_test` and `sum_zs_test`. -/
structure St (n : ℕ) where
  (K w : Comp n) (S : ℝ)

/-- Fugacities of the appearing phase (4003). -/
noncomputable def fTest {n : ℕ} (p : Problem n) (w : Comp n) : Comp n := fun i => p.P * w i * Real.exp (p.lnphi w i)

/-- Lines 3966-3984. -/
noncomputable def start {n : ℕ} (p : Problem n) (w : Comp n) : St n where
  K := fun i => if p.zs i ≠ 0 then w i / p.zs i else 0
  w := w
  S := 1

/-- Line 4010. -/
noncomputable def corr {n : ℕ} (p : Problem n) (s : St n) (i : Fin n) : ℝ := p.fTrial i / fTest p s.w i * (1 / s.S)

/-- Line 4011, for components with a fugacity. -/
noncomputable def newK {n : ℕ} (p : Problem n) (s : St n) : Comp n := fun i =>
  if fTest p s.w i ≠ 0 then s.K i * corr p s i else s.K i

/-- Lines 4006-4012. -/
noncomputable def err {n : ℕ} (p : Problem n) (s : St n) : ℝ :=
  ∑ i, if fTest p s.w i ≠ 0 then (corr p s i - 1) * (corr p s i - 1) else 0

/-- Line 4025. -/
noncomputable def amounts {n : ℕ} (p : Problem n) (s : St n) : Comp n := fun i => newK p s i * p.zs i

/-- The loop (3987-4044). The result is `Ks`, `zs_test` and `sum_zs_test`; `none` is an `UnconvergedError`. -/
noncomputable def run {n : ℕ} (p : Problem n) : ℕ → St n → Option (St n)
  | 0, _ => none
  | fuel + 1, s =>
    if err p s < p.xtol then some ⟨newK p s, s.w, s.S⟩
    else if ∑ i, amounts p s i = 0 then some ⟨newK p s, amounts p s, 0⟩
    else run p fuel ⟨newK p s, fun i => amounts p s i * (1 / ∑ j, amounts p s j), ∑ i, amounts p s i⟩

/-- What the loop keeps. -/
def Inv {n : ℕ} (p : Problem n) (s : St n) : Prop := s.S ≠ 0 ∧ ∀ i, p.zs i ≠ 0 → s.K i * p.zs i = s.S * s.w i

theorem run_spec {n : ℕ} (p : Problem n) (fuel : ℕ) (s o : St n) (hs : Inv p s) (h : run p fuel s = some o) (hS : o.S ≠ 0) :
    ∀ i, p.zs i ≠ 0 → fTest p o.w i ≠ 0 → ∃ c, (c - 1) * (c - 1) < p.xtol ∧ p.fTrial i = c * (o.S * fTest p o.w i)
      ∧ o.K i * p.zs i = c * (o.S * o.w i) := by
  induction fuel generalizing s with
  | zero => simp [run] at h
  | succ fuel ih =>
    rw [run] at h
    split_ifs at h with h1 h2
    · obtain rfl := Option.some.inj h
      intro i hz hf
      dsimp only at hf ⊢
      refine ⟨corr p s i, lt_of_le_of_lt ?_ h1, ?_, ?_⟩
      · have := Finset.single_le_sum (f := fun i => if fTest p s.w i ≠ 0 then (corr p s i - 1) * (corr p s i - 1) else 0)
          (fun j _ => by split_ifs <;> [exact mul_self_nonneg _; exact le_refl 0]) (Finset.mem_univ i)
        simp only [if_pos hf] at this
        exact this
      · have := hs.1
        rw [corr]
        field_simp
      · rw [newK, if_pos hf, mul_right_comm, hs.2 i hz]
        ring
    · obtain rfl := Option.some.inj h
      exact absurd rfl hS
    · refine ih _ ⟨h2, fun i _ => ?_⟩ h
      dsimp only
      rw [mul_comm (∑ i, amounts p s i), mul_assoc, one_div, inv_mul_cancel₀ h2, mul_one, amounts]

/-- **C92.** At the end of a trial the fugacities of all components in the appearing phase are in the same ratio to those in the
phase under test, up to factors whose squared distance from one is below the tolerance; the ratio is the returned sum, and the
returned `K` values are those of amounts with this sum. -/
theorem C92_stationary {n : ℕ} (p : Problem n) (fuel : ℕ) (w : Comp n) (o : St n) (h : run p fuel (start p w) = some o)
    (hS : o.S ≠ 0) (i : Fin n) (hz : p.zs i ≠ 0) (hf : fTest p o.w i ≠ 0) :
    ∃ c, (c - 1) * (c - 1) < p.xtol ∧ p.fTrial i = c * (o.S * fTest p o.w i) ∧ o.K i * p.zs i = c * (o.S * o.w i) := by
  refine run_spec p fuel _ o ⟨one_ne_zero, fun i hi => ?_⟩ h hS i hz hf
  dsimp only [start]
  rw [if_pos hi, one_mul, div_mul_cancel₀ _ hi]

theorem run_stop {n : ℕ} (p : Problem n) (fuel : ℕ) (s : St n) (h : err p s < p.xtol) :
    run p (fuel + 1) s = some ⟨newK p s, s.w, s.S⟩ := by rw [run, if_pos h]

theorem run_go {n : ℕ} (p : Problem n) (fuel : ℕ) (s : St n) (h : ¬ err p s < p.xtol) (h2 : ∑ i, amounts p s i ≠ 0) :
    run p (fuel + 1) s
      = run p fuel ⟨newK p s, fun i => amounts p s i * (1 / ∑ j, amounts p s j), ∑ i, amounts p s i⟩ := by
  rw [run, if_neg h, if_neg h2]

/-! ## What the sum means -/

/-- Tangent plane distance over `RT` of composition `w`, from logarithmic fugacities of the phase and of the feed. -/
noncomputable def tpd {n : ℕ} (w fw fz : Comp n) : ℝ := ∑ i, w i * (Real.log (fw i) - Real.log (fz i))

/-- **C92.** With factors within `δ` of one the tangent plane distance of the appearing phase is minus the logarithm of the sum,
up to `δ / (1 - δ)`; with a ratio common to all components it is equal. -/
theorem C92_tpd {n : ℕ} (w fw fz c : Comp n) (S δ : ℝ) (hw : ∀ i, 0 < w i) (hs : ∑ i, w i = 1) (hf : ∀ i, 0 < fw i)
    (hS : 0 < S) (hδ : δ < 1) (hc : ∀ i, |c i - 1| ≤ δ) (h : ∀ i, fz i = c i * (S * fw i)) :
    |tpd w fw fz + Real.log S| ≤ δ / (1 - δ) := by
  have hcp : ∀ i, 1 - δ ≤ c i ∧ c i ≤ 1 + δ := fun i => by
    have := abs_le.1 (hc i)
    constructor <;> linarith
  have hd : 0 < 1 - δ := by linarith
  have e : tpd w fw fz = -Real.log S - ∑ i, w i * Real.log (c i) := by
    have : ∀ i, w i * (Real.log (fw i) - Real.log (fz i)) = w i * (-Real.log S) - w i * Real.log (c i) := fun i => by
      have h1 := hcp i
      rw [h i, Real.log_mul (by linarith) (mul_pos hS (hf i)).ne', Real.log_mul hS.ne' (hf i).ne']
      ring
    rw [tpd, Finset.sum_congr rfl fun i _ => this i, Finset.sum_sub_distrib, ← Finset.sum_mul, hs, one_mul]
  have hn : 0 < n := by
    rcases Nat.eq_zero_or_pos n with h0 | h0
    · subst h0
      simp at hs
    · exact h0
  have hδ0 : 0 ≤ δ := (abs_nonneg _).trans (hc ⟨0, hn⟩)
  have hlog : ∀ i, |Real.log (c i)| ≤ δ / (1 - δ) := fun i => by
    obtain ⟨h1, h2⟩ := hcp i
    have hci : 0 < c i := by linarith
    have hu := Real.log_le_sub_one_of_pos hci
    have hl := Real.one_sub_inv_le_log_of_pos hci
    have hle : δ ≤ δ / (1 - δ) := by
      rw [le_div_iff₀ hd]
      nlinarith
    rw [abs_le]
    refine ⟨?_, by linarith⟩
    have : (c i)⁻¹ ≤ (1 - δ)⁻¹ := inv_anti₀ hd h1
    have e2 : (1 - δ)⁻¹ = 1 + δ / (1 - δ) := by
      field_simp
      ring
    linarith
  rw [e, show -Real.log S - ∑ i, w i * Real.log (c i) + Real.log S = -∑ i, w i * Real.log (c i) by ring, abs_neg]
  calc |∑ i, w i * Real.log (c i)| ≤ ∑ i, |w i * Real.log (c i)| := Finset.abs_sum_le_sum_abs _ _
    _ ≤ ∑ i, w i * (δ / (1 - δ)) := Finset.sum_le_sum fun i _ => by
        rw [abs_mul, abs_of_pos (hw i)]
        exact mul_le_mul_of_nonneg_left (hlog i) (hw i).le
    _ = δ / (1 - δ) := by rw [← Finset.sum_mul, hs, one_mul]

/-- **C92.** With one common ratio: a sum above one means a negative tangent plane distance, and conversely. -/
theorem C92_sum {n : ℕ} (w fw fz : Comp n) (S : ℝ) (hw : ∀ i, 0 < w i) (hs : ∑ i, w i = 1) (hf : ∀ i, 0 < fw i)
    (hS : 0 < S) (h : ∀ i, fz i = S * fw i) : tpd w fw fz = -Real.log S ∧ (tpd w fw fz < 0 ↔ 1 < S) := by
  have h0 := C92_tpd w fw fz (fun _ => 1) S 0 hw hs hf hS one_pos (fun i => by simp) (fun i => by rw [one_mul]; exact h i)
  rw [zero_div, abs_le] at h0
  have e : tpd w fw fz = -Real.log S := by linarith [h0.1, h0.2]
  refine ⟨e, ?_⟩
  rw [e, neg_lt_zero, Real.log_pos_iff hS.le]

/-- **C92.** A phase with negative tangent plane distance shows that the feed is unstable: splitting off a small amount of it lowers
the Gibbs energy. `g` is the Gibbs energy over `RT` of amounts in the phase under test, whose derivatives are its logarithmic
fugacities. -/
theorem C92_unstable {n : ℕ} (g : Comp n → ℝ) (z w fw fz : Comp n) (hg : Grad g (fun i => Real.log (fz i)) z)
    (h : tpd w fw fz < 0) :
    ∃ e0 > 0, ∀ e, 0 < e → e < e0 → g (fun i => z i - e * w i) + e * ∑ i, w i * Real.log (fw i) < g z := by
  have hz : Grad g (fun i => Real.log (fz i)) ((fun e : ℝ => fun i => z i - e * w i) 0) := by simpa using hg
  have h1 := Grad.along (c := fun e : ℝ => fun i => z i - e * w i) (c' := fun i => -w i) hz (fun k => by
    have := ((hasDerivAt_id' (0 : ℝ)).mul_const (w k)).const_sub (z k)
    simpa using this)
  have h2 := h1.fun_add ((hasDerivAt_id' (0 : ℝ)).mul_const (∑ i, w i * Real.log (fw i)))
  have hd : ∑ k, Real.log (fz k) * -w k + 1 * ∑ i, w i * Real.log (fw i) = tpd w fw fz := by
    rw [tpd, one_mul, ← Finset.sum_add_distrib]
    exact Finset.sum_congr rfl fun i _ => by ring
  rw [hd] at h2
  have h3 := h2.tendsto_slope_zero.eventually (gt_mem_nhds h)
  rw [eventually_nhdsWithin_iff, Metric.eventually_nhds_iff] at h3
  obtain ⟨e0, he0, h4⟩ := h3
  refine ⟨e0, he0, fun e h0 h1 => ?_⟩
  have h5 := h4 (y := e) (by rw [Real.dist_eq, sub_zero, abs_of_pos h0]; exact h1) h0.ne'
  simp only [zero_add, zero_mul, sub_zero, add_zero, smul_eq_mul] at h5
  have h6 : e * (e⁻¹ * (g (fun i => z i - e * w i) + e * ∑ i, w i * Real.log (fw i) - g z)) < 0 := mul_neg_of_pos_of_neg h0 h5
  rw [← mul_assoc, mul_inv_cancel₀ h0.ne', one_mul] at h6
  linarith

/-- The premises are met by an ideal phase under test and one in which both components are more stable. -/
example : tpd (![1 / 2, 1 / 2] : Comp 2) ![1 / 4, 1 / 4] ![1 / 2, 1 / 2] < 0
    ∧ ∀ i, (![1 / 2, 1 / 2] : Comp 2) i = 2 * (![1 / 4, 1 / 4] : Comp 2) i := by
  have h : ∀ i, (![1 / 2, 1 / 2] : Comp 2) i = 2 * (![1 / 4, 1 / 4] : Comp 2) i := by
    intro i
    fin_cases i <;> norm_num
  refine ⟨?_, h⟩
  refine (C92_sum ![1 / 2, 1 / 2] ![1 / 4, 1 / 4] ![1 / 2, 1 / 2] 2 (fun i => ?_) ?_ (fun i => ?_) (by norm_num) h).2.2 (by norm_num)
  · fin_cases i <;> norm_num
  · simp [Fin.sum_univ_two]; norm_num
  · fin_cases i <;> norm_num

/-! ## The verdict -/

/-- The verdict on a trial (604), from the vapor fraction of a flash of the feed with the returned `K` values. -/
noncomputable def stable (V : ℝ) : Prop := V < -(1 / 10 ^ 6) ∨ 1 + 1 / 10 ^ 6 < V

/-- Contract of `flash_inner_loop`: a zero of the Rachford-Rice equation with positive denominators. -/
def IsFlash {n : ℕ} (z K : Comp n) (V : ℝ) : Prop := (∀ i, 0 < 1 + V * (K i - 1)) ∧ rr z K V = 0

theorem frac_zero (z K V : ℝ) (h : 1 + V * (K - 1) ≠ 0) :
    z * (K - 1) - V * (z * (K - 1) ^ 2 / (1 + V * (K - 1))) = z * (K - 1) / (1 + V * (K - 1)) := by
  rw [eq_div_iff h, sub_mul, mul_assoc V, div_mul_cancel₀ _ h]
  ring

theorem frac_one (z K V : ℝ) (h : 1 + V * (K - 1) ≠ 0) (hK : K ≠ 0) :
    z * (1 - 1 / K) - (V - 1) * (z * (K - 1) ^ 2 / (K * (1 + V * (K - 1)))) = z * (K - 1) / (1 + V * (K - 1)) := by
  rw [← div_div, eq_div_iff h, sub_mul, mul_assoc (V - 1), div_mul_cancel₀ _ h]
  field_simp
  ring

theorem flash_zero {n : ℕ} (z K : Comp n) (V : ℝ) (h : IsFlash z K V) :
    ∑ i, z i * (K i - 1) = V * ∑ i, z i * (K i - 1) ^ 2 / (1 + V * (K i - 1)) := by
  rw [← sub_eq_zero, Finset.mul_sum, ← Finset.sum_sub_distrib, ← h.2, rr]
  exact Finset.sum_congr rfl fun i _ => frac_zero _ _ _ (h.1 i).ne'

theorem flash_one {n : ℕ} (z K : Comp n) (V : ℝ) (hK : ∀ i, 0 < K i) (h : IsFlash z K V) :
    ∑ i, z i * (1 - 1 / K i) = (V - 1) * ∑ i, z i * (K i - 1) ^ 2 / (K i * (1 + V * (K i - 1))) := by
  rw [← sub_eq_zero, Finset.mul_sum, ← Finset.sum_sub_distrib, ← h.2, rr]
  exact Finset.sum_congr rfl fun i _ => frac_one _ _ _ (h.1 i).ne' (hK i).ne'

/-- **C92.** The vapor fraction is positive exactly if the sum exceeds one, hence, for a common ratio, exactly if the tangent plane
distance is negative. It is below one exactly if the inverse `K` values have a mean above one. -/
theorem C92_verdict {n : ℕ} (z K w : Comp n) (S V : ℝ) (hz : ∀ i, 0 < z i) (hz1 : ∑ i, z i = 1) (hK : ∀ i, 0 < K i)
    (hne : ∃ i, K i ≠ 1) (hw : ∑ i, w i = 1) (hKw : ∀ i, K i * z i = S * w i) (h : IsFlash z K V) :
    (0 < V ↔ 1 < S) ∧ (V < 0 ↔ S < 1) ∧ (V < 1 ↔ 1 < ∑ i, z i / K i) ∧ (1 < V ↔ ∑ i, z i / K i < 1) := by
  obtain ⟨m, hm⟩ := hne
  have hsq : 0 < (K m - 1) ^ 2 := by
    have : K m - 1 ≠ 0 := sub_ne_zero.2 hm
    positivity
  have hA : 0 < ∑ i, z i * (K i - 1) ^ 2 / (1 + V * (K i - 1)) := by
    refine Finset.sum_pos' (fun i _ => div_nonneg (mul_nonneg (hz i).le (sq_nonneg _)) (h.1 i).le) ⟨m, Finset.mem_univ m, ?_⟩
    exact div_pos (mul_pos (hz m) hsq) (h.1 m)
  have hB : 0 < ∑ i, z i * (K i - 1) ^ 2 / (K i * (1 + V * (K i - 1))) := by
    refine Finset.sum_pos' (fun i _ => div_nonneg (mul_nonneg (hz i).le (sq_nonneg _)) (mul_pos (hK i) (h.1 i)).le)
      ⟨m, Finset.mem_univ m, ?_⟩
    exact div_pos (mul_pos (hz m) hsq) (mul_pos (hK m) (h.1 m))
  have e0 : ∑ i, z i * (K i - 1) = S - 1 := by
    have : ∀ i, z i * (K i - 1) = S * w i - z i := fun i => by rw [← hKw i]; ring
    rw [Finset.sum_congr rfl fun i _ => this i, Finset.sum_sub_distrib, ← Finset.mul_sum, hw, hz1, mul_one]
  have e1 : ∑ i, z i * (1 - 1 / K i) = 1 - ∑ i, z i / K i := by
    have : ∀ i, z i * (1 - 1 / K i) = z i - z i / K i := fun i => by ring
    rw [Finset.sum_congr rfl fun i _ => this i, Finset.sum_sub_distrib, hz1]
  have h0 := flash_zero z K V h
  have h1 := flash_one z K V hK h
  rw [e0] at h0
  rw [e1] at h1
  refine ⟨⟨fun hV => ?_, fun hS => ?_⟩, ⟨fun hV => ?_, fun hS => ?_⟩, ⟨fun hV => ?_, fun hS => ?_⟩, ⟨fun hV => ?_, fun hS => ?_⟩⟩
  · have := mul_pos hV hA
    linarith
  · by_contra hc
    have := mul_nonpos_of_nonpos_of_nonneg (not_lt.1 hc) hA.le
    linarith
  · have := mul_neg_of_neg_of_pos hV hA
    linarith
  · by_contra hc
    have := mul_nonneg (not_lt.1 hc) hA.le
    linarith
  · have := mul_neg_of_neg_of_pos (by linarith : V - 1 < 0) hB
    linarith
  · by_contra hc
    have := mul_nonneg (by linarith [not_lt.1 hc] : 0 ≤ V - 1) hB.le
    linarith
  · have := mul_pos (by linarith : 0 < V - 1) hB
    linarith
  · by_contra hc
    have := mul_nonpos_of_nonpos_of_nonneg (by linarith [not_lt.1 hc] : V - 1 ≤ 0) hB.le
    linarith

/-- **C92.** If the fugacity coefficients of the appearing phase do not depend on composition and the phase under test is the more
stable one at the feed composition, then the verdict is exact: a sum above one gives a vapor fraction between zero and one. -/
theorem C92_ideal {n : ℕ} (z K w : Comp n) (S V : ℝ) (hz : ∀ i, 0 < z i) (hz1 : ∑ i, z i = 1) (hK : ∀ i, 0 < K i)
    (hne : ∃ i, K i ≠ 1) (hw : ∑ i, w i = 1) (hKw : ∀ i, K i * z i = S * w i) (h : IsFlash z K V)
    (phi fz : Comp n) (hphi : ∀ i, 0 < phi i) (hfz : ∀ i, fz i = K i * z i * phi i)
    (hmin : ∑ i, z i * Real.log (fz i) ≤ ∑ i, z i * Real.log (z i * phi i)) (hS : 1 < S) : 0 < V ∧ V ≤ 1 := by
  obtain ⟨h1, _, _, h2⟩ := C92_verdict z K w S V hz hz1 hK hne hw hKw h
  refine ⟨h1.2 hS, not_lt.1 fun hV => ?_⟩
  have h3 := h2.1 hV
  have e : ∑ i, z i * Real.log (1 / K i) = ∑ i, z i * Real.log (z i * phi i) - ∑ i, z i * Real.log (fz i) := by
    rw [← Finset.sum_sub_distrib]
    refine Finset.sum_congr rfl fun i _ => ?_
    rw [hfz i, mul_assoc, Real.log_mul (hK i).ne' (mul_pos (hz i) (hphi i)).ne', one_div, Real.log_inv]
    ring
  have h4 : ∑ i, z i * Real.log (1 / K i) ≤ ∑ i, z i * (1 / K i - 1) :=
    Finset.sum_le_sum fun i _ => mul_le_mul_of_nonneg_left (Real.log_le_sub_one_of_pos (one_div_pos.2 (hK i))) (hz i).le
  have e2 : ∑ i, z i * (1 / K i - 1) = ∑ i, z i / K i - 1 := by
    have : ∀ i, z i * (1 / K i - 1) = z i / K i - z i := fun i => by ring
    rw [Finset.sum_congr rfl fun i _ => this i, Finset.sum_sub_distrib, hz1]
  rw [e2, e] at h4
  linarith

/-- The premises of the two theorems above: `K` values four and one quarter. -/
example : IsFlash (![1 / 2, 1 / 2] : Comp 2) ![4, 1 / 4] (1 / 2)
    ∧ (∀ i, (![4, 1 / 4] : Comp 2) i * (![1 / 2, 1 / 2] : Comp 2) i = 17 / 8 * (![16 / 17, 1 / 17] : Comp 2) i)
    ∧ ∑ i, (![1 / 2, 1 / 2] : Comp 2) i * Real.log ((![2, 1 / 8] : Comp 2) i)
      ≤ ∑ i, (![1 / 2, 1 / 2] : Comp 2) i * Real.log ((![1 / 2, 1 / 2] : Comp 2) i * 1) := by
  refine ⟨⟨fun i => ?_, ?_⟩, fun i => ?_, ?_⟩
  · fin_cases i <;> norm_num
  · simp [rr, Fin.sum_univ_two]; norm_num
  · fin_cases i <;> norm_num
  · simp only [Fin.sum_univ_two, Matrix.cons_val_zero, Matrix.cons_val_one, mul_one]
    have h8 : Real.log 2 + Real.log (1 / 8) = Real.log (1 / 2) + Real.log (1 / 2) := by
      rw [← Real.log_mul (by norm_num) (by norm_num), ← Real.log_mul (by norm_num) (by norm_num)]
      norm_num
    linarith

/-- **C92 fails.** Because of its tolerance the test also calls feeds unstable for which the trial found a positive tangent plane
distance. -/
theorem C92_window_fails : ∃ (z K w : Comp 2) (S V : ℝ), (∀ i, K i * z i = S * w i) ∧ ∑ i, w i = 1 ∧ IsFlash z K V ∧ S < 1
    ∧ ¬ stable V := by
  refine ⟨![1 / 2, 1 / 2], ![3 / 2, 1 / 2 - 1 / 10 ^ 7], ![(3 / 4) / (1 - 1 / 10 ^ 7 / 2), (1 / 4 - 1 / 10 ^ 7 / 2) / (1 - 1 / 10 ^ 7 / 2)],
    1 - 1 / 10 ^ 7 / 2, -(1 / 10 ^ 7) / (1 / 2 + 1 / 10 ^ 7), fun i => ?_, ?_, ⟨fun i => ?_, ?_⟩, by norm_num, ?_⟩
  · fin_cases i <;> norm_num
  · simp [Fin.sum_univ_two]; norm_num
  · fin_cases i <;> norm_num
  · simp [rr, Fin.sum_univ_two]; norm_num
  · rw [stable]; norm_num

/-- A Margules-type phase: the logarithmic fugacity coefficients are derivatives of an energy of amounts. -/
noncomputable def margules (a b A : ℝ) (x : Comp 2) : Comp 2 := ![a + A * x 1 ^ 2, b + A * x 0 ^ 2]

/-- The phase is thermodynamically consistent. -/
theorem margules_consistent (a b A : ℝ) (u v : ℝ) (hu : 0 < u) (hv : 0 < v) :
    HasDerivAt (fun t => a * t + b * v + A * (t * v / (t + v))) (margules a b A ![u / (u + v), v / (u + v)] 0) u
      ∧ HasDerivAt (fun t => a * u + b * t + A * (u * t / (u + t))) (margules a b A ![u / (u + v), v / (u + v)] 1) v := by
  constructor
  · have h1 := ((hasDerivAt_id' u).mul_const v).fun_div ((hasDerivAt_id' u).add_const v) (by positivity)
    refine ((((hasDerivAt_id' u).const_mul a).add_const (b * v)).fun_add (h1.const_mul A)).congr_deriv ?_
    simp only [margules, Matrix.cons_val_zero, Matrix.cons_val_one]
    field_simp
    ring
  · have h1 := ((hasDerivAt_id' v).const_mul u).fun_div ((hasDerivAt_id' v).const_add u) (by positivity)
    refine ((((hasDerivAt_id' v).const_mul b).const_add (a * u)).fun_add (h1.const_mul A)).congr_deriv ?_
    simp only [margules, Matrix.cons_val_zero, Matrix.cons_val_one]
    field_simp
    ring

/-- A feed in an ideal phase, tested against a phase with strongly attracting components. -/
noncomputable def missed : Problem 2 where
  zs := ![1 / 2, 1 / 2]
  fTrial := ![1 / 2, 1 / 2]
  P := 1
  lnphi := margules (-Real.log 3 + 8 * (9 / 169)) (-Real.log (9 / 10) + 8 * (100 / 169)) (-8)
  xtol := 1 / 10 ^ 10

theorem missed_phi : missed.lnphi ![10 / 13, 3 / 13] = ![-Real.log 3, -Real.log (9 / 10)] := by
  funext i
  fin_cases i <;> simp [missed, margules] <;> ring

theorem missed_fTest : fTest missed ![10 / 13, 3 / 13] = ![10 / 39, 10 / 39] := by
  funext i
  rw [fTest, missed_phi]
  fin_cases i
  · simp [missed, Real.exp_neg, Real.exp_log]; norm_num
  · simp only [missed, Fin.mk_one, Matrix.cons_val_one, Matrix.cons_val_fin_one, Real.exp_neg]
    rw [Real.exp_log (by norm_num)]
    norm_num

/-- **C92 fails.** A trial may end at a phase of negative tangent plane distance, here with sum 39/20, and yet be taken as proof of
stability, because the flash with its `K` values has a vapor fraction above one. The phases are thermodynamically consistent and
the phase under test is the more stable one at the composition of the feed. -/
theorem C92_missed_fails : ∃ o, run missed 1000 (start missed ![10 / 13, 3 / 13]) = some o ∧ o.S = 39 / 20
    ∧ tpd o.w (fTest missed o.w) missed.fTrial < 0
    ∧ ∑ i, missed.zs i * Real.log (missed.fTrial i) < ∑ i, missed.zs i * Real.log (fTest missed missed.zs i)
    ∧ IsFlash missed.zs o.K (19 / 4) ∧ stable (19 / 4) := by
  have hf0 : ∀ i, fTest missed ![10 / 13, 3 / 13] i ≠ 0 := by
    intro i
    rw [missed_fTest]
    fin_cases i <;> norm_num
  have hK0 : (start missed ![10 / 13, 3 / 13]).K = ![20 / 13, 6 / 13] := by
    funext i
    fin_cases i <;> simp [start, missed] <;> norm_num
  have hc0 : ∀ i, corr missed (start missed ![10 / 13, 3 / 13]) i = 39 / 20 := by
    intro i
    rw [corr, show (start missed ![10 / 13, 3 / 13]).w = ![10 / 13, 3 / 13] from rfl, missed_fTest]
    fin_cases i <;> simp [start, missed] <;> norm_num
  have hn0 : newK missed (start missed ![10 / 13, 3 / 13]) = ![3, 9 / 10] := by
    funext i
    rw [newK, if_pos (show fTest missed (start missed ![10 / 13, 3 / 13]).w i ≠ 0 from hf0 i), hK0, hc0]
    fin_cases i <;> norm_num
  have he0 : ¬ err missed (start missed ![10 / 13, 3 / 13]) < missed.xtol := by
    rw [err, Fin.sum_univ_two, if_pos (show fTest missed (start missed ![10 / 13, 3 / 13]).w 0 ≠ 0 from hf0 0),
      if_pos (show fTest missed (start missed ![10 / 13, 3 / 13]).w 1 ≠ 0 from hf0 1), hc0, hc0, missed]
    norm_num
  have ha0 : amounts missed (start missed ![10 / 13, 3 / 13]) = ![3 / 2, 9 / 20] := by
    funext i
    rw [amounts, hn0]
    fin_cases i <;> simp [missed] <;> norm_num
  have hs0 : ∑ i, amounts missed (start missed ![10 / 13, 3 / 13]) i = 39 / 20 := by
    rw [ha0]
    simp [Fin.sum_univ_two]
    norm_num
  have hw1 : (fun i => amounts missed (start missed ![10 / 13, 3 / 13]) i * (1 / (39 / 20 : ℝ))) = ![10 / 13, 3 / 13] := by
    funext i
    rw [ha0]
    fin_cases i <;> norm_num
  have hc1 : ∀ i, corr missed ⟨![3, 9 / 10], ![10 / 13, 3 / 13], 39 / 20⟩ i = 1 := by
    intro i
    rw [corr]
    dsimp only
    rw [missed_fTest]
    fin_cases i <;> simp [missed] <;> norm_num
  have he1 : err missed ⟨![3, 9 / 10], ![10 / 13, 3 / 13], 39 / 20⟩ < missed.xtol := by
    rw [err, Fin.sum_univ_two, if_pos (hf0 0), if_pos (hf0 1), hc1, hc1, missed]
    norm_num
  have hn1 : newK missed ⟨![3, 9 / 10], ![10 / 13, 3 / 13], 39 / 20⟩ = ![3, 9 / 10] := by
    funext i
    rw [newK, if_pos (hf0 i), hc1, mul_one]
  refine ⟨⟨![3, 9 / 10], ![10 / 13, 3 / 13], 39 / 20⟩, ?_, rfl, ?_, ?_, ⟨fun i => ?_, ?_⟩, ?_⟩
  · rw [run_go missed 999 _ he0 (by rw [hs0]; norm_num), hs0, hn0, hw1, run_stop missed 998 _ he1, hn1]
  · dsimp only
    refine (C92_sum _ _ missed.fTrial (39 / 20) (fun i => ?_) ?_ (fun i => ?_) (by norm_num) (fun i => ?_)).2.2 (by norm_num)
    · fin_cases i <;> norm_num
    · simp [Fin.sum_univ_two]; norm_num
    · rw [missed_fTest]; fin_cases i <;> norm_num
    · rw [missed_fTest]; fin_cases i <;> simp [missed] <;> norm_num
  · have hl : ∀ i, Real.log (fTest missed missed.zs i) = Real.log (1 / 2) + missed.lnphi ![1 / 2, 1 / 2] i := by
      intro i
      have : fTest missed missed.zs i = 1 / 2 * Real.exp (missed.lnphi ![1 / 2, 1 / 2] i) := by
        rw [fTest, show missed.zs = ![1 / 2, 1 / 2] from rfl]
        fin_cases i <;> simp [missed]
      rw [this, Real.log_mul (by norm_num) (Real.exp_pos _).ne', Real.log_exp]
    rw [Fin.sum_univ_two, Fin.sum_univ_two, hl, hl]
    have h27 : Real.log 3 + Real.log (9 / 10) < 1 := by
      rw [← Real.log_mul (by norm_num) (by norm_num), Real.log_lt_iff_lt_exp (by norm_num)]
      have := Real.exp_one_gt_d9
      norm_num at this ⊢
      linarith
    simp only [missed, margules, Matrix.cons_val_zero, Matrix.cons_val_one]
    norm_num
    norm_num at h27
    linarith
  · dsimp only
    fin_cases i <;> norm_num
  · simp [rr, Fin.sum_univ_two, missed]; norm_num
  · rw [stable]; norm_num

/-! ## Which trial is returned -/

/-- A converged trial: whether it is taken into account (576-601: not the feed, not an existing phase, not trivial), its verdict, its
least distance from existing compositions, the distance of its sum from one, and `dG_RT`. -/
structure Trial where
  (counted unstable : Bool) (minDiff sum dG : ℝ)

/-- Options (527-531). -/
structure Opt where
  (highest : Bool) (minComp : Option ℝ) (lowest iffy : Bool)

/-- Variables of the loop (541-549), solutions being numbers of trials; `brk` is the trial at which the loop was left. -/
structure Loop where
  (always : Bool) (comp low iffySol brk : Option ℕ) (compMax dGmin : ℝ)

/-- Lines 541-549. -/
noncomputable def loop0 : Loop := ⟨true, none, none, none, none, 0, -(10 ^ 100)⟩

/-- `a is not None and x > a`. -/
noncomputable def above (a : Option ℝ) (x : ℝ) : Bool :=
  match a with
  | some m => decide (m < x)
  | none => false

/-- The loop over trials (569-635) without `all_solutions`; `none` is a trial that raised `UnconvergedError`. -/
noncomputable def loop (o : Opt) : ℕ → Loop → List (Option Trial) → Loop
  | _, s, [] => s
  | i, s, none :: ts => loop o (i + 1) s ts
  | i, s, some t :: ts =>
    if t.counted = false then loop o (i + 1) s ts
    else if t.unstable = false then loop o (i + 1) s ts
    else if o.highest = true then
      if s.compMax < t.minDiff then
        if above o.minComp t.minDiff = true then { s with always := false, brk := some i }
        else loop o (i + 1) { s with always := false, comp := some i, compMax := t.minDiff } ts
      else loop o (i + 1) { s with always := false } ts
    else if o.lowest = true then
      if s.dGmin < t.dG then loop o (i + 1) { s with always := false, low := some i, dGmin := t.dG } ts
      else loop o (i + 1) { s with always := false } ts
    else if o.iffy = true ∧ t.sum < 1 / 10 ^ 5 then loop o (i + 1) { s with always := false, iffySol := some i } ts
    else { s with always := false, brk := some i }

/-- What is returned: stable, unstable with the number of a trial, or an exception from unpacking `None`. -/
inductive Verdict
  | stable
  | unstable (i : ℕ)
  | typeError
  deriving DecidableEq

/-- A solution, or the exception. -/
def pick : Option ℕ → Verdict
  | some i => .unstable i
  | none => .typeError

/-- Lines 638-652; leaving the loop by `highest_comp_diff` clears that option. -/
def finish (o : Opt) (s : Loop) : Verdict :=
  if s.always = true then .stable
  else if (o.highest && s.brk.isNone) = true then pick s.comp
  else if o.lowest = true then pick s.low
  else if o.iffy = true then pick s.iffySol
  else pick s.brk

/-- The whole test. -/
noncomputable def test (o : Opt) (ts : List (Option Trial)) : Verdict := finish o (loop o 0 loop0 ts)

/-- A trial that says the feed is unstable. -/
def Shows (t : Option Trial) : Prop := ∃ x, t = some x ∧ x.counted = true ∧ x.unstable = true

theorem loop_always (o : Opt) (ts : List (Option Trial)) (i : ℕ) (s : Loop) :
    (loop o i s ts).always = true ↔ s.always = true ∧ ∀ t ∈ ts, ¬ Shows t := by
  induction ts generalizing i s with
  | nil => simp [loop]
  | cons t ts ih =>
    cases t with
    | none =>
      rw [loop, ih]
      simp [Shows]
    | some t =>
      rw [loop]
      split_ifs with h1 h2 h3 h4 h5 h6 h7 h8
      all_goals first
        | (rw [ih]; simp [Shows, h1]; done)
        | (rw [ih]; simp [Shows, h2]; done)
        | skip
      all_goals
        have hs : Shows (some t) := ⟨t, rfl, by simpa using h1, by simpa using h2⟩
        constructor
        · intro h
          first
            | (rw [ih] at h; simp at h; done)
            | (simp at h; done)
        · intro h
          exact absurd hs (h.2 (some t) (by simp))

/-- **C92.** Whatever the options, the feed is called stable exactly if no trial that is taken into account says otherwise. -/
theorem C92_stable (o : Opt) (ts : List (Option Trial)) : test o ts = .stable ↔ ∀ t ∈ ts, ¬ Shows t := by
  have h := loop_always o ts 0 loop0
  rw [test, finish]
  constructor
  · intro h1
    by_cases ha : (loop o 0 loop0 ts).always = true
    · exact (h.1 ha).2
    · rw [if_neg ha] at h1
      split_ifs at h1 <;> · revert h1; unfold pick; split <;> simp
  · intro h1
    rw [if_pos (h.2 ⟨rfl, h1⟩)]

theorem loop_plain (ts : List (Option Trial)) (i : ℕ) (s : Loop) (k : ℕ) (hb : s.brk = none)
    (h : (loop ⟨false, none, false, false⟩ i s ts).brk = some k) :
    i ≤ k ∧ (∃ t, ts[k - i]? = some t ∧ Shows t) ∧ ∀ j, j < k - i → ∀ t, ts[j]? = some t → ¬ Shows t := by
  induction ts generalizing i s with
  | nil => rw [loop, hb] at h; cases h
  | cons t ts ih =>
    have step : ¬ Shows t → (loop ⟨false, none, false, false⟩ (i + 1) s ts).brk = some k →
        i ≤ k ∧ (∃ t', (t :: ts)[k - i]? = some t' ∧ Shows t') ∧ ∀ j, j < k - i → ∀ t', (t :: ts)[j]? = some t' → ¬ Shows t' := by
      intro hn h'
      obtain ⟨h1, h2, h3⟩ := ih (i + 1) s hb h'
      have e : k - i = (k - (i + 1)) + 1 := by omega
      refine ⟨by omega, by rw [e]; simpa using h2, fun j hj t' ht' => ?_⟩
      cases j with
      | zero =>
        simp at ht'
        rw [← ht']
        exact hn
      | succ j => exact h3 j (by omega) t' (by simpa using ht')
    cases t with
    | none =>
      rw [loop] at h
      exact step (by simp [Shows]) h
    | some t =>
      rw [loop] at h
      by_cases h1 : t.counted = false
      · rw [if_pos h1] at h
        exact step (by simp [Shows, h1]) h
      by_cases h2 : t.unstable = false
      · rw [if_neg h1, if_pos h2] at h
        exact step (by simp [Shows, h2]) h
      · rw [if_neg h1, if_neg h2, if_neg (by simp), if_neg (by simp), if_neg (by simp)] at h
        obtain rfl := Option.some.inj h
        refine ⟨le_refl _, ⟨some t, by simp, ⟨t, rfl, by simpa using h1, by simpa using h2⟩⟩, fun j hj => ?_⟩
        omega

/-- **C92.** Without options the trial returned is the first that says the feed is unstable. -/
theorem C92_first (ts : List (Option Trial)) (k : ℕ) (h : test ⟨false, none, false, false⟩ ts = .unstable k) :
    (∃ t, ts[k]? = some t ∧ Shows t) ∧ ∀ j, j < k → ∀ t, ts[j]? = some t → ¬ Shows t := by
  rw [test, finish] at h
  by_cases h1 : (loop ⟨false, none, false, false⟩ 0 loop0 ts).always = true
  · rw [if_pos h1] at h
    cases h
  · rw [if_neg h1, if_neg (by simp), if_neg (by simp), if_neg (by simp)] at h
    cases hb : (loop ⟨false, none, false, false⟩ 0 loop0 ts).brk with
    | none => rw [hb] at h; cases h
    | some m =>
      rw [hb] at h
      injection h with h
      subst h
      exact (loop_plain ts 0 loop0 m rfl hb).2

theorem loop_highest (lo hi : Bool) (ts : List (Option Trial)) (i : ℕ) (s : Loop) (hb : s.brk = none) :
    let r := loop ⟨true, none, lo, hi⟩ i s ts
    r.brk = none ∧ s.compMax ≤ r.compMax ∧ (∀ x, some x ∈ ts → x.counted = true → x.unstable = true → x.minDiff ≤ r.compMax)
      ∧ ((r.comp = s.comp ∧ r.compMax = s.compMax)
        ∨ ∃ k x, r.comp = some k ∧ i ≤ k ∧ ts[k - i]? = some (some x) ∧ x.counted = true ∧ x.unstable = true ∧ x.minDiff = r.compMax) := by
  induction ts generalizing i s with
  | nil => simp [loop, hb]
  | cons t ts ih =>
    have step : ∀ s' : Loop, s'.brk = none → s.compMax ≤ s'.compMax →
        (∀ x, t = some x → x.counted = true → x.unstable = true → x.minDiff ≤ s'.compMax) →
        ((s'.comp = s.comp ∧ s'.compMax = s.compMax) ∨ ∃ x, s'.comp = some i ∧ t = some x ∧ x.counted = true ∧ x.unstable = true
          ∧ x.minDiff = s'.compMax) →
        let r := loop ⟨true, none, lo, hi⟩ (i + 1) s' ts
        r.brk = none ∧ s.compMax ≤ r.compMax
          ∧ (∀ x, some x ∈ t :: ts → x.counted = true → x.unstable = true → x.minDiff ≤ r.compMax)
          ∧ ((r.comp = s.comp ∧ r.compMax = s.compMax)
            ∨ ∃ k x, r.comp = some k ∧ i ≤ k ∧ (t :: ts)[k - i]? = some (some x) ∧ x.counted = true ∧ x.unstable = true
              ∧ x.minDiff = r.compMax) := by
      intro s' hb' hle ht hcase
      obtain ⟨h1, h2, h3, h4⟩ := ih (i + 1) s' hb'
      refine ⟨h1, hle.trans h2, fun x hx hc hu => ?_, ?_⟩
      · rcases List.mem_cons.1 hx with hx | hx
        · exact (ht x hx.symm hc hu).trans h2
        · exact h3 x hx hc hu
      · rcases h4 with ⟨h5, h6⟩ | ⟨k, x, h5, h6, h7, h8⟩
        · rcases hcase with ⟨h9, h10⟩ | ⟨x, h9, h10, h11, h12, h13⟩
          · exact Or.inl ⟨h5.trans h9, h6.trans h10⟩
          · exact Or.inr ⟨i, x, h5.trans h9, le_refl _, by simp [h10], h11, h12, h13.trans h6.symm⟩
        · refine Or.inr ⟨k, x, h5, by omega, ?_, h8⟩
          rw [show k - i = (k - (i + 1)) + 1 by omega]
          simpa using h7
    cases t with
    | none =>
      rw [loop]
      exact step s hb le_rfl (by simp) (Or.inl ⟨rfl, rfl⟩)
    | some t =>
      rw [loop]
      by_cases h1 : t.counted = false
      · rw [if_pos h1]
        exact step s hb le_rfl (by intro x hx hc; injection hx with hx; subst hx; rw [h1] at hc; cases hc) (Or.inl ⟨rfl, rfl⟩)
      by_cases h2 : t.unstable = false
      · rw [if_neg h1, if_pos h2]
        exact step s hb le_rfl (by intro x hx _ hu; injection hx with hx; subst hx; rw [h2] at hu; cases hu) (Or.inl ⟨rfl, rfl⟩)
      rw [if_neg h1, if_neg h2, if_pos rfl]
      by_cases h4 : s.compMax < t.minDiff
      · rw [if_pos h4, if_neg (by simp [above])]
        exact step { s with always := false, comp := some i, compMax := t.minDiff } hb h4.le
          (by intro x hx _ _; injection hx with hx; subst hx; exact le_rfl)
          (Or.inr ⟨t, rfl, rfl, by simpa using h1, by simpa using h2, rfl⟩)
      · rw [if_neg h4]
        exact step { s with always := false } hb le_rfl
          (by intro x hx _ _; injection hx with hx; subst hx; exact not_lt.1 h4) (Or.inl ⟨rfl, rfl⟩)

/-- **C92.** With `highest_comp_diff` and no limit the trial returned says the feed is unstable, and none that says so is farther from the
existing compositions. -/
theorem C92_highest (ts : List (Option Trial)) (k : ℕ) (h : test ⟨true, none, false, false⟩ ts = .unstable k) :
    ∃ x, ts[k]? = some (some x) ∧ Shows (some x)
      ∧ ∀ y, some y ∈ ts → Shows (some y) → y.minDiff ≤ x.minDiff := by
  obtain ⟨h1, h2, h3, h4⟩ := loop_highest false false ts 0 loop0 rfl
  rw [test, finish] at h
  by_cases h5 : (loop ⟨true, none, false, false⟩ 0 loop0 ts).always = true
  · rw [if_pos h5] at h
    cases h
  · rw [if_neg h5, if_pos (by simp [h1])] at h
    rcases h4 with ⟨h7, _⟩ | ⟨m, x, h7, _, h9, h10, h11, h12⟩
    · rw [h7] at h; cases h
    · rw [h7] at h
      injection h with h
      subst h
      refine ⟨x, by simpa using h9, ⟨x, rfl, h10, h11⟩, fun y hy hs => ?_⟩
      obtain ⟨y', e, hc, hu⟩ := hs
      injection e with e
      subst e
      rw [h12]
      exact h3 y hy hc hu

/-- The premises of the theorems above are met: two trials say that the feed is unstable. -/
example : test ⟨false, none, false, false⟩ [none, some ⟨true, true, 1, 1, 1⟩, some ⟨true, true, 2, 1, 1⟩] = .unstable 1
    ∧ test ⟨true, none, false, false⟩ [none, some ⟨true, true, 1, 1, 1⟩, some ⟨true, true, 2, 1, 1⟩] = .unstable 2 := by
  constructor <;> simp [test, loop, finish, pick, loop0, above]

/-- **C92 fails.** With `lowest_dG` the trial with the higher value of `dG_RT` is returned. -/
theorem C92_lowest_fails :
    test ⟨false, none, true, false⟩ [some ⟨true, true, 1, 1, -2⟩, some ⟨true, true, 1, 1, -1⟩] = .unstable 1 := by
  have h : -(10 ^ 100 : ℝ) < -2 := by norm_num
  simp [test, loop, finish, pick, loop0, h]

/-- **C92 fails.** With `handle_iffy` a trial that clearly says that the feed is unstable ends in an exception. -/
theorem C92_iffy_fails (d : ℝ) : test ⟨false, none, false, true⟩ [some ⟨true, true, d, 1, d⟩] = .typeError := by
  have h : ¬ (1 : ℝ) < (10 ^ 5)⁻¹ := by norm_num
  simp [test, loop, finish, pick, loop0, h]

/-- **C92 fails.** With `highest_comp_diff` and `lowest_dG` or `handle_iffy` the test ends in an exception as soon as a trial is farther
from existing compositions than the limit. -/
theorem C92_options_fails : test ⟨true, some 1, true, false⟩ [some ⟨true, true, 2, 1, 1⟩] = .typeError
    ∧ test ⟨true, some 1, false, true⟩ [some ⟨true, true, 2, 1, 1⟩] = .typeError := by
  constructor <;> simp [test, loop, finish, pick, loop0, above]

/-! ## Removal of repeated results -/

/-- Mean distance of compositions (4535). -/
noncomputable def meanDiff {n : ℕ} (x y : Comp n) : ℝ := (∑ i, |x i - y i|) / n

/-- Whether results of two trials are the same (4535-4537). -/
def Same {n : ℕ} (tol : ℝ) (a b : Comp n × Comp n) : Prop := ¬ (tol < meanDiff a.1 b.1 ∨ tol < meanDiff a.2 b.2)

open Classical in
/-- The loop of `deduplicate_stab_results` over sorted results (4532-4538), with the last one kept. -/
noncomputable def dedupFrom {n : ℕ} (tol : ℝ) : Comp n × Comp n → List (Comp n × Comp n) → List (Comp n × Comp n)
  | _, [] => []
  | last, t :: ts => if Same tol t last then dedupFrom tol last ts else t :: dedupFrom tol t ts

/-- **C92.** Removal of repeated results keeps some of the results in their order, and every one removed is the same as one that is kept. -/
theorem C92_dedup {n : ℕ} (tol : ℝ) (last : Comp n × Comp n) (ts : List (Comp n × Comp n)) :
    (dedupFrom tol last ts).Sublist ts ∧ ∀ t ∈ ts, t ∈ dedupFrom tol last ts ∨ ∃ k ∈ last :: dedupFrom tol last ts, Same tol t k := by
  induction ts generalizing last with
  | nil => simp [dedupFrom]
  | cons a ts ih =>
    rw [dedupFrom]
    split_ifs with h
    · obtain ⟨h1, h2⟩ := ih last
      refine ⟨h1.cons a, fun t ht => ?_⟩
      rcases List.mem_cons.1 ht with ht | ht
      · subst ht
        exact Or.inr ⟨last, by simp, h⟩
      · exact h2 t ht
    · obtain ⟨h1, h2⟩ := ih a
      refine ⟨h1.cons_cons a, fun t ht => ?_⟩
      rcases List.mem_cons.1 ht with ht | ht
      · subst ht
        exact Or.inl (by simp)
      · rcases h2 t ht with h3 | ⟨k, hk, hs⟩
        · exact Or.inl (by simp [h3])
        · exact Or.inr ⟨k, by simp at hk ⊢; tauto, hs⟩

/-- **C92.** Neighbours among the results kept are not the same. -/
theorem C92_dedup_adjacent {n : ℕ} (tol : ℝ) (last : Comp n × Comp n) (ts : List (Comp n × Comp n)) :
    List.IsChain (fun a b => ¬ Same tol b a) (last :: dedupFrom tol last ts) := by
  induction ts generalizing last with
  | nil => simp [dedupFrom]
  | cons a ts ih =>
    rw [dedupFrom]
    split_ifs with h
    · exact ih last
    · exact List.IsChain.cons_cons h (ih a)

example : ¬ Same (1 / 200) ((![1, 0], ![1, 0]) : Comp 2 × Comp 2) (![0, 1], ![0, 1]) := by
  simp only [Same, meanDiff, Fin.sum_univ_two, not_not]
  left
  norm_num

/-- **C92 fails.** Results that are the same may both be kept, if the order of sorting puts another one between them. -/
theorem C92_dedup_fails : ∃ (a b c : Comp 3 × Comp 3), Same (1 / 200) c a ∧ dedupFrom (1 / 200) a [b, c] = [b, c]
    ∧ a.1 0 < b.1 0 ∧ b.1 0 < c.1 0 := by
  refine ⟨(![0, 1, 0], ![1, 0, 0]), (![1 / 1000, 0, 999 / 1000], ![1, 0, 0]), (![2 / 1000, 998 / 1000, 0], ![1, 0, 0]), ?_, ?_, ?_, ?_⟩
  · simp only [Same, meanDiff, Fin.sum_univ_three, not_or]
    constructor <;> simp <;> norm_num [abs_of_nonneg, abs_of_nonpos]
  · have h1 : ¬ Same (1 / 200) ((![1 / 1000, 0, 999 / 1000], ![1, 0, 0]) : Comp 3 × Comp 3) (![0, 1, 0], ![1, 0, 0]) := by
      simp only [Same, meanDiff, Fin.sum_univ_three, not_not]
      left
      simp
      norm_num [abs_of_nonneg, abs_of_nonpos]
    have h2 : ¬ Same (1 / 200) ((![2 / 1000, 998 / 1000, 0], ![1, 0, 0]) : Comp 3 × Comp 3)
        (![1 / 1000, 0, 999 / 1000], ![1, 0, 0]) := by
      simp only [Same, meanDiff, Fin.sum_univ_three, not_not]
      left
      simp
      norm_num [abs_of_nonneg, abs_of_nonpos]
    rw [dedupFrom, if_neg h1, dedupFrom, if_neg h2, dedupFrom]
  · simp
  · simp
    norm_num

end Verif.FlashStability
