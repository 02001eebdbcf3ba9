import Mathlib.Data.Real.Basic
import Mathlib.Algebra.BigOperators.Fin
import Mathlib.Algebra.BigOperators.Field
import Mathlib.Algebra.Order.BigOperators.Group.Finset
import Mathlib.Topology.Order.IntermediateValue
import Mathlib.Topology.Instances.Real.Lemmas
import Mathlib.Topology.Algebra.Field
import Mathlib.Tactic.Ring
import Mathlib.Tactic.Linarith
import Mathlib.Tactic.FieldSimp
import Mathlib.Tactic.NormNum
import Mathlib.Tactic.Positivity
import Mathlib.Tactic.FinCases

/-!
# The ideal property package (`thermo/property_package.py` 58-91, 552-628, 907-1049)

C103. Rachford-Rice flashes, dew and bubble pressures, flashes by temperature, pressure and vapor fraction, and the common wrapper.

Vapor pressures are data. `flash_inner_loop` of chemicals is given by its contract, a zero of the Rachford-Rice equation with positive
denominators; `brenth` by its: a zero.
-/

namespace Verif.IdealPackage

open scoped BigOperators

/-- A value for each component. -/
abbrev Comp (n : ℕ) := Fin n → ℝ

variable {N : ℕ}

/-! ## Rachford-Rice (58-91) -/

/-- `Rachford_Rice_flash_error`. -/
noncomputable def rr (z K : Comp N) (V : ℝ) : ℝ := ∑ i, z i * (K i - 1) / (1 + V * (K i - 1))

/-- Contract of the solver. -/
def IsFlash (z K : Comp N) (V : ℝ) : Prop := (∀ i, 0 < 1 + V * (K i - 1)) ∧ rr z K V = 0

/-- Line 89. -/
noncomputable def xs (z K : Comp N) (V : ℝ) : Comp N := fun i => z i / (1 + V * (K i - 1))

/-- Line 90. -/
noncomputable def ys (z K : Comp N) (V : ℝ) : Comp N := fun i => K i * xs z K V i

/-- Line 71, for the smallest and largest `K` values at `l` and `m`. -/
noncomputable def vMin (z K : Comp N) (l m : Fin N) : ℝ := ((K m - K l) * z m - (1 - K l)) / ((1 - K l) * (K m - 1))

/-- Line 72. -/
noncomputable def vMax (K : Comp N) (l : Fin N) : ℝ := 1 / (1 - K l)

theorem xs_sum (z K : Comp N) (V : ℝ) (h : IsFlash z K V) : ∑ i, xs z K V i = ∑ i, z i := by
  have h1 : ∀ i, xs z K V i = z i - V * (z i * (K i - 1) / (1 + V * (K i - 1))) := by
    intro i
    have := (h.1 i).ne'
    unfold xs
    field_simp
    ring
  have h2 : ∑ i, z i * (K i - 1) / (1 + V * (K i - 1)) = 0 := h.2
  rw [Finset.sum_congr rfl fun i _ => h1 i, Finset.sum_sub_distrib, ← Finset.mul_sum, h2, mul_zero, sub_zero]

theorem ys_sum (z K : Comp N) (V : ℝ) (h : IsFlash z K V) : ∑ i, ys z K V i = ∑ i, z i := by
  rw [← xs_sum z K V h]
  have h2 : ∑ i, z i * (K i - 1) / (1 + V * (K i - 1)) = 0 := h.2
  have h1 : ∀ i, ys z K V i = xs z K V i + z i * (K i - 1) / (1 + V * (K i - 1)) := by
    intro i; unfold ys xs; ring
  rw [Finset.sum_congr rfl fun i _ => h1 i, Finset.sum_add_distrib, h2, add_zero]

/-- **C103.** The compositions of a flash add to what the feed adds to, are in the ratios given, are not negative, and the amounts of every component
in the two phases are that in the feed. -/
theorem C103_split (z K : Comp N) (V : ℝ) (h : IsFlash z K V) (hz : ∀ i, 0 ≤ z i) (hK : ∀ i, 0 < K i) :
    ∑ i, xs z K V i = ∑ i, z i ∧ ∑ i, ys z K V i = ∑ i, z i ∧ (∀ i, 0 ≤ xs z K V i ∧ 0 ≤ ys z K V i ∧ ys z K V i = K i * xs z K V i)
    ∧ ∀ i, (1 - V) * xs z K V i + V * ys z K V i = z i := by
  have hx : ∀ i, 0 ≤ xs z K V i := fun i => div_nonneg (hz i) (h.1 i).le
  refine ⟨xs_sum z K V h, ys_sum z K V h, fun i => ⟨hx i, mul_nonneg (hK i).le (hx i), rfl⟩, fun i => ?_⟩
  have := (h.1 i).ne'
  unfold ys xs
  field_simp
  ring

/-- **C103.** The bounds for the vapor fraction hold for every flash, also those with vapor fractions outside zero and one. -/
theorem C103_bounds (z K : Comp N) (V : ℝ) (h : IsFlash z K V) (hz : ∀ i, 0 ≤ z i) (hs : ∑ i, z i = 1) (l m : Fin N)
    (hl : ∀ i, K l ≤ K i) (hl1 : K l < 1) (hm1 : 1 < K m) : vMin z K l m ≤ V ∧ V < vMax K l := by
  have hx0 : ∀ i, 0 ≤ xs z K V i := fun i => div_nonneg (hz i) (h.1 i).le
  have hx : ∑ i, xs z K V i = 1 := by rw [xs_sum z K V h, hs]
  have hy : ∑ i, K i * xs z K V i = 1 := by rw [← hs, ← ys_sum z K V h]; rfl
  constructor
  · have h1 : (K m - K l) * xs z K V m ≤ ∑ i, (K i - K l) * xs z K V i :=
      Finset.single_le_sum (f := fun i => (K i - K l) * xs z K V i)
        (fun i _ => mul_nonneg (sub_nonneg.2 (hl i)) (hx0 i)) (Finset.mem_univ m)
    have h2 : ∑ i, (K i - K l) * xs z K V i = 1 - K l := by
      rw [Finset.sum_congr rfl fun i _ => sub_mul (K i) (K l) (xs z K V i), Finset.sum_sub_distrib, hy, ← Finset.mul_sum, hx, mul_one]
    rw [h2] at h1
    have hD := h.1 m
    have h3 : (K m - K l) * z m ≤ (1 - K l) * (1 + V * (K m - 1)) := by
      unfold xs at h1
      rw [← mul_div_assoc, div_le_iff₀ hD] at h1
      exact h1
    unfold vMin
    rw [div_le_iff₀ (mul_pos (by linarith) (by linarith))]
    nlinarith
  · have hD := h.1 l
    unfold vMax
    rw [lt_div_iff₀ (by linarith)]
    nlinarith

/-- The bounds after clipping (74-75) also hold for a vapor fraction between zero and one. -/
theorem C103_window (z K : Comp N) (V : ℝ) (h : IsFlash z K V) (hz : ∀ i, 0 ≤ z i) (hs : ∑ i, z i = 1) (l m : Fin N)
    (hl : ∀ i, K l ≤ K i) (hl1 : K l < 1) (hm1 : 1 < K m) (h0 : 0 ≤ V) (h1 : V ≤ 1) :
    max 0 (vMin z K l m) ≤ V ∧ V ≤ min 1 (vMax K l) := by
  obtain ⟨h2, h3⟩ := C103_bounds z K V h hz hs l m hl hl1 hm1
  exact ⟨max_le h0 h2, le_min h1 h3.le⟩

/-- The error falls with the vapor fraction, where denominators are positive. -/
theorem rr_lt (z K : Comp N) (V W : ℝ) (hV : ∀ i, 0 < 1 + V * (K i - 1)) (hW : ∀ i, 0 < 1 + W * (K i - 1)) (h : V < W)
    (hz : ∀ i, 0 ≤ z i) (k : Fin N) (hk : 0 < z k) (hk1 : K k ≠ 1) : rr z K W < rr z K V := by
  have hd : ∀ i, z i * (K i - 1) / (1 + V * (K i - 1)) - z i * (K i - 1) / (1 + W * (K i - 1))
      = z i * (K i - 1) ^ 2 * (W - V) / ((1 + V * (K i - 1)) * (1 + W * (K i - 1))) := by
    intro i
    have h1 := (hV i).ne'
    have h2 := (hW i).ne'
    rw [div_sub_div _ _ h1 h2]
    congr 1
    ring
  unfold rr
  apply Finset.sum_lt_sum
  · intro i _
    rw [← sub_nonneg, hd]
    exact div_nonneg (mul_nonneg (mul_nonneg (hz i) (sq_nonneg _)) (by linarith)) (mul_pos (hV i) (hW i)).le
  · refine ⟨k, Finset.mem_univ k, ?_⟩
    rw [← sub_pos, hd]
    have : 0 < (K k - 1) ^ 2 := by
      have : K k - 1 ≠ 0 := sub_ne_zero.2 hk1
      positivity
    exact div_pos (mul_pos (mul_pos hk this) (by linarith)) (mul_pos (hV k) (hW k))

/-- **C103.** There is only one flash. -/
theorem C103_unique (z K : Comp N) (V W : ℝ) (hV : IsFlash z K V) (hW : IsFlash z K W) (hz : ∀ i, 0 ≤ z i) (k : Fin N) (hk : 0 < z k)
    (hk1 : K k ≠ 1) : V = W := by
  rcases lt_trichotomy V W with h | h | h
  · have := rr_lt z K V W hV.1 hW.1 h hz k hk hk1
    rw [hV.2, hW.2] at this
    exact absurd this (lt_irrefl _)
  · exact h
  · have := rr_lt z K W V hW.1 hV.1 h hz k hk hk1
    rw [hV.2, hW.2] at this
    exact absurd this (lt_irrefl _)

/-- A binary flash: `K` values of 2 and 1/2, and equal amounts. -/
theorem binary_flash : IsFlash (![1 / 2, 1 / 2] : Comp 2) ![2, 1 / 2] (1 / 2) := by
  refine ⟨fun i => ?_, ?_⟩
  · fin_cases i <;> norm_num
  · norm_num [rr, Fin.sum_univ_two]

example : (∀ i, 0 ≤ (![1 / 2, 1 / 2] : Comp 2) i) ∧ ∑ i, (![1 / 2, 1 / 2] : Comp 2) i = 1
    ∧ (∀ i, (![2, 1 / 2] : Comp 2) 1 ≤ (![2, 1 / 2] : Comp 2) i) ∧ (![2, 1 / 2] : Comp 2) 1 < 1 ∧ 1 < (![2, 1 / 2] : Comp 2) 0 := by
  refine ⟨fun i => ?_, by norm_num [Fin.sum_univ_two], fun i => ?_, by norm_num, by norm_num⟩
  · fin_cases i <;> norm_num
  · fin_cases i <;> norm_num

/-- **C103 fails.** For two components the lower bound is the vapor fraction itself. The bracket of the last resort (86) starts above it, so the error
has the same sign all over the bracket: bisection never succeeds for two components. -/
theorem C103_bracket_fails (z K : Comp 2) (V : ℝ) (h : IsFlash z K V) (hz : ∀ i, 0 < z i) (hs : ∑ i, z i = 1) (hl1 : K 1 < 1) (hm1 : 1 < K 0) :
    vMin z K 1 0 = V ∧ ∀ W, vMin z K 1 0 + 1 / 10 ^ 7 ≤ W → W ≤ vMax K 1 - 1 / 10 ^ 7 → rr z K W < 0 := by
  have hx : ∑ i, xs z K V i = 1 := by rw [xs_sum z K V h, hs]
  have hy : ∑ i, K i * xs z K V i = 1 := by rw [← hs, ← ys_sum z K V h]; rfl
  rw [Fin.sum_univ_two] at hx hy
  have hV : vMin z K 1 0 = V := by
    have h2 : (K 0 - K 1) * xs z K V 0 = 1 - K 1 := by
      have : xs z K V 1 = 1 - xs z K V 0 := by linarith
      rw [this] at hy
      linarith
    have hD := h.1 0
    unfold xs at h2
    rw [← mul_div_assoc, div_eq_iff hD.ne'] at h2
    unfold vMin
    rw [h2, div_eq_iff (mul_pos (by linarith : (0 : ℝ) < 1 - K 1) (by linarith : (0 : ℝ) < K 0 - 1)).ne']
    ring
  refine ⟨hV, fun W hW1 hW2 => ?_⟩
  rw [hV] at hW1
  have hVW : V < W := by
    have : (0 : ℝ) < 1 / 10 ^ 7 := by norm_num
    linarith
  have hWp : ∀ i, 0 < 1 + W * (K i - 1) := by
    intro i
    fin_cases i
    · have := h.1 0
      simp only [Fin.zero_eta] at *
      nlinarith
    · have h1 : W < vMax K 1 := by
        have : (0 : ℝ) < 1 / 10 ^ 7 := by norm_num
        linarith
      unfold vMax at h1
      rw [lt_div_iff₀ (by linarith)] at h1
      simp only [Fin.mk_one]
      nlinarith
  have := rr_lt z K V W h.1 hWp hVW (fun i => (hz i).le) 0 (hz 0) hm1.ne'
  rwa [h.2] at this

/-! ## Dew and bubble pressures, flashes (907-1049) -/

/-- `1.0/sum(zs[i]/Psats[i])` (999, 1027). -/
noncomputable def dew (z s : Comp N) : ℝ := 1 / ∑ i, z i / s i

/-- `sum(zs[i]*Psats[i])` (1000, 1025). -/
noncomputable def bubble (z s : Comp N) : ℝ := ∑ i, z i * s i

/-- `K_value`. -/
noncomputable def Ks (s : Comp N) (P : ℝ) : Comp N := fun i => s i / P

/-- Phases reported. -/
inductive Phase
  | g | l | lg
  deriving DecidableEq

/-- What a flash returns: phase, compositions of liquid and gas, and vapor fraction. -/
structure Res (N : ℕ) where
  (phase : Phase) (x y : Option (Comp N)) (V : ℝ)

open Classical in
/-- `flash_TP_zs_ideal` (994-1009). For one component dew and bubble pressures are the vapor pressure (996-997), which the sums give as
well. -/
noncomputable def flashTP (solve : Comp N → Comp N → ℝ) (z s : Comp N) (P : ℝ) : Res N :=
  if P ≤ dew z s then ⟨.g, none, some z, 1⟩
  else if P ≥ bubble z s then ⟨.l, some z, none, 0⟩
  else ⟨.lg, some (xs z (Ks s P) (solve z (Ks s P))), some (ys z (Ks s P) (solve z (Ks s P))), solve z (Ks s P)⟩

/-- The solver finds a flash if there is one. -/
def Solves (solve : Comp N → Comp N → ℝ) : Prop := ∀ z K V, IsFlash z K V → IsFlash z K (solve z K)

/-- What is assumed of feed and vapor pressures. -/
structure Ok (z s : Comp N) : Prop where
  zp : ∀ i, 0 < z i
  sum : ∑ i, z i = 1
  sp : ∀ i, 0 < s i

theorem denom_pos (K V : ℝ) (hK : 0 < K) (h0 : 0 ≤ V) (h1 : V ≤ 1) : 0 < 1 + V * (K - 1) := by
  rcases eq_or_lt_of_le h1 with h | h
  · rw [h]; linarith
  · nlinarith [mul_nonneg h0 hK.le]

theorem Ks_pos (z s : Comp N) (h : Ok z s) (P : ℝ) (hP : 0 < P) (i : Fin N) : 0 < Ks s P i := div_pos (h.sp i) hP

theorem sum_div_pos (z s : Comp N) (h : Ok z s) : 0 < ∑ i, z i / s i := by
  have : Nonempty (Fin N) := by
    rcases N with _ | n
    · have := h.sum; simp at this
    · exact ⟨0⟩
  exact Finset.sum_pos (fun i _ => div_pos (h.zp i) (h.sp i)) Finset.univ_nonempty

theorem dew_pos (z s : Comp N) (h : Ok z s) : 0 < dew z s := one_div_pos.2 (sum_div_pos z s h)

/-- The error at a bubble. -/
theorem rr_zero (z s : Comp N) (h : Ok z s) (P : ℝ) (hP : 0 < P) : rr z (Ks s P) 0 = bubble z s / P - 1 := by
  unfold rr bubble Ks
  rw [Finset.sum_div]
  have : ∀ i, z i * (s i / P - 1) / (1 + 0 * (s i / P - 1)) = z i * s i / P - z i := by
    intro i
    rw [zero_mul, add_zero, div_one]
    field_simp
  rw [Finset.sum_congr rfl fun i _ => this i, Finset.sum_sub_distrib, h.sum]

/-- The error at a dew drop. -/
theorem rr_one (z s : Comp N) (h : Ok z s) (P : ℝ) (hP : 0 < P) : rr z (Ks s P) 1 = 1 - P / dew z s := by
  unfold rr dew Ks
  rw [div_div_eq_mul_div, div_one, Finset.mul_sum]
  have : ∀ i, z i * (s i / P - 1) / (1 + 1 * (s i / P - 1)) = z i - P * (z i / s i) := by
    intro i
    have := (h.sp i).ne'
    have h1 : 1 + 1 * (s i / P - 1) = s i / P := by ring
    rw [h1]
    field_simp
  rw [Finset.sum_congr rfl fun i _ => this i, Finset.sum_sub_distrib, h.sum]

theorem rr_continuous (z K : Comp N) (hK : ∀ i, 0 < K i) : ContinuousOn (rr z K) (Set.Icc 0 1) := by
  unfold rr
  refine continuousOn_finset_sum _ fun i _ => ?_
  refine ContinuousOn.div continuousOn_const (by fun_prop) fun V hV => ?_
  exact (denom_pos (K i) V (hK i) hV.1 hV.2).ne'

/-- Between dew and bubble pressure there is a flash, with a vapor fraction between zero and one. -/
theorem exists_flash (z s : Comp N) (h : Ok z s) (P : ℝ) (h1 : dew z s < P) (h2 : P < bubble z s) :
    ∃ V, 0 < V ∧ V < 1 ∧ IsFlash z (Ks s P) V := by
  have hP : 0 < P := (dew_pos z s h).trans h1
  have hK := Ks_pos z s h P hP
  have h0 : 0 < rr z (Ks s P) 0 := by
    rw [rr_zero z s h P hP, sub_pos, lt_div_iff₀ hP]; linarith
  have h1' : rr z (Ks s P) 1 < 0 := by
    rw [rr_one z s h P hP, sub_neg, lt_div_iff₀ (dew_pos z s h)]; linarith
  obtain ⟨V, hV, hr⟩ := intermediate_value_Ioo' zero_le_one (rr_continuous z (Ks s P) hK) ⟨h1', h0⟩
  exact ⟨V, hV.1, hV.2, fun i => denom_pos _ _ (hK i) hV.1.le hV.2.le, hr⟩

/-- **C103.** The dew pressure is not above the bubble pressure. -/
theorem C103_dew_le_bubble (z s : Comp N) (h : Ok z s) : dew z s ≤ bubble z s := by
  have hd := dew_pos z s h
  have hone := rr_one z s h (dew z s) hd
  rw [div_self hd.ne', sub_self] at hone
  have hz := rr_zero z s h (dew z s) hd
  by_contra hc
  push Not at hc
  have h0 : rr z (Ks s (dew z s)) 0 < 0 := by
    rw [hz, sub_neg, div_lt_one hd]; exact hc
  have : ∃ k, Ks s (dew z s) k ≠ 1 := by
    by_contra hc'
    push Not at hc'
    have : rr z (Ks s (dew z s)) 0 = 0 := by
      unfold rr
      exact Finset.sum_eq_zero fun i _ => by rw [hc' i]; simp
    linarith
  obtain ⟨k, hk⟩ := this
  have hK := Ks_pos z s h _ hd
  have := rr_lt z (Ks s (dew z s)) 0 1 (fun i => denom_pos _ _ (hK i) le_rfl zero_le_one)
    (fun i => denom_pos _ _ (hK i) zero_le_one le_rfl) zero_lt_one (fun i => (h.zp i).le) k (h.zp k) hk
  linarith

/-- What the package is to find: two phases with a vapor fraction between zero and one, holding together the feed, with the partial pressures of the
law of Raoult. -/
structure TwoPhase (z s : Comp N) (P V : ℝ) (x y : Comp N) : Prop where
  pos : 0 < V
  lt : V < 1
  raoult : ∀ i, y i * P = x i * s i
  balance : ∀ i, (1 - V) * x i + V * y i = z i
  sumx : ∑ i, x i = 1
  sumy : ∑ i, y i = 1

/-- Two phases in equilibrium solve the equation of Rachford and Rice. -/
theorem twoPhase_flash (z s : Comp N) (P V : ℝ) (x y : Comp N) (h : Ok z s) (hP : 0 < P) (ht : TwoPhase z s P V x y) :
    IsFlash z (Ks s P) V ∧ x = xs z (Ks s P) V ∧ y = ys z (Ks s P) V := by
  have hD : ∀ i, 0 < 1 + V * (Ks s P i - 1) := fun i => denom_pos _ _ (Ks_pos z s h P hP i) ht.pos.le ht.lt.le
  have hy : ∀ i, y i = Ks s P i * x i := by
    intro i
    have := ht.raoult i
    unfold Ks
    field_simp
    linarith
  have hx : ∀ i, x i = xs z (Ks s P) V i := by
    intro i
    have hb := ht.balance i
    rw [hy i] at hb
    unfold xs
    rw [eq_div_iff (hD i).ne', ← hb]
    ring
  refine ⟨⟨hD, ?_⟩, funext hx, funext fun i => ?_⟩
  · have h1 : ∑ i, (y i - x i) = 0 := by rw [Finset.sum_sub_distrib, ht.sumx, ht.sumy, sub_self]
    unfold rr
    rw [← h1]
    refine Finset.sum_congr rfl fun i _ => ?_
    rw [hy i, hx i]
    unfold xs
    ring
  · rw [hy i, hx i]; rfl

theorem flash_twoPhase (z s : Comp N) (P V : ℝ) (h : Ok z s) (hP : 0 < P) (h0 : 0 < V) (h1 : V < 1) (hf : IsFlash z (Ks s P) V) :
    TwoPhase z s P V (xs z (Ks s P) V) (ys z (Ks s P) V) := by
  obtain ⟨hx, hy, -, hb⟩ := C103_split z (Ks s P) V hf (fun i => (h.zp i).le) (Ks_pos z s h P hP)
  refine ⟨h0, h1, fun i => ?_, hb, by rw [hx, h.sum], by rw [hy, h.sum]⟩
  unfold ys Ks
  field_simp

/-- A flash with a vapor fraction between zero and one is between dew and bubble pressure. -/
theorem flash_between (z s : Comp N) (P V : ℝ) (h : Ok z s) (hP : 0 < P) (h0 : 0 < V) (h1 : V < 1) (hf : IsFlash z (Ks s P) V) (k : Fin N)
    (hk : s k ≠ P) : dew z s < P ∧ P < bubble z s := by
  have hK := Ks_pos z s h P hP
  have hk1 : Ks s P k ≠ 1 := fun hc => hk ((div_eq_one_iff_eq hP.ne').1 hc)
  have hz : ∀ i, 0 ≤ z i := fun i => (h.zp i).le
  have a := rr_lt z (Ks s P) 0 V (fun i => denom_pos _ _ (hK i) le_rfl zero_le_one) hf.1 h0 hz k (h.zp k) hk1
  have b := rr_lt z (Ks s P) V 1 hf.1 (fun i => denom_pos _ _ (hK i) zero_le_one le_rfl) h1 hz k (h.zp k) hk1
  rw [hf.2, rr_zero z s h P hP, sub_pos, lt_div_iff₀ hP] at a
  rw [hf.2, rr_one z s h P hP, sub_neg, lt_div_iff₀ (dew_pos z s h)] at b
  constructor <;> linarith

/-- **C103.** Unless all vapor pressures are the pressure, two phases are reported exactly if there are two phases in equilibrium, and those reported
are the only ones. -/
theorem C103_TP (solve : Comp N → Comp N → ℝ) (hs : Solves solve) (z s : Comp N) (h : Ok z s) (P : ℝ) (hP : 0 < P) (k : Fin N) (hk : s k ≠ P)
    (V : ℝ) (x y : Comp N) : TwoPhase z s P V x y ↔ flashTP solve z s P = ⟨.lg, some x, some y, V⟩ := by
  have hk1 : Ks s P k ≠ 1 := fun hc => hk ((div_eq_one_iff_eq hP.ne').1 hc)
  have hz : ∀ i, 0 ≤ z i := fun i => (h.zp i).le
  constructor
  · intro ht
    obtain ⟨hf, hx, hy⟩ := twoPhase_flash z s P V x y h hP ht
    obtain ⟨h1, h2⟩ := flash_between z s P V h hP ht.pos ht.lt hf k hk
    have hV : solve z (Ks s P) = V := C103_unique z (Ks s P) _ _ (hs _ _ _ hf) hf hz k (h.zp k) hk1
    unfold flashTP
    rw [if_neg (not_le.2 h1), if_neg (not_le.2 h2), hV, ← hx, ← hy]
  · intro he
    unfold flashTP at he
    split_ifs at he with h1 h2
    · cases he
    · cases he
    · injection he with _ e1 e2 e3
      injection e1 with e1
      injection e2 with e2
      obtain ⟨W, hW0, hW1, hWf⟩ := exists_flash z s h P (not_le.1 h1) (not_le.1 h2)
      have hV : solve z (Ks s P) = W := C103_unique z (Ks s P) _ _ (hs _ _ _ hWf) hWf hz k (h.zp k) hk1
      rw [← e1, ← e2, ← e3, hV]
      exact flash_twoPhase z s P W h hP hW0 hW1 hWf

/-- **C103.** A gas is reported exactly if no liquid can form from it: the partial pressures over the vapor pressures add to one at most. Otherwise a
liquid is reported exactly if its vapor pressure is not above the pressure. -/
theorem C103_single (solve : Comp N → Comp N → ℝ) (z s : Comp N) (h : Ok z s) (P : ℝ) :
    ((flashTP solve z s P).phase = .g ↔ ∑ i, z i * P / s i ≤ 1)
    ∧ ((flashTP solve z s P).phase = .l ↔ 1 < ∑ i, z i * P / s i ∧ ∑ i, z i * s i ≤ P)
    ∧ ((flashTP solve z s P).phase = .g → (flashTP solve z s P) = ⟨.g, none, some z, 1⟩)
    ∧ ((flashTP solve z s P).phase = .l → (flashTP solve z s P) = ⟨.l, some z, none, 0⟩) := by
  have h1 : P ≤ dew z s ↔ ∑ i, z i * P / s i ≤ 1 := by
    unfold dew
    rw [le_div_iff₀ (sum_div_pos z s h), Finset.mul_sum]
    have : ∀ i, P * (z i / s i) = z i * P / s i := fun i => by ring
    rw [Finset.sum_congr rfl fun i _ => this i]
  unfold flashTP
  split_ifs with h2 h3
  · refine ⟨⟨fun _ => h1.1 h2, fun _ => rfl⟩, ⟨fun h => (by cases h), fun h => absurd (h1.1 h2) (not_le.2 h.1)⟩, fun _ => rfl, fun h => (by cases h)⟩
  · refine ⟨⟨fun h => (by cases h), fun h => absurd (h1.2 h) h2⟩, ⟨fun _ => ⟨not_le.1 fun h => h2 (h1.2 h), h3⟩, fun _ => rfl⟩,
      fun h => (by cases h), fun _ => rfl⟩
  · refine ⟨⟨fun h => (by cases h), fun h => absurd (h1.2 h) h2⟩, ⟨fun h => (by cases h), fun h => absurd h.2 h3⟩,
      fun h => (by cases h), fun h => (by cases h)⟩

/-- A mixture with vapor pressures of 2 and 1/2. -/
theorem sample_ok : Ok (![1 / 2, 1 / 2] : Comp 2) ![2, 1 / 2] := by
  refine ⟨fun i => ?_, by norm_num [Fin.sum_univ_two], fun i => ?_⟩
  · fin_cases i <;> norm_num
  · fin_cases i <;> norm_num

/-- At a pressure of one it is between dew and bubble pressure. -/
example : dew (![1 / 2, 1 / 2] : Comp 2) ![2, 1 / 2] < 1 ∧ 1 < bubble (![1 / 2, 1 / 2] : Comp 2) ![2, 1 / 2] := by
  constructor
  · norm_num [dew, Fin.sum_univ_two]
  · norm_num [bubble, Fin.sum_univ_two]

/-! ## Flashes at a vapor fraction -/

open Classical in
/-- `flash_TVF_zs_ideal` (1015-1032) for mixtures; `root` is the pressure found by `brenth`. The first component is the pressure. -/
noncomputable def flashTVF (solve : Comp N → Comp N → ℝ) (z s : Comp N) (VF root : ℝ) : ℝ × Res N :=
  let P := if VF = 0 then bubble z s else if VF = 1 then dew z s else root
  let V := solve z (Ks s P)
  (P, ⟨.lg, some (xs z (Ks s P) V), some (ys z (Ks s P) V), V⟩)

theorem bubble_pos (z s : Comp N) (h : Ok z s) : 0 < bubble z s := (dew_pos z s h).trans_le (C103_dew_le_bubble z s h)

theorem bubble_flash (z s : Comp N) (h : Ok z s) : IsFlash z (Ks s (bubble z s)) 0 := by
  have hb := bubble_pos z s h
  refine ⟨fun i => denom_pos _ _ (Ks_pos z s h _ hb i) le_rfl zero_le_one, ?_⟩
  rw [rr_zero z s h _ hb, div_self hb.ne', sub_self]

theorem dew_flash (z s : Comp N) (h : Ok z s) : IsFlash z (Ks s (dew z s)) 1 := by
  have hb := dew_pos z s h
  refine ⟨fun i => denom_pos _ _ (Ks_pos z s h _ hb i) zero_le_one le_rfl, ?_⟩
  rw [rr_one z s h _ hb, div_self hb.ne', sub_self]

/-- **C103.** A flash at a vapor fraction has that vapor fraction, at the pressure returned the phases have the partial pressures of the law of Raoult and
hold together the feed. Assumed is that vapor pressures differ and that `brenth`, if used, found a zero of its error. -/
theorem C103_TVF (solve : Comp N → Comp N → ℝ) (hs : Solves solve) (z s : Comp N) (h : Ok z s) (VF root : ℝ) (i₀ j₀ : Fin N) (hij : s i₀ ≠ s j₀)
    (hr : VF ≠ 0 → VF ≠ 1 → 0 < root ∧ (∃ V, IsFlash z (Ks s root) V) ∧ solve z (Ks s root) - VF = 0) :
    let r := flashTVF solve z s VF root
    r.2.V = VF ∧ ∃ x y, r.2.x = some x ∧ r.2.y = some y ∧ (∀ i, y i * r.1 = x i * s i) ∧ (∀ i, (1 - VF) * x i + VF * y i = z i)
      ∧ ∑ i, x i = 1 ∧ ∑ i, y i = 1 ∧ (VF = 0 → x = z) ∧ (VF = 1 → y = z) := by
  have hz : ∀ i, 0 ≤ z i := fun i => (h.zp i).le
  have key : ∀ P, 0 < P → (∃ V, IsFlash z (Ks s P) V) → solve z (Ks s P) = VF →
      (∀ i, ys z (Ks s P) VF i * P = xs z (Ks s P) VF i * s i) ∧ (∀ i, (1 - VF) * xs z (Ks s P) VF i + VF * ys z (Ks s P) VF i = z i)
      ∧ ∑ i, xs z (Ks s P) VF i = 1 ∧ ∑ i, ys z (Ks s P) VF i = 1 ∧ (VF = 0 → xs z (Ks s P) VF = z) ∧ (VF = 1 → ys z (Ks s P) VF = z) := by
    intro P hP ⟨V, hV⟩ he
    have hf := hs _ _ _ hV
    rw [he] at hf
    obtain ⟨hx, hy, -, hb⟩ := C103_split z (Ks s P) VF hf hz (Ks_pos z s h P hP)
    refine ⟨fun i => ?_, hb, by rw [hx, h.sum], by rw [hy, h.sum], fun h0 => funext fun i => ?_, fun h1 => funext fun i => ?_⟩
    · unfold ys Ks; field_simp
    · have := hb i; rw [h0] at this ⊢; linarith
    · have := hb i; rw [h1] at this ⊢; linarith
  have ne : ∀ P, ∃ k, Ks s P k ≠ 1 ∨ P = 0 := by
    intro P
    by_contra hc
    push Not at hc
    have h1 := (hc i₀).1
    have h2 := (hc j₀).1
    have hP := (hc i₀).2
    unfold Ks at h1 h2
    rw [div_eq_one_iff_eq hP] at h1 h2
    exact hij (h1.trans h2.symm)
  have uniq : ∀ P V, 0 < P → IsFlash z (Ks s P) V → solve z (Ks s P) = V := by
    intro P V hP hV
    obtain ⟨k, hk | hk⟩ := ne P
    · exact C103_unique z (Ks s P) _ _ (hs _ _ _ hV) hV hz k (h.zp k) hk
    · exact absurd hk hP.ne'
  intro r
  by_cases h0 : VF = 0
  · have hp : r.1 = bubble z s := by simp only [r, flashTVF, if_pos h0]
    have hb := bubble_pos z s h
    have hV := uniq _ _ hb (bubble_flash z s h)
    rw [← h0] at hV
    have hr2 : r.2 = ⟨.lg, some (xs z (Ks s (bubble z s)) VF), some (ys z (Ks s (bubble z s)) VF), VF⟩ := by
      simp only [r, flashTVF]
      rw [if_pos h0, hV]
    rw [hr2, hp]
    exact ⟨rfl, _, _, rfl, rfl, key _ hb ⟨_, bubble_flash z s h⟩ hV⟩
  · by_cases h1 : VF = 1
    · have hp : r.1 = dew z s := by simp only [r, flashTVF, if_neg h0, if_pos h1]
      have hb := dew_pos z s h
      have hV := uniq _ _ hb (dew_flash z s h)
      rw [← h1] at hV
      have hr2 : r.2 = ⟨.lg, some (xs z (Ks s (dew z s)) VF), some (ys z (Ks s (dew z s)) VF), VF⟩ := by
        simp only [r, flashTVF]
        rw [if_neg h0, if_pos h1, hV]
      rw [hr2, hp]
      exact ⟨rfl, _, _, rfl, rfl, key _ hb ⟨_, dew_flash z s h⟩ hV⟩
    · obtain ⟨hroot, hex, he⟩ := hr h0 h1
      have hV : solve z (Ks s root) = VF := by linarith
      have hp : r.1 = root := by simp only [r, flashTVF, if_neg h0, if_neg h1]
      have hr2 : r.2 = ⟨.lg, some (xs z (Ks s root) VF), some (ys z (Ks s root) VF), VF⟩ := by
        simp only [r, flashTVF]
        rw [if_neg h0, if_neg h1, hV]
      rw [hr2, hp]
      exact ⟨rfl, _, _, rfl, rfl, key _ hroot hex hV⟩

/-- **C103.** The vapor fraction falls as the pressure rises. -/
theorem C103_monotone (z s : Comp N) (h : Ok z s) (P P' V V' : ℝ) (hP : 0 < P) (hPP : P < P') (h0 : 0 ≤ V) (h1 : V ≤ 1) (h0' : 0 ≤ V')
    (h1' : V' ≤ 1) (hV : IsFlash z (Ks s P) V) (hV' : IsFlash z (Ks s P') V') (k : Fin N) (hk : s k ≠ P) : V' < V := by
  have hP' : 0 < P' := hP.trans hPP
  have hK := Ks_pos z s h P hP
  have hK' := Ks_pos z s h P' hP'
  have hD : ∀ i, 0 < 1 + V' * (Ks s P i - 1) := fun i => denom_pos _ _ (hK i) h0' h1'
  have : Nonempty (Fin N) := ⟨k⟩
  have hlt : rr z (Ks s P') V' < rr z (Ks s P) V' := by
    unfold rr
    refine Finset.sum_lt_sum_of_nonempty Finset.univ_nonempty fun i _ => ?_
    have hd : z i * (Ks s P i - 1) / (1 + V' * (Ks s P i - 1)) - z i * (Ks s P' i - 1) / (1 + V' * (Ks s P' i - 1))
        = z i * (Ks s P i - Ks s P' i) / ((1 + V' * (Ks s P i - 1)) * (1 + V' * (Ks s P' i - 1))) := by
      have a := (hD i).ne'
      have b := (hV'.1 i).ne'
      rw [div_sub_div _ _ a b]
      congr 1
      ring
    rw [← sub_pos, hd]
    have : Ks s P' i < Ks s P i := div_lt_div_of_pos_left (h.sp i) hP hPP
    exact div_pos (mul_pos (h.zp i) (by linarith)) (mul_pos (hD i) (hV'.1 i))
  rw [hV'.2] at hlt
  by_contra hc
  push Not at hc
  have hk1 : Ks s P k ≠ 1 := fun hc => hk ((div_eq_one_iff_eq hP.ne').1 hc)
  rcases eq_or_lt_of_le hc with h2 | h2
  · rw [← h2, hV.2] at hlt; exact lt_irrefl _ hlt
  · have := rr_lt z (Ks s P) V V' hV.1 hD h2 (fun i => (h.zp i).le) k (h.zp k) hk1
    rw [hV.2] at this
    linarith

/-- **C103.** A flash at the temperature and the pressure of a flash at a vapor fraction gives back its vapor fraction and compositions. -/
theorem C103_round_trip (solve : Comp N → Comp N → ℝ) (hs : Solves solve) (z s : Comp N) (h : Ok z s) (VF root : ℝ) (h0 : 0 < VF) (h1 : VF < 1)
    (hroot : 0 < root) (hex : ∃ V, IsFlash z (Ks s root) V) (he : solve z (Ks s root) - VF = 0) (k : Fin N) (hk : s k ≠ root) :
    flashTP solve z s (flashTVF solve z s VF root).1 = (flashTVF solve z s VF root).2 := by
  obtain ⟨V, hV⟩ := hex
  have hf := hs _ _ _ hV
  have hV' : solve z (Ks s root) = VF := by linarith
  obtain ⟨hd, hb⟩ := flash_between z s root VF h hroot h0 h1 (hV' ▸ hf) k hk
  have hp : (flashTVF solve z s VF root).1 = root := by simp only [flashTVF, if_neg h0.ne', if_neg h1.ne]
  rw [hp]
  unfold flashTP
  rw [if_neg (not_le.2 hd), if_neg (not_le.2 hb)]
  simp only [flashTVF, if_neg h0.ne', if_neg h1.ne]

/-- The premises for the sample: at a pressure of one the vapor fraction is one half. -/
example : IsFlash (![1 / 2, 1 / 2] : Comp 2) (Ks ![2, 1 / 2] 1) (1 / 2) ∧ (![2, 1 / 2] : Comp 2) 0 ≠ 1 := by
  have : Ks (![2, 1 / 2] : Comp 2) 1 = ![2, 1 / 2] := by funext i; unfold Ks; rw [div_one]
  rw [this]
  exact ⟨binary_flash, by norm_num⟩

/-- **C103 fails.** For nearly pure mixtures the bracket for the pressure (1029) lies above the bubble pressure: at none of its pressures is the vapor fraction
one between zero and one, though there is such a pressure. -/
theorem C103_nearly_pure_fails : ∃ z s : Comp 2, Ok z s ∧ (∀ i, s 0 ≤ s i ∧ s i ≤ s 1)
    ∧ (∃ P V, 0 < V ∧ V < 1 ∧ IsFlash z (Ks s P) V)
    ∧ ∀ P, s 0 * (1 + 1 / 10 ^ 7) ≤ P → P ≤ s 1 * (1 - 1 / 10 ^ 7) → ∀ V, IsFlash z (Ks s P) V → ¬ (0 < V ∧ V < 1) := by
  have hok : Ok (![1 - 1 / 10 ^ 9, 1 / 10 ^ 9] : Comp 2) ![1, 2] := by
    refine ⟨fun i => ?_, by norm_num [Fin.sum_univ_two], fun i => ?_⟩
    · fin_cases i <;> norm_num
    · fin_cases i <;> norm_num
  refine ⟨![1 - 1 / 10 ^ 9, 1 / 10 ^ 9], ![1, 2], hok, ?_, ?_, ?_⟩
  · intro i; fin_cases i <;> norm_num
  · have h1 : dew (![1 - 1 / 10 ^ 9, 1 / 10 ^ 9] : Comp 2) ![1, 2] = 2000000000 / 1999999999 := by
      norm_num [dew, Fin.sum_univ_two]
    have h2 : bubble (![1 - 1 / 10 ^ 9, 1 / 10 ^ 9] : Comp 2) ![1, 2] = 1000000001 / 1000000000 := by
      norm_num [bubble, Fin.sum_univ_two]
    obtain ⟨V, hV⟩ := exists_flash _ _ hok (1 + 3 / 4 / 10 ^ 9) (by rw [h1]; norm_num) (by rw [h2]; norm_num)
    exact ⟨_, V, hV⟩
  · intro P hP1 hP2 V hV ⟨h0, h1⟩
    have hP : 0 < P := by norm_num at hP1; linarith
    have hne : (![1, 2] : Comp 2) 0 ≠ P := by
      norm_num at hP1 ⊢
      intro hc
      linarith
    have := (flash_between _ _ P V hok hP h0 h1 hV 0 hne).2
    norm_num [bubble, Fin.sum_univ_two] at this hP1
    linarith

/-- **C103 fails.** If all vapor pressures are the same, the ends of the bracket for the pressure are in the wrong order and neither is the vapor pressure. -/
theorem C103_equal_fails (p : ℝ) (hp : 0 < p) : p * (1 - 1 / 10 ^ 7) < p ∧ p < p * (1 + 1 / 10 ^ 7) := by
  constructor <;> nlinarith

/-- `flash_PVF_zs_ideal` (1037-1049) for mixtures; `T` is the temperature found by `brenth`, `psat` the vapor pressures at a temperature. -/
noncomputable def flashPVF (solve : Comp N → Comp N → ℝ) (z : Comp N) (psat : ℝ → Comp N) (P T : ℝ) : ℝ × Res N :=
  let V := solve z (Ks (psat T) P)
  (T, ⟨.lg, some (xs z (Ks (psat T) P) V), some (ys z (Ks (psat T) P) V), V⟩)

/-- **C103.** A flash at a pressure and a vapor fraction has that vapor fraction; at the temperature returned the phases have the partial pressures of the law
of Raoult and hold together the feed, and a flash at that temperature and pressure gives them back. -/
theorem C103_PVF (solve : Comp N → Comp N → ℝ) (hs : Solves solve) (z : Comp N) (psat : ℝ → Comp N) (P T VF : ℝ) (h : Ok z (psat T)) (hP : 0 < P)
    (hex : ∃ V, IsFlash z (Ks (psat T) P) V) (he : solve z (Ks (psat T) P) - VF = 0) :
    let r := flashPVF solve z psat P T
    r.2.V = VF ∧ (∃ x y, r.2.x = some x ∧ r.2.y = some y ∧ (∀ i, y i * P = x i * psat r.1 i) ∧ (∀ i, (1 - VF) * x i + VF * y i = z i)
      ∧ ∑ i, x i = 1 ∧ ∑ i, y i = 1)
    ∧ (0 < VF → VF < 1 → ∀ k, psat T k ≠ P → flashTP solve z (psat r.1) P = r.2) := by
  obtain ⟨V, hV⟩ := hex
  have hf := hs _ _ _ hV
  have hVF : solve z (Ks (psat T) P) = VF := by linarith
  rw [hVF] at hf
  obtain ⟨hx, hy, -, hb⟩ := C103_split z (Ks (psat T) P) VF hf (fun i => (h.zp i).le) (Ks_pos z _ h P hP)
  intro r
  have hr : r = (T, ⟨.lg, some (xs z (Ks (psat T) P) VF), some (ys z (Ks (psat T) P) VF), VF⟩) := by simp only [r, flashPVF, hVF]
  rw [hr]
  refine ⟨rfl, ⟨_, _, rfl, rfl, fun i => ?_, hb, by rw [hx, h.sum], by rw [hy, h.sum]⟩, fun h0 h1 k hk => ?_⟩
  · unfold ys Ks; field_simp
  · obtain ⟨hd, hb'⟩ := flash_between z (psat T) P VF h hP h0 h1 hf k hk
    unfold flashTP
    rw [if_neg (not_le.2 hd), if_neg (not_le.2 hb'), hVF]

/-! ## The wrapper (592-626) -/

/-- `PHASE_ROUNDING_TOL` (552). -/
noncomputable def tol : ℝ := 1 / 10 ^ 9

open Classical in
/-- Lines 606-612. -/
noncomputable def restore (VF : Option ℝ) (V : ℝ) : ℝ :=
  match VF with
  | none => V
  | some v => if V < tol ∧ v > tol then v else if V > 1 - tol ∧ v < 1 - tol then v else V

open Classical in
/-- Lines 614-618. -/
noncomputable def rounded (z : Comp N) (r : Res N) : Res N :=
  if r.phase = .lg then
    if r.V < tol then ⟨.l, some z, none, 0⟩ else if r.V > 1 - tol then ⟨.g, none, some z, 1⟩ else r
  else r

/-- The result of `flash` (606-626), from that of the flash by the specified pair. -/
noncomputable def finish (z : Comp N) (VF : Option ℝ) (r : Res N) : Res N := rounded z { r with V := restore VF r.V }

/-- Which flash is made (597-604). -/
inductive Pair
  | TP | TVF | PVF
  deriving DecidableEq

/-- Lines 597-604, from which of `T`, `P` and `VF` are given; `none` is the exception. -/
def pairOf (T P VF : Bool) : Option Pair :=
  if T ∧ P then some .TP else if T ∧ VF then some .TVF else if P ∧ VF then some .PVF else none

/-- What a consistent result is: vapor fraction zero for a liquid, one for a gas, and otherwise between them, away from the ends, with two compositions. -/
def Consistent (z : Comp N) (r : Res N) : Prop :=
  (r.phase = .l → r = ⟨.l, some z, none, 0⟩) ∧ (r.phase = .g → r = ⟨.g, none, some z, 1⟩)
  ∧ (r.phase = .lg → tol ≤ r.V ∧ r.V ≤ 1 - tol ∧ r.x.isSome = true ∧ r.y.isSome = true)

theorem rounded_lg (z : Comp N) (r : Res N) (h : r.phase = .lg) (hx : r.x.isSome = true) (hy : r.y.isSome = true) : Consistent z (rounded z r) := by
  unfold rounded
  rw [if_pos h]
  split_ifs with h1 h2
  · exact ⟨fun _ => rfl, fun hc => (by cases hc), fun hc => (by cases hc)⟩
  · exact ⟨fun hc => (by cases hc), fun _ => rfl, fun hc => (by cases hc)⟩
  · exact ⟨fun hc => absurd (h.symm.trans hc) (by decide), fun hc => absurd (h.symm.trans hc) (by decide), fun _ => ⟨not_lt.1 h1, not_lt.1 h2, hx, hy⟩⟩

/-- **C103, partial.** After a flash at temperature and pressure, without a vapor fraction, phase, compositions and vapor fraction agree. Missing: a vapor
fraction given as well, see `C103_overspecified_fails`. -/
theorem C103_wrapper_TP_partial (solve : Comp N → Comp N → ℝ) (z s : Comp N) (P : ℝ) : Consistent z (finish z none (flashTP solve z s P)) := by
  unfold finish restore flashTP
  split_ifs
  · exact ⟨fun h => (by cases h), fun _ => rfl, fun h => (by cases h)⟩
  · exact ⟨fun _ => rfl, fun h => (by cases h), fun h => (by cases h)⟩
  · exact rounded_lg z _ rfl rfl rfl

/-- **C103.** After a flash at a vapor fraction, phase, compositions and vapor fraction agree, and the vapor fraction is that asked for up to the rounding
tolerance. -/
theorem C103_wrapper_VF (z : Comp N) (VF : ℝ) (r : Res N) (hr : r.phase = .lg) (hx : r.x.isSome = true) (hy : r.y.isSome = true) (h0 : 0 ≤ VF)
    (h1 : VF ≤ 1) (hV : r.V = VF) : Consistent z (finish z (some VF) r) ∧ |(finish z (some VF) r).V - VF| ≤ tol := by
  have ht : (0 : ℝ) < tol := by unfold tol; norm_num
  have hres : restore (some VF) r.V = VF := by
    unfold restore
    dsimp only
    rw [hV]
    split_ifs <;> rfl
  refine ⟨rounded_lg z _ hr hx hy, ?_⟩
  unfold finish
  rw [hres]
  unfold rounded
  rw [if_pos hr]
  dsimp only
  split_ifs with h2 h3
  · dsimp only; rw [abs_le]; constructor <;> linarith
  · dsimp only; rw [abs_le]; constructor <;> linarith
  · dsimp only; rw [sub_self, abs_zero]; exact ht.le

example : (⟨.lg, some (![1 / 2, 1 / 2] : Comp 2), some ![1 / 2, 1 / 2], 1 / 2⟩ : Res 2).phase = .lg := rfl

/-- **C103 fails.** With temperature, pressure and a vapor fraction given the pair is temperature and pressure; for a gas the vapor fraction asked for is then
reported, though phase and compositions are those of the gas, and so for a liquid. -/
theorem C103_overspecified_fails (solve : Comp N → Comp N → ℝ) (z s : Comp N) (P v : ℝ) (h0 : tol < v) (h1 : v < 1 - tol) :
    pairOf true true true = some .TP
    ∧ (P ≤ dew z s → finish z (some v) (flashTP solve z s P) = ⟨.g, none, some z, v⟩)
    ∧ (¬ P ≤ dew z s → bubble z s ≤ P → finish z (some v) (flashTP solve z s P) = ⟨.l, some z, none, v⟩) := by
  have ht : (0 : ℝ) < tol := by unfold tol; norm_num
  have ht' : tol < 1 / 2 := by unfold tol; norm_num
  refine ⟨by simp [pairOf], fun h => ?_, fun h h' => ?_⟩
  · unfold flashTP finish restore
    rw [if_pos h]
    dsimp only
    rw [if_neg (by rintro ⟨h2, -⟩; linarith), if_pos ⟨by linarith, h1⟩]
    unfold rounded
    rw [if_neg (by simp)]
  · unfold flashTP finish restore
    rw [if_neg h, if_pos h']
    dsimp only
    rw [if_pos ⟨ht, h0⟩]
    unfold rounded
    rw [if_neg (by simp)]

example : tol < 1 / 2 ∧ 1 / 2 < 1 - tol := by unfold tol; norm_num

/-- **C103.** Temperature and pressure take precedence, then temperature and vapor fraction, then pressure and vapor fraction; fewer than two of them are an error.
A vapor fraction within `1e-9` of an end is reported as one phase. -/
theorem C103_pairs : (∀ v, pairOf true true v = some .TP) ∧ pairOf true false true = some .TVF ∧ pairOf false true true = some .PVF
    ∧ (∀ T P v, pairOf T P v = none ↔ T.toNat + P.toNat + v.toNat < 2)
    ∧ ∀ (z x y : Comp N) (V : ℝ), (finish z none ⟨.lg, some x, some y, V⟩).phase = .lg ↔ 1 / 1000000000 ≤ V ∧ V ≤ 999999999 / 1000000000 := by
  refine ⟨by decide, by decide, by decide, by decide, fun z x y V => ?_⟩
  unfold finish restore rounded tol
  dsimp only
  rw [if_pos rfl]
  split_ifs with h1 h2
  · exact ⟨fun h => (by cases h), fun h => (by norm_num at h1 h; linarith)⟩
  · exact ⟨fun h => (by cases h), fun h => (by norm_num at h2 h; linarith)⟩
  · exact ⟨fun _ => (by norm_num at h1 h2 ⊢; constructor <;> linarith), fun _ => rfl⟩

example : (finish ![1 / 2, 1 / 2] none ⟨.lg, some ![1 / 3, 2 / 3], some ![2 / 3, 1 / 3], 1 / 2⟩ : Res 2).phase = .lg :=
  (C103_pairs.2.2.2.2 ![1 / 2, 1 / 2] ![1 / 3, 2 / 3] ![2 / 3, 1 / 3] (1 / 2)).2 (by norm_num)

end Verif.IdealPackage
