import Verif.TDep.Fits
import Mathlib.Data.Int.CardIntervalMod
import Mathlib.Data.Nat.Count
import Mathlib.Analysis.SpecialFunctions.Pow.Deriv
import Mathlib.Analysis.SpecialFunctions.Sqrt
import Mathlib.Tactic

/-!
# Fits: folds, criteria, statistics, selection, consistent attraction functions (`thermo/fitting.py`, C145)

* `split_data`, `assemble_fit_test_groups` (67-105): folds of the data.
* `AICc`, `BIC` (108-126).
* `fit_polynomial`, `poly_fit_statistics`, `data_fit_statistics` (149-391): transformed functions, statistics.
* `select_index_from_stats`, `fit_many_cheb_poly`, `fit_cheb_poly_auto` (393-463): selection of the number of coefficients.
* `Twu91_check_params`, `alpha_Twu91_objfc`, `poly_check_params`, `alpha_constrain_err` (481-626): consistency of attraction functions.
* `fit_function` (633-687): the best of several minimizations.

Simplified: exact real numbers; `ChebTools`, `numpy.polynomial` and `lmfit` are functions that return coefficients; `is_poly_positive` and `is_poly_negative` of `fluids` are their documented meaning.
-/

namespace Verif.Fitting

open Real
open Verif.VolumeObj (horner polyder)

/-! ## Folds -/

/-- Indices of the points in each fold (76-81). -/
def deal (folds : ℕ) : ℕ → List (List ℕ)
  | 0 => List.replicate folds []
  | n + 1 => (deal folds n).modify (n % folds) (· ++ [n])

/-- `split_data` (67-83); `none` is a `ValueError` or a division by zero. The indices shuffled with `seed` are not used. -/
def splitData {α β : Type} (x : List α) (y : List β) (folds _seed : ℕ) : Option (List (List α) × List (List β)) :=
  if x.length ≠ y.length then none
  else if folds = 0 ∧ x.length ≠ 0 then none
  else some ((deal folds x.length).map fun l => l.filterMap (x[·]?), (deal folds x.length).map fun l => l.filterMap (y[·]?))

theorem deal_length (folds n : ℕ) : (deal folds n).length = folds := by
  induction n with
  | zero => simp [deal]
  | succ n ih => rw [deal, List.length_modify, ih]

theorem deal_get (folds n l : ℕ) (hl : l < folds) : (deal folds n)[l]? = some ((List.range n).filter fun i => decide (i % folds = l)) := by
  induction n with
  | zero => simp [deal, hl]
  | succ n ih =>
    rw [deal, List.getElem?_modify, ih, List.range_succ, List.filter_append]
    by_cases h : n % folds = l
    · simp [h]
    · simp [h]

theorem deal_eq (folds n : ℕ) : deal folds n = (List.range folds).map fun l => (List.range n).filter fun i => decide (i % folds = l) := by
  apply List.ext_getElem?
  intro l
  rcases lt_or_ge l folds with h | h
  · rw [deal_get folds n l h, List.getElem?_map, List.getElem?_range h]
    rfl
  · rw [List.getElem?_eq_none (by rw [deal_length]; exact h), List.getElem?_eq_none (by simpa using h)]

theorem dealt_perm {folds : ℕ} (hf : 0 < folds) (n : ℕ) : (deal folds n).flatten.Perm (List.range n) := by
  induction n with
  | zero => simp [deal]
  | succ n ih =>
    have key : ∀ (L : List (List ℕ)) (k : ℕ), k < L.length → (L.modify k (· ++ [n])).flatten.Perm (L.flatten ++ [n]) := by
      intro L
      induction L with
      | nil => intro k hk; simp at hk
      | cons a t iht =>
        intro k hk
        rcases k with _ | k
        · simp only [List.modify_zero_cons, List.flatten_cons, List.append_assoc]
          exact List.Perm.append_left _ List.perm_append_comm
        · simp only [List.modify_succ_cons, List.flatten_cons, List.append_assoc]
          exact List.Perm.append_left _ (iht k (by simpa using hk))
    rw [deal, List.range_succ]
    exact (key _ _ (by rw [deal_length]; exact Nat.mod_lt _ hf)).trans (List.Perm.append_right _ ih)

/-- **C145.** Fold `l` consists of the points whose number leaves the remainder `l`, in their order, with the values of these points; every point is in one fold, and the sizes of folds differ by at most one. -/
theorem C145_folds {α β : Type} (x : List α) (y : List β) (folds seed : ℕ) (hf : 0 < folds) (h : x.length = y.length) :
    ∃ fx fy, splitData x y folds seed = some (fx, fy) ∧ fx.length = folds ∧ fy.length = folds
    ∧ (∀ l, l < folds → fx[l]? = some (((List.range x.length).filter fun i => decide (i % folds = l)).filterMap (x[·]?))
        ∧ fy[l]? = some (((List.range x.length).filter fun i => decide (i % folds = l)).filterMap (y[·]?)))
    ∧ fx.flatten.Perm x ∧ fy.flatten.Perm y
    ∧ ∀ l, l < folds → ∀ a b, fx[l]? = some a → fy[l]? = some b → a.length = b.length ∧ (a.length = x.length / folds ∨ a.length = x.length / folds + 1) := by
  have all : ∀ {γ : Type} (z : List γ), (List.range z.length).filterMap (z[·]?) = z := by
    intro γ z
    have : ∀ (w : List γ), (List.range w.length).filterMap (w[·]?) = w := by
      intro w
      induction w using List.reverseRecOn with
      | nil => rfl
      | append_singleton t a ih =>
        rw [List.length_append, List.length_singleton, List.range_succ, List.filterMap_append]
        congr 1
        · conv_rhs => rw [← ih]
          apply List.filterMap_congr
          intro i hi
          rw [List.getElem?_append_left (List.mem_range.mp hi)]
        · simp
    exact this z
  have len : ∀ {γ : Type} (z : List γ) (l : List ℕ), (∀ i ∈ l, i < z.length) → (l.filterMap (z[·]?)).length = l.length := by
    intro γ z l
    induction l with
    | nil => intro _; rfl
    | cons i t ih =>
      intro hi
      have h0 := hi i (by simp)
      rw [List.filterMap_cons, List.getElem?_eq_getElem h0]
      simp [ih fun j hj => hi j (by simp [hj])]
  have fperm : ∀ {γ : Type} (z : List γ), z.length = x.length → ((deal folds x.length).map fun l => l.filterMap (z[·]?)).flatten.Perm z := by
    intro γ z hz
    have : ((deal folds x.length).map fun l => l.filterMap (z[·]?)).flatten = (deal folds x.length).flatten.filterMap (z[·]?) := by
      rw [List.filterMap_flatten]
    rw [this]
    have h2 := (dealt_perm hf x.length).filterMap (z[·]?)
    rw [← hz] at h2 ⊢
    rwa [all z] at h2
  refine ⟨_, _, by unfold splitData; rw [if_neg (by simpa using h), if_neg (by omega)], by simp [deal_length], by simp [deal_length], ?_, fperm x rfl, fperm y h.symm, ?_⟩
  · intro l hl
    simp [deal_get _ _ _ hl]
  · intro l hl a b ha hb
    rw [List.getElem?_map, deal_get _ _ _ hl] at ha hb
    simp only [Option.map_some, Option.some.injEq] at ha hb
    have hx : ∀ i ∈ (List.range x.length).filter (fun i => decide (i % folds = l)), i < x.length := fun i hi => List.mem_range.mp (List.mem_filter.mp hi).1
    have la := len x _ hx
    have lb := len y _ (fun i hi => h ▸ hx i hi)
    rw [ha] at la
    rw [hb] at lb
    refine ⟨by rw [la, lb], ?_⟩
    rw [la]
    have hc : ((List.range x.length).filter fun i => decide (i % folds = l)).length = Nat.count (· ≡ l [MOD folds]) x.length := by
      rw [Nat.count, ← List.countP_eq_length_filter]
      apply List.countP_congr
      intro i _
      simp [Nat.ModEq, Nat.mod_eq_of_lt hl]
    rw [hc, Nat.count_modEq_card _ hf]
    split_ifs
    · right; rfl
    · left; rfl

example : splitData [1, 2, 3, 4, 5] ["a", "b", "c", "d", "e"] 2 0 = some ([[1, 3, 5], [2, 4]], [["a", "c", "e"], ["b", "d"]]) := by decide

/-- **C145 fails.** The folds do not depend on the seed: the shuffled order is not used. -/
theorem C145_seed_fails {α β : Type} (x : List α) (y : List β) (folds s t : ℕ) : splitData x y folds s = splitData x y folds t := rfl

/-- `assemble_fit_test_groups` (85-105), for one coordinate: training and test points of each fold. -/
def assemble {α : Type} (g : List (List α)) : List (List α) × List (List α) :=
  ((List.range g.length).map fun i => ((List.range g.length).filter fun j => decide (j ≠ i)).flatMap fun j => g.getD j [], (List.range g.length).map fun i => g.getD i [])

/-- **C145.** Each fold is the test once, with the other folds as training; together these are all points. -/
theorem C145_assemble {α : Type} (g : List (List α)) : (assemble g).2 = g ∧ (assemble g).1.length = g.length
    ∧ ∀ i a b, (assemble g).1[i]? = some a → (assemble g).2[i]? = some b → (a ++ b).Perm g.flatten ∧ a = (g.eraseIdx i).flatten := by
  have h2 : (assemble g).2 = g := by
    apply List.ext_getElem?
    intro i
    simp only [assemble, List.getElem?_map]
    rcases lt_or_ge i g.length with h | h
    · rw [List.getElem?_range h, List.getElem?_eq_getElem h]
      simp [List.getD_eq_getElem?_getD, h]
    · rw [List.getElem?_eq_none (by simpa using h), List.getElem?_eq_none h]
      rfl
  refine ⟨h2, by simp [assemble], ?_⟩
  intro i a b ha hb
  rw [h2] at hb
  obtain ⟨hi, hb⟩ := List.getElem?_eq_some_iff.mp hb
  simp only [assemble, List.getElem?_map, List.getElem?_range hi, Option.map_some, Option.some.injEq] at ha
  have key : ∀ (t : List (List α)) (i : ℕ), i < t.length → ((List.range t.length).filter fun j => decide (j ≠ i)).flatMap (fun j => t.getD j []) = (t.eraseIdx i).flatten := by
    intro t
    induction t with
    | nil => intro i hi; simp at hi
    | cons c t ih =>
      intro i hi
      rw [List.length_cons, List.range_succ_eq_map]
      rcases i with _ | i
      · rw [List.filter_cons_of_neg (by simp), List.filter_map, List.flatMap_map]
        rw [List.filter_eq_self.mpr (by intro j _; simp)]
        simp only [List.eraseIdx_cons_zero]
        have : ∀ (t : List (List α)), (List.range t.length).flatMap (fun j => t.getD j []) = t.flatten := by
          intro t
          induction t with
          | nil => rfl
          | cons d t iht =>
            rw [List.length_cons, List.range_succ_eq_map, List.flatMap_cons, List.flatMap_map, List.flatten_cons, ← iht]
            rfl
        exact this t
      · rw [List.filter_cons_of_pos (by simp), List.flatMap_cons, List.filter_map, List.flatMap_map, List.eraseIdx_cons_succ, List.flatten_cons, ← ih i (by simpa using hi)]
        congr 1
        have : (List.range t.length).filter ((fun j => decide (j ≠ i + 1)) ∘ Nat.succ) = (List.range t.length).filter fun j => decide (j ≠ i) := by
          apply List.filter_congr
          intro j _
          simp
        rw [this]
        rfl
  rw [key g i hi] at ha
  refine ⟨?_, ha.symm⟩
  rw [← ha, ← hb]
  have : ∀ (t : List (List α)) (i : ℕ) (h : i < t.length), ((t.eraseIdx i).flatten ++ t[i]).Perm t.flatten := by
    intro t
    induction t with
    | nil => intro i h; simp at h
    | cons c t ih =>
      intro i h
      rcases i with _ | i
      · simp only [List.eraseIdx_cons_zero, List.getElem_cons_zero, List.flatten_cons]
        exact List.perm_append_comm
      · simp only [List.eraseIdx_cons_succ, List.getElem_cons_succ, List.flatten_cons, List.append_assoc]
        exact List.Perm.append_left _ (ih i (by simpa using h))
  exact this g i hi

example : assemble [[1, 3], [2], [4]] = ([[2, 4], [1, 3, 4], [1, 3, 2]], [[1, 3], [2], [4]]) := by decide

/-! ## Criteria -/

/-- `AICc` (108-119). -/
noncomputable def AICc (k n : ℕ) (SSE : ℝ) : ℝ :=
  if (n : ℤ) - k - 1 = 0 then 1e200 else if SSE = 0 then -1e100
  else n * log (SSE / n) + 2 * k + (2 * k * k + 2 * k) / ((n : ℝ) - k - 1) + n * log (2 * π) + n

/-- `BIC` (121-126). -/
noncomputable def BIC (k n : ℕ) (SSE : ℝ) : ℝ := if SSE = 0 then -1e100 else n * log (SSE / n) + k * log n + n * log (2 * π) + n

/-- **C145, partial.** With more points than parameters and one, and an error, the criteria increase with the error and with the number of parameters. Missing: fewer points, see below. -/
theorem C145_criteria_partial (k k' n : ℕ) (S S' : ℝ) (hk : k ≤ k') (hn : k' + 1 < n) (hS : 0 < S) (hSS : S ≤ S') :
    AICc k n S ≤ AICc k' n S' ∧ BIC k n S ≤ BIC k' n S' ∧ (k < k' ∨ S < S' → AICc k n S < AICc k' n S' ∧ BIC k n S < BIC k' n S') := by
  have hn0 : (0 : ℝ) < n := by exact_mod_cast (by omega : 0 < n)
  have hn1 : (1 : ℝ) < n := by exact_mod_cast (by omega : 1 < n)
  have hS' : 0 < S' := lt_of_lt_of_le hS hSS
  have hkr : (k : ℝ) ≤ k' := by exact_mod_cast hk
  have hd' : (0 : ℝ) < (n : ℝ) - k' - 1 := by
    have : ((k' + 1 : ℕ) : ℝ) < n := by exact_mod_cast hn
    push_cast at this; linarith
  have hd : (0 : ℝ) < (n : ℝ) - k - 1 := by linarith
  have hk0 : (0 : ℝ) ≤ k := Nat.cast_nonneg k
  have hlog : log (S / n) ≤ log (S' / n) := Real.log_le_log (by positivity) (by gcongr)
  have hlog' : S < S' → log (S / n) < log (S' / n) := fun h => Real.log_lt_log (by positivity) (by gcongr)
  have hfrac : (2 * k * k + 2 * k) / ((n : ℝ) - k - 1) ≤ (2 * k' * k' + 2 * k') / ((n : ℝ) - k' - 1) := by
    apply div_le_div₀ (by positivity) (by nlinarith) hd' (by linarith)
  have e1 : AICc k n S = n * log (S / n) + 2 * k + (2 * k * k + 2 * k) / ((n : ℝ) - k - 1) + n * log (2 * π) + n := by
    unfold AICc; rw [if_neg (by omega), if_neg hS.ne']
  have e2 : AICc k' n S' = n * log (S' / n) + 2 * k' + (2 * k' * k' + 2 * k') / ((n : ℝ) - k' - 1) + n * log (2 * π) + n := by
    unfold AICc; rw [if_neg (by omega), if_neg hS'.ne']
  have e3 : BIC k n S = n * log (S / n) + k * log n + n * log (2 * π) + n := by unfold BIC; rw [if_neg hS.ne']
  have e4 : BIC k' n S' = n * log (S' / n) + k' * log n + n * log (2 * π) + n := by unfold BIC; rw [if_neg hS'.ne']
  have hln : 0 < log (n : ℝ) := Real.log_pos hn1
  have a1 : n * log (S / n) ≤ n * log (S' / n) := by gcongr
  have a2 : k * log (n : ℝ) ≤ k' * log n := by gcongr
  rw [e1, e2, e3, e4]
  refine ⟨by linarith, by linarith, ?_⟩
  rintro (h | h)
  · have hlt : (k : ℝ) < k' := by exact_mod_cast h
    have a3 : k * log (n : ℝ) < k' * log n := by gcongr
    exact ⟨by linarith, by linarith⟩
  · have a3 : n * log (S / n) < n * log (S' / n) := mul_lt_mul_of_pos_left (hlog' h) hn0
    exact ⟨by linarith, by linarith⟩

/-- **C145.** The values of the criteria: with an error, the logarithm of the likelihood with the penalty of each. -/
theorem C145_criteria_values (k n : ℕ) (S : ℝ) (hS : S ≠ 0) (hn : n ≠ k + 1) :
    AICc k n S - (n * log (S / n) + n * log (2 * π) + n) = 2 * k * (1 + (k + 1) / ((n : ℝ) - k - 1)) ∧ BIC k n S - (n * log (S / n) + n * log (2 * π) + n) = k * log n
    ∧ AICc k (k + 1) S = 1e200 ∧ BIC k n 0 = -1e100 ∧ AICc k n 0 = -1e100 := by
  have h0 : ¬ ((n : ℤ) - k - 1 = 0) := by omega
  refine ⟨?_, ?_, ?_, ?_, ?_⟩
  · unfold AICc; rw [if_neg h0, if_neg hS]; ring
  · unfold BIC; rw [if_neg hS]; ring
  · unfold AICc; rw [if_pos (by push_cast; ring)]
  · unfold BIC; rw [if_pos rfl]
  · unfold AICc; rw [if_neg h0, if_pos rfl]

example : AICc 2 10 1 < AICc 3 10 2 := ((C145_criteria_partial 2 3 10 1 2 (by norm_num) (by norm_num) (by norm_num) (by norm_num)).2.2 (Or.inl (by norm_num))).1

/-- **C145 fails.** With fewer points the correction is negative: nine parameters for five points are preferred to three with the same error, and a perfect fit with one point more than parameters is the worst of all. -/
theorem C145_criteria_fails (S : ℝ) (hS : 0 < S) : AICc 9 5 S < AICc 3 5 S ∧ AICc 4 5 0 = 1e200 ∧ AICc 3 5 0 = -1e100 := by
  refine ⟨?_, ?_, ?_⟩
  · unfold AICc
    rw [if_neg (by norm_num), if_neg hS.ne', if_neg (by norm_num), if_neg hS.ne']
    norm_num
    linarith
  · unfold AICc; rw [if_pos (by norm_num)]
  · unfold AICc; rw [if_neg (by norm_num), if_pos rfl]

/-! ## Functions of transformed variables and statistics -/

/-- `func_fun` of `fit_polynomial` (213-244). -/
noncomputable def wrapped (f prop xinv : ℝ → ℝ) (low high x : ℝ) : ℝ :=
  let a := xinv x
  let a := if a > high then high else a
  let a := if a < low then low else a
  prop (f a)

/-- **C145.** The function that is fitted has at a transformed argument the transformed value of the function, and never asks for values outside the limits. -/
theorem C145_wrapped (f prop xt xinv : ℝ → ℝ) (low high : ℝ) (hlh : low ≤ high) (hinv : ∀ T, low ≤ T → T ≤ high → xinv (xt T) = T) :
    (∀ T, low ≤ T → T ≤ high → wrapped f prop xinv low high (xt T) = prop (f T)) ∧ ∀ x, ∃ T, low ≤ T ∧ T ≤ high ∧ wrapped f prop xinv low high x = prop (f T) := by
  constructor
  · intro T h1 h2
    unfold wrapped
    simp only [hinv T h1 h2]
    rw [if_neg (not_lt.mpr h2), if_neg (not_lt.mpr h1)]
  · intro x
    unfold wrapped
    dsimp only
    by_cases h1 : xinv x > high
    · rw [if_pos h1, if_neg (not_lt.mpr hlh)]; exact ⟨high, hlh, le_refl _, rfl⟩
    · rw [if_neg h1]
      by_cases h2 : xinv x < low
      · rw [if_pos h2]; exact ⟨low, le_refl _, hlh, rfl⟩
      · rw [if_neg h2]; exact ⟨xinv x, not_lt.mp h2, not_lt.mp h1, rfl⟩

example : wrapped (fun T => T + 1) Real.exp Real.exp 1 2 (Real.log 1.5) = Real.exp 2.5 := by
  rw [(C145_wrapped (fun T => T + 1) Real.exp Real.log Real.exp 1 2 (by norm_num) (fun T h _ => Real.exp_log (by linarith))).1 1.5 (by norm_num) (by norm_num)]
  norm_num

/-- Methods of `fit_polynomial`. -/
inductive Method | cheb | chebPoly | chebStable | numpyPoly | numpyStable
deriving DecidableEq

/-- Number of coefficients `fit_polynomial` returns (246-279). -/
def coefficients (m : Method) (n : ℕ) : ℕ := if n = 1 then 1 else match m with | .cheb | .chebPoly | .chebStable => n | .numpyPoly | .numpyStable => n + 1

/-- **C145.** One coefficient is returned if one is asked for; Chebyshev fits return as many as asked for, whatever the form of the answer, those of numpy one more in both forms. -/
theorem C145_coefficients (m : Method) (n : ℕ) : coefficients m 1 = 1 ∧ (n ≠ 1 → coefficients .cheb n = n ∧ coefficients .chebPoly n = n ∧ coefficients .chebStable n = n ∧
    coefficients .numpyPoly n = n + 1 ∧ coefficients .numpyStable n = n + 1) := by
  refine ⟨by simp [coefficients], fun hn => ?_⟩
  simp [coefficients, hn]

example : coefficients .cheb 5 = 5 ∧ coefficients .numpyStable 5 = 6 := by decide

/-- **C145 fails.** "The number of coefficients": fits of numpy have one more, so up to as many points as given are fitted with one coefficient more than points. -/
theorem C145_coefficients_fails (n : ℕ) (hn : n ≠ 1) : coefficients .chebPoly n = n ∧ coefficients .numpyPoly n = n + 1 ∧ coefficients .numpyStable n = n + 1 := by
  simp [coefficients, hn]

/-- Where a stable or Chebyshev form of `fit_polynomial` is made (253, 272): between the ends `a`, `b`. Where `poly_fit_statistics` evaluates it (356-371). -/
noncomputable def made (c : List ℝ) (a b x : ℝ) : ℝ := Fits.chebval c ((Fits.offsetScale a b).1 + (Fits.offsetScale a b).2 * x)
@[inherit_doc made] noncomputable def evaluated (c : List ℝ) (low high x : ℝ) : ℝ := Fits.chebval c ((Fits.offsetScale (min low high) (max low high)).1 + (Fits.offsetScale (min low high) (max low high)).2 * x)

/-- **C145, partial.** If the transformed lower limit is below the upper one, statistics evaluate the form that was made. Missing: transforms that decrease. -/
theorem C145_statistics_partial (c : List ℝ) (low high x : ℝ) (h : low ≤ high) : evaluated c low high x = made c low high x := by
  unfold evaluated made
  rw [min_eq_left h, max_eq_right h]

/-- **C145 fails.** With a transform that decreases, such as `log(1 - T/Tc)`, the form is evaluated at the mirrored point, and with data that do not reach the limits at another point. -/
theorem C145_statistics_fails : (∀ (c : List ℝ) (low high x : ℝ), high < low → evaluated c low high x = made c low high (low + high - x))
    ∧ made [0, 1] 1 0 (1/4) ≠ evaluated [0, 1] 1 0 (1/4)
    ∧ made [1.5, 0.5] 1 2 2 = 2 ∧ evaluated [1.5, 0.5] 0 3 2 ≠ 2 := by
  refine ⟨?_, ?_, ?_, ?_⟩
  · intro c low high x h
    unfold evaluated made
    rw [min_eq_right h.le, max_eq_left h.le]
    congr 1
    have h1 : low - high ≠ 0 := by linarith
    have h2 : high - low ≠ 0 := by linarith
    unfold Fits.offsetScale
    field_simp
    ring
  · unfold evaluated made Fits.offsetScale
    rw [min_eq_right (by norm_num), max_eq_left (by norm_num)]
    norm_num [Fits.chebval, Fits.chFrom, Fits.chT]
  · unfold made Fits.offsetScale
    norm_num [Fits.chebval, Fits.chFrom, Fits.chT]
  · unfold evaluated Fits.offsetScale
    rw [min_eq_left (by norm_num), max_eq_right (by norm_num)]
    norm_num [Fits.chebval, Fits.chFrom, Fits.chT]

example : evaluated [0, 1] 0 1 (1/4) = made [0, 1] 0 1 (1/4) := C145_statistics_partial _ _ _ _ (by norm_num)

/-- Relative deviations (284-287, 381). -/
noncomputable def dev (actual c : ℝ) : ℝ := if actual ≠ 0 then |(c - actual) / actual| else 0

/-- The first two values of `data_fit_statistics` (289-290): mean and standard deviation. -/
noncomputable def mae {n : ℕ} (actual c : Fin n → ℝ) : ℝ := (∑ i, dev (actual i) (c i)) / n
@[inherit_doc mae] noncomputable def stdev {n : ℕ} (actual c : Fin n → ℝ) : ℝ := √ ((∑ i, (dev (actual i) (c i) - mae actual c) ^ 2) / n)

/-- **C145.** The mean deviation is zero exactly if all points with values other than zero are met; mean and standard deviation do not exceed the larger deviation of the two extreme ratios from one. -/
theorem C145_deviations {n : ℕ} (hn : 0 < n) (actual c : Fin n → ℝ) (lo hi : ℝ) (h0 : ∀ i, actual i ≠ 0) (hr : ∀ i, lo ≤ c i / actual i ∧ c i / actual i ≤ hi) :
    0 ≤ mae actual c ∧ (mae actual c = 0 ↔ ∀ i, c i = actual i) ∧ mae actual c ≤ max |1 - lo| |1 - hi| ∧ stdev actual c ≤ max |1 - lo| |1 - hi| := by
  have hnr : (0 : ℝ) < n := by exact_mod_cast hn
  have hd : ∀ i, dev (actual i) (c i) = |c i / actual i - 1| := by
    intro i
    unfold dev
    rw [if_pos (h0 i), sub_div, div_self (h0 i)]
  have hpos : ∀ i, 0 ≤ dev (actual i) (c i) := fun i => by rw [hd]; exact abs_nonneg _
  have hle : ∀ i, dev (actual i) (c i) ≤ max |1 - lo| |1 - hi| := by
    intro i
    rw [hd]
    obtain ⟨h1, h2⟩ := hr i
    rcases le_total 1 (c i / actual i) with h | h
    · refine le_max_of_le_right ?_
      rw [abs_of_nonneg (by linarith), abs_of_nonpos (by linarith)]
      linarith
    · refine le_max_of_le_left ?_
      rw [abs_of_nonpos (by linarith), abs_of_nonneg (by linarith)]
      linarith
  have hm : mae actual c * n = ∑ i, dev (actual i) (c i) := by unfold mae; field_simp
  refine ⟨?_, ?_, ?_, ?_⟩
  · unfold mae
    exact div_nonneg (Finset.sum_nonneg fun i _ => hpos i) hnr.le
  · unfold mae
    rw [div_eq_zero_iff, or_iff_left hnr.ne', Finset.sum_eq_zero_iff_of_nonneg (fun i _ => hpos i)]
    constructor
    · intro h i
      have := h i (Finset.mem_univ i)
      rw [hd, abs_eq_zero, sub_eq_zero, div_eq_one_iff_eq (h0 i)] at this
      exact this
    · intro h i _
      rw [hd, h i, div_self (h0 i)]; simp
  · unfold mae
    rw [div_le_iff₀ hnr]
    calc _ ≤ ∑ _i : Fin n, max |1 - lo| |1 - hi| := Finset.sum_le_sum fun i _ => hle i
      _ = _ := by simp [mul_comm]
  · unfold stdev
    have hE : 0 ≤ max |1 - lo| |1 - hi| := le_max_of_le_left (abs_nonneg _)
    rw [Real.sqrt_le_left hE, div_le_iff₀ hnr]
    have e : ∑ i, (dev (actual i) (c i) - mae actual c) ^ 2 = ∑ i, dev (actual i) (c i) ^ 2 - n * mae actual c ^ 2 := by
      have : ∀ i, (dev (actual i) (c i) - mae actual c) ^ 2 = dev (actual i) (c i) ^ 2 - 2 * mae actual c * dev (actual i) (c i) + mae actual c ^ 2 := fun i => by ring
      simp only [this]
      rw [Finset.sum_add_distrib, Finset.sum_sub_distrib, ← Finset.mul_sum, ← hm]
      simp
      ring
    rw [e]
    have : ∑ i, dev (actual i) (c i) ^ 2 ≤ ∑ _i : Fin n, (max |1 - lo| |1 - hi|) ^ 2 := Finset.sum_le_sum fun i _ => by
      have := hpos i; have := hle i; gcongr
    rw [Finset.sum_const, Finset.card_univ, Fintype.card_fin, nsmul_eq_mul] at this
    nlinarith [sq_nonneg (mae actual c)]

/-- **C145 fails.** Points with the value zero count as met, whatever is calculated. -/
theorem C145_deviations_fails : mae (n := 2) (fun i => if i = 0 then 0 else 1) (fun i => if i = 0 then 5 else 1) = 0 := by
  simp [mae, dev]

/-- **C145.** The deviations: mean and standard deviation of the relative errors of two points. -/
theorem C145_deviation_values (a b x y : ℝ) (ha : 0 < a) (hb : 0 < b) : mae (n := 2) (fun i => if i = 0 then a else b) (fun i => if i = 0 then x else y) = (|x - a| / a + |y - b| / b) / 2
    ∧ stdev (n := 2) (fun i => if i = 0 then a else b) (fun i => if i = 0 then x else y) = |(|x - a| / a - |y - b| / b)| / 2 := by
  have d1 : dev a x = |x - a| / a := by unfold dev; rw [if_pos ha.ne', abs_div, abs_of_pos ha]
  have d2 : dev b y = |y - b| / b := by unfold dev; rw [if_pos hb.ne', abs_div, abs_of_pos hb]
  have hm : mae (n := 2) (fun i => if i = 0 then a else b) (fun i => if i = 0 then x else y) = (|x - a| / a + |y - b| / b) / 2 := by
    unfold mae
    simp [Fin.sum_univ_two, d1, d2]
  refine ⟨hm, ?_⟩
  unfold stdev
  rw [hm]
  simp only [Fin.sum_univ_two, if_true, Fin.isValue, one_ne_zero, if_false, d1, d2]
  generalize |x - a| / a = p
  generalize |y - b| / b = q
  rw [show ((p - (p + q) / 2) ^ 2 + (q - (p + q) / 2) ^ 2) / ((2 : ℕ) : ℝ) = ((p - q) / 2) ^ 2 by push_cast; ring, Real.sqrt_sq_eq_abs, abs_div, abs_of_pos (by norm_num : (0:ℝ) < 2)]

example : 0 ≤ mae (n := 1) (fun _ => 2) (fun _ => 3) := (C145_deviations (by norm_num) _ _ 1 2 (fun _ => by norm_num) (fun _ => by norm_num)).1

/-! ## Selection -/

/-- Statistics of a fit: mean and standard deviation, extreme ratios. -/
structure Stat where
  (avg std lo hi : ℚ)
deriving DecidableEq

/-- The larger deviation of the ratios (403). -/
def Stat.err (s : Stat) : ℚ := max |1 - s.lo| |1 - s.hi|

/-- **C145.** The error by which fits are compared is the largest deviation of a ratio from one: no ratio between the extreme ones deviates more, and one of the extremes deviates as much. -/
theorem C145_worst (s : Stat) : (∀ x, s.lo ≤ x → x ≤ s.hi → |1 - x| ≤ s.err) ∧ (s.err = |1 - s.lo| ∨ s.err = |1 - s.hi|) := by
  refine ⟨fun x h1 h2 => ?_, ?_⟩
  · unfold Stat.err
    rcases le_total x 1 with h | h
    · refine le_max_of_le_left ?_
      rw [abs_of_nonneg (by linarith), abs_of_nonneg (by linarith)]
      linarith
    · refine le_max_of_le_right ?_
      rw [abs_of_nonpos (by linarith), abs_of_nonpos (by linarith)]
      linarith
  · exact max_choice _ _

example : (Stat.mk 0 0 (9/10) (13/10)).err = 3/10 := by norm_num [Stat.err, abs_of_neg, abs_of_pos, max_def]

/-- Lowest value so far with its index (394-406). -/
abbrev Low := ℚ × Option ℕ

/-- One comparison (397-406). -/
def better (v : ℚ) (i : ℕ) (b : Low) : Low := if v < b.1 then (v, some i) else b

/-- The choice at the end (411-418). -/
def vote (a s e : Option ℕ) : Option ℕ := if a = s ∧ s = e then a else if a = s then a else if e = s then e else a

/-- The loop of `select_index_from_stats` (396-418); `crit` is `selection_criteria`. -/
def selectFrom (crit : Option (Stat → Bool)) : List Stat → ℕ → Low → Low → Low → Option ℕ
  | [], _, a, s, e => vote a.2 s.2 e.2
  | x :: t, i, a, s, e =>
    if (match crit with | some c => c x | none => false) = true then some i
    else selectFrom crit t (i + 1) (better x.avg i a) (better x.std i s) (better x.err i e)

/-- `select_index_from_stats` (393-418). -/
def select (stats : List Stat) (crit : Option (Stat → Bool)) : Option ℕ := selectFrom crit stats 0 (10 ^ 100, none) (10 ^ 100, none) (10 ^ 100, none)

/-- The first of the fits with the lowest value, if any value is below `1e100`. -/
def First (f : Stat → ℚ) (l : List Stat) (r : Option ℕ) : Prop :=
  match r with
  | none => ∀ x ∈ l, 10 ^ 100 ≤ f x
  | some i => ∃ x, l[i]? = some x ∧ f x < 10 ^ 100 ∧ (∀ (j : ℕ) y, l[j]? = some y → f x ≤ f y ∧ (j < i → f x < f y))

/-- What is known of the lowest value of the fits `l`. -/
def Inv (f : Stat → ℚ) (l : List Stat) (b : Low) : Prop := First f l b.2 ∧ (b.2 = none → b.1 = 10 ^ 100) ∧ ∀ i, b.2 = some i → ∃ x, l[i]? = some x ∧ f x = b.1

theorem inv_step (f : Stat → ℚ) (l : List Stat) (x : Stat) (b : Low) (h : Inv f l b) : Inv f (l ++ [x]) (better (f x) l.length b) := by
  obtain ⟨bv, bi⟩ := b
  obtain ⟨h1, h2, h3⟩ := h
  unfold better
  have get : ∀ (j : ℕ) y, (l ++ [x])[j]? = some y → (l[j]? = some y) ∨ (j = l.length ∧ y = x) := by
    intro j y hy
    rcases lt_trichotomy j l.length with hj | hj | hj
    · left; rwa [List.getElem?_append_left hj] at hy
    · right
      subst hj
      rw [List.getElem?_append_right (le_refl _)] at hy
      simp at hy
      exact ⟨rfl, hy.symm⟩
    · rw [List.getElem?_eq_none (by simp; omega)] at hy; cases hy
  have lts : ∀ (j : ℕ) y, l[j]? = some y → j < l.length := fun j y hy => (List.getElem?_eq_some_iff.mp hy).1
  rcases bi with _ | i
  · have hb : bv = 10 ^ 100 := h2 rfl
    subst hb
    by_cases hx : f x < 10 ^ 100
    · rw [if_pos hx]
      refine ⟨⟨x, by simp, hx, ?_⟩, by simp, fun i hi => ?_⟩
      · intro j y hy
        rcases get j y hy with hl | ⟨rfl, rfl⟩
        · have := h1 y (List.mem_of_getElem? hl)
          exact ⟨by linarith, fun _ => by linarith⟩
        · exact ⟨le_refl _, fun h => absurd h (lt_irrefl _)⟩
      · cases hi; exact ⟨x, by simp, rfl⟩
    · rw [if_neg hx]
      refine ⟨?_, fun _ => rfl, fun i hi => by cases hi⟩
      intro y hy
      rcases List.mem_append.mp hy with hy | hy
      · exact h1 y hy
      · rw [List.mem_singleton.mp hy]; exact not_lt.mp hx
  · obtain ⟨w, hw, hlt, hmin⟩ := h1
    obtain ⟨w', hw', hbv⟩ := h3 i rfl
    have : w' = w := by rw [hw] at hw'; cases hw'; rfl
    subst this
    by_cases hx : f x < bv
    · rw [if_pos hx]
      refine ⟨⟨x, by simp, by linarith, ?_⟩, by simp, fun i hi => ?_⟩
      · intro j y hy
        rcases get j y hy with hl | ⟨rfl, rfl⟩
        · have := (hmin j y hl).1
          exact ⟨by linarith, fun _ => by linarith⟩
        · exact ⟨le_refl _, fun h => absurd h (lt_irrefl _)⟩
      · cases hi; exact ⟨x, by simp, rfl⟩
    · rw [if_neg hx]
      have hil := lts i w' hw
      refine ⟨⟨w', by rw [List.getElem?_append_left hil]; exact hw, hlt, ?_⟩, by simp, fun k hk => ?_⟩
      · intro j y hy
        rcases get j y hy with hl | ⟨rfl, rfl⟩
        · exact hmin j y hl
        · exact ⟨by linarith [not_lt.mp hx], fun h => by omega⟩
      · cases hk; exact ⟨w', by rw [List.getElem?_append_left hil]; exact hw, hbv⟩

theorem select_inv (t l : List Stat) (a s e : Low) (ha : Inv Stat.avg l a) (hs : Inv Stat.std l s) (he : Inv Stat.err l e) :
    ∃ a' s' e', First Stat.avg (l ++ t) a' ∧ First Stat.std (l ++ t) s' ∧ First Stat.err (l ++ t) e' ∧ selectFrom none t l.length a s e = vote a' s' e' := by
  induction t generalizing l a s e with
  | nil => exact ⟨a.2, s.2, e.2, by simpa using ha.1, by simpa using hs.1, by simpa using he.1, rfl⟩
  | cons x t ih =>
    obtain ⟨a', s', e', h1, h2, h3, h4⟩ := ih (l ++ [x]) _ _ _ (inv_step _ l x a ha) (inv_step _ l x s hs) (inv_step _ l x e he)
    rw [List.append_assoc] at h1 h2 h3
    refine ⟨a', s', e', h1, h2, h3, ?_⟩
    rw [selectFrom, if_neg (by simp)]
    rw [List.length_append, List.length_singleton] at h4
    exact h4

/-- **C145.** Without a criterion the fit with the lowest mean deviation is chosen, unless another fit has both the lowest standard deviation and the ratios closest to one. -/
theorem C145_select (stats : List Stat) : ∃ a s e, First Stat.avg stats a ∧ First Stat.std stats s ∧ First Stat.err stats e ∧ select stats none = if e = s then e else a := by
  have h0 : ∀ f : Stat → ℚ, Inv f [] (10 ^ 100, none) := by
    intro f
    refine ⟨?_, fun _ => rfl, fun i hi => by cases hi⟩
    intro x hx; simp at hx
  obtain ⟨a, s, e, h1, h2, h3, h4⟩ := select_inv stats [] _ _ _ (h0 _) (h0 _) (h0 _)
  refine ⟨a, s, e, by simpa using h1, by simpa using h2, by simpa using h3, ?_⟩
  have : select stats none = vote a s e := h4
  rw [this]
  clear this h1 h2 h3 h4 h0
  unfold vote
  split_ifs with c1 c2 c3 c4 <;> simp_all

/-- **C145.** With a criterion the first fit that meets it is chosen. -/
theorem C145_select_criterion (stats : List Stat) (c : Stat → Bool) (i : ℕ) (x : Stat) (hi : stats[i]? = some x) (hx : c x = true) (hj : ∀ (j : ℕ) y, j < i → stats[j]? = some y → c y = false) :
    select stats (some c) = some i := by
  unfold select
  have key : ∀ (t : List Stat) (i k : ℕ) (a s e : Low), t[i]? = some x → (∀ (j : ℕ) y, j < i → t[j]? = some y → c y = false) → selectFrom (some c) t k a s e = some (k + i) := by
    intro t
    induction t with
    | nil => intro i k a s e h; simp at h
    | cons y t ih =>
      intro i k a s e h1 h2
      rw [selectFrom]
      rcases i with _ | i
      · simp at h1; subst h1
        simp [hx]
      · rw [if_neg (by simp [h2 0 y (by omega) (by simp)])]
        rw [ih i (k + 1) _ _ _ (by simpa using h1) (fun j z hj hz => h2 (j + 1) z (by omega) (by simpa using hz))]
        congr 1; omega
  rw [key stats i 0 _ _ _ hi hj]
  simp

/-- Three fits. -/
def three : List Stat := [⟨3, 3, 1, 5⟩, ⟨1, 2, 1, 4⟩, ⟨2, 1, 1, 2⟩]

example : select three none = some 2 ∧ select three (some fun s => decide (s.avg ≤ 2)) = some 1 := by decide +kernel

/-- `fit_many_cheb_poly` (438-448): the fits that worked; `fit` is `none` when it raises. -/
def fitMany {C : Type} (fit : ℕ → Option (C × Stat)) (ns : List ℕ) : List (ℕ × C × Stat) := ns.filterMap fun n => (fit n).map fun r => (n, r)

/-- `fit_cheb_poly_auto` (455-463); `none` is an exception. `data` is the number of points given. -/
def fitAuto {C : Type} (fit : ℕ → Option (C × Stat)) (start maxN : ℕ) (crit : Option (Stat → Bool)) (data : Option ℕ) : Option (ℕ × C × Stat) :=
  match data with
  | none => none
  | some pts =>
    let m := if maxN > pts then pts else maxN
    let worked := fitMany fit ((List.range (m + 1)).filter fun n => decide (start ≤ n))
    match select (worked.map fun w => w.2.2) crit with
    | none => none
    | some i => worked[i]?

/-- **C145.** The result is one of the fits asked for, with its number of coefficients, its coefficients and its statistics, and not with more coefficients than points. -/
theorem C145_auto {C : Type} (fit : ℕ → Option (C × Stat)) (start maxN pts n : ℕ) (crit : Option (Stat → Bool)) (c : C) (s : Stat) (h : fitAuto fit start maxN crit (some pts) = some (n, c, s)) :
    fit n = some (c, s) ∧ start ≤ n ∧ n ≤ maxN ∧ n ≤ pts := by
  unfold fitAuto at h
  dsimp only at h
  rcases hs : select ((fitMany fit ((List.range ((if maxN > pts then pts else maxN) + 1)).filter fun n => decide (start ≤ n))).map fun w => w.2.2) crit with _ | i
  · rw [hs] at h; cases h
  · rw [hs] at h
    have hm := List.mem_of_getElem? h
    unfold fitMany at hm
    obtain ⟨k, hk, hf⟩ := List.mem_filterMap.mp hm
    rcases hfk : fit k with _ | r
    · rw [hfk] at hf; cases hf
    · rw [hfk] at hf
      simp only [Option.map_some, Option.some.injEq, Prod.mk.injEq] at hf
      obtain ⟨rfl, rfl⟩ := hf
      obtain ⟨h1, h2⟩ := List.mem_filter.mp hk
      simp only [List.mem_range, decide_eq_true_eq] at h1 h2
      refine ⟨hfk, h2, ?_, ?_⟩ <;> split_ifs at h1 <;> omega

/-- **C145 fails.** Without data, the default, nothing can be fitted; nor if the first number of coefficients exceeds the number of points. -/
theorem C145_auto_fails {C : Type} (fit : ℕ → Option (C × Stat)) (start maxN pts : ℕ) (crit : Option (Stat → Bool)) (h : pts < start) :
    fitAuto fit start maxN crit none = none ∧ fitAuto fit start maxN crit (some pts) = none := by
  refine ⟨rfl, ?_⟩
  unfold fitAuto
  have : (List.range ((if maxN > pts then pts else maxN) + 1)).filter (fun n => decide (start ≤ n)) = [] := by
    rw [List.filter_eq_nil_iff]
    intro n hn
    simp only [List.mem_range] at hn
    simp only [decide_eq_true_eq]
    split_ifs at hn <;> omega
  dsimp only
  rw [this]
  simp [fitMany, select, selectFrom, vote]

example : fitAuto (fun n => if n = 4 then none else some (n, (⟨1 / n, 1 / n, 1, 1 + 1 / n⟩ : Stat))) 3 9 none (some 5) = some (5, 5, ⟨1 / 5, 1 / 5, 1, 1 + 1 / 5⟩) := by
  decide +kernel

/-! ## Consistent attraction functions -/

/-- `Twu91_check_params` (493-506). -/
def twuCheck (c0 c1 c2 : ℝ) : Prop :=
  let δ := c2 * (c1 - 1)
  let γ := c1 * c2
  let X := -3 * (γ + δ - 1)
  let Y := γ * γ + 3 * γ * δ - 3 * γ + 3 * δ * δ - 6 * δ + 2
  let Z := -δ * (δ * δ - 3 * δ + 2)
  ¬ (-δ < 0) ∧ ¬ (c0 * γ < 0) ∧ (γ ≤ 1 - δ ∨ (1 - 2 * δ + 2 * √ (δ * (δ - 1)) - γ ≥ 0 ∧ 4 * Y ^ 3 + 4 * Z * X ^ 3 + 27 * Z * Z - 18 * X * Y * Z - X * X * Y * Y ≥ 0))

/-- The function and the derivatives `alpha_Twu91_objfc` computes (525-549). -/
noncomputable def twu0 (c0 c1 c2 T : ℝ) : ℝ := T ^ (c2 * (c1 - 1)) * exp (-c0 * (T ^ (c1 * c2) - 1))
@[inherit_doc twu0] noncomputable def twu1 (c0 c1 c2 T : ℝ) : ℝ :=
  let x6 := c1 * (c0 * T ^ (c1 * c2))
  let x7 := c2 * twu0 c0 c1 c2 T
  x7 * ((c1 - 1) - x6) * (1 / T)
@[inherit_doc twu0] noncomputable def twu2 (c0 c1 c2 T : ℝ) : ℝ :=
  let x0 := c1 - 1
  let x1 := c2 * x0
  let x2 := c1 * c2
  let x5 := c0 * T ^ x2
  let x6 := c1 * x5
  let x7 := c2 * twu0 c0 c1 c2 T
  let x8 := x1 - 1
  let x9 := x6 * (x2 * x5 - x2 + 1)
  x7 * (x0 * x8 - 2 * x1 * x6 + x9) * ((1 / T) * (1 / T))
@[inherit_doc twu0] noncomputable def twu3 (c0 c1 c2 T : ℝ) : ℝ :=
  let x0 := c1 - 1
  let x1 := c2 * x0
  let x2 := c1 * c2
  let x5 := c0 * T ^ x2
  let x6 := c1 * x5
  let x7 := c2 * twu0 c0 c1 c2 T
  let x8 := x1 - 1
  let x9 := x6 * (x2 * x5 - x2 + 1)
  let x10 := 3 * x1
  let x11 := c2 * c2
  let x12 := 3 * x2
  let x13 := c1 * c1 * x11
  let d3 := -x7 * (-x0 * (x0 * x0 * x11 - x10 + 2) + x10 * x6 * x8 - x10 * x9 + x6 * (T ^ (2 * x2) * c0 * c0 * x13 + x12 * x5 - x12 - 3 * x13 * x5 + x13 + 2)) * ((1 / T) * ((1 / T) * (1 / T)))
  d3

/-- `alpha_Twu91_objf` (515): the function fitted without constraints. -/
noncomputable def twuPlain (c0 c1 c2 T : ℝ) : ℝ := T ^ (c2 * (c1 - 1)) * exp (c0 * (1 - T ^ (c1 * c2)))

theorem twu_forms (c0 c1 c2 T : ℝ) (hT : 0 < T) (δ γ u : ℝ) (hδ : δ = c2 * (c1 - 1)) (hγ : γ = c1 * c2) (hu : u = c0 * γ * T ^ γ) :
    twu1 c0 c1 c2 T = twu0 c0 c1 c2 T * (δ - u) / T
    ∧ twu2 c0 c1 c2 T = twu0 c0 c1 c2 T * (u ^ 2 + (1 - 2 * δ - γ) * u + δ * (δ - 1)) / T ^ 2
    ∧ twu3 c0 c1 c2 T = -(twu0 c0 c1 c2 T * (u ^ 3 + -3 * (γ + δ - 1) * u ^ 2 + (γ * γ + 3 * γ * δ - 3 * γ + 3 * δ * δ - 6 * δ + 2) * u + -δ * (δ * δ - 3 * δ + 2)) / T ^ 3) := by
  subst hδ hγ hu
  have h2 : T ^ (2 * (c1 * c2)) = T ^ (c1 * c2) * T ^ (c1 * c2) := by rw [two_mul, Real.rpow_add hT]
  unfold twu1 twu2 twu3
  dsimp only
  rw [h2]
  generalize T ^ (c1 * c2) = w
  generalize twu0 c0 c1 c2 T = f
  refine ⟨by field_simp; try ring, by field_simp; try ring, by field_simp; try ring⟩

theorem twu_base (c0 c1 c2 T : ℝ) (hT : 0 < T) : HasDerivAt (twu0 c0 c1 c2) (twu0 c0 c1 c2 T * (c2 * (c1 - 1) - c0 * (c1 * c2) * T ^ (c1 * c2)) / T) T := by
  have hp : ∀ p : ℝ, HasDerivAt (fun T : ℝ => T ^ p) (p * T ^ p / T) T := by
    intro p
    refine (Real.hasDerivAt_rpow_const (Or.inl hT.ne')).congr_deriv ?_
    rw [Real.rpow_sub_one hT.ne']
    ring
  have h1 := (hp (c2 * (c1 - 1))).fun_mul ((((hp (c1 * c2)).fun_sub (hasDerivAt_const T (1 : ℝ))).const_mul (-c0)).exp)
  refine h1.congr_deriv ?_
  unfold twu0
  field_simp
  ring

theorem twu_step (c0 c1 c2 T : ℝ) (hT : 0 < T) (q : ℝ → ℝ) (q' : ℝ) (k : ℕ) (hq : HasDerivAt q q' (c0 * (c1 * c2) * T ^ (c1 * c2))) :
    HasDerivAt (fun T => twu0 c0 c1 c2 T * q (c0 * (c1 * c2) * T ^ (c1 * c2)) / T ^ k)
      (twu0 c0 c1 c2 T * ((c2 * (c1 - 1) - c0 * (c1 * c2) * T ^ (c1 * c2)) * q (c0 * (c1 * c2) * T ^ (c1 * c2)) + q' * (c1 * c2) * (c0 * (c1 * c2) * T ^ (c1 * c2)) - k * q (c0 * (c1 * c2) * T ^ (c1 * c2))) / T ^ (k + 1)) T := by
  have hu : HasDerivAt (fun T : ℝ => c0 * (c1 * c2) * T ^ (c1 * c2)) (c0 * (c1 * c2) * ((c1 * c2) * T ^ (c1 * c2) / T)) T := by
    have : HasDerivAt (fun T : ℝ => T ^ (c1 * c2)) ((c1 * c2) * T ^ (c1 * c2) / T) T := by
      refine (Real.hasDerivAt_rpow_const (Or.inl hT.ne')).congr_deriv ?_
      rw [Real.rpow_sub_one hT.ne']
      ring
    exact this.const_mul _
  have hk : HasDerivAt (fun T : ℝ => T ^ k) (k * T ^ k / T) T := by
    refine (hasDerivAt_pow k T).congr_deriv ?_
    rcases k with _ | k
    · simp
    · rw [Nat.add_sub_cancel, pow_succ]
      field_simp
  have h := ((twu_base c0 c1 c2 T hT).fun_mul (hq.comp T hu)).fun_div hk (pow_ne_zero k hT.ne')
  refine h.congr_deriv ?_
  simp only [Function.comp]
  rw [pow_succ T k]
  have hTk : T ^ k ≠ 0 := pow_ne_zero k hT.ne'
  have e : c0 * (c1 * c2) * (c1 * c2 * T ^ (c1 * c2) / T) = (c1 * c2) * (c0 * (c1 * c2) * T ^ (c1 * c2)) / T := by ring
  rw [e]
  generalize c0 * (c1 * c2) * T ^ (c1 * c2) = u
  generalize q u = v
  clear h hk hu
  revert hTk
  generalize T ^ k = w
  intro hTk
  generalize twu0 c0 c1 c2 T = f
  field_simp

/-- **C145.** The objective with constraints fits the same function as the one without, and its other values are the first three derivatives. -/
theorem C145_twu_derivatives (c0 c1 c2 T : ℝ) (hT : 0 < T) : twu0 c0 c1 c2 T = twuPlain c0 c1 c2 T ∧ HasDerivAt (twu0 c0 c1 c2) (twu1 c0 c1 c2 T) T ∧ HasDerivAt (twu1 c0 c1 c2) (twu2 c0 c1 c2 T) T
    ∧ HasDerivAt (twu2 c0 c1 c2) (twu3 c0 c1 c2 T) T := by
  obtain ⟨f1, f2, f3⟩ := twu_forms c0 c1 c2 T hT _ _ _ rfl rfl rfl
  have near : ∀ᶠ t in nhds T, 0 < t := lt_mem_nhds hT
  refine ⟨?_, ?_, ?_, ?_⟩
  · unfold twu0 twuPlain
    congr 2
    ring
  · rw [f1]; exact twu_base c0 c1 c2 T hT
  · have hq : HasDerivAt (fun u : ℝ => c2 * (c1 - 1) - u) (-1) (c0 * (c1 * c2) * T ^ (c1 * c2)) := by
      exact ((hasDerivAt_const _ (c2 * (c1 - 1))).fun_sub (hasDerivAt_id _)).congr_deriv (by simp)
    refine ((twu_step c0 c1 c2 T hT _ _ 1 hq).congr_of_eventuallyEq ?_).congr_deriv ?_
    · filter_upwards [near] with t ht
      rw [(twu_forms c0 c1 c2 t ht _ _ _ rfl rfl rfl).1, pow_one]
    · rw [f2]
      congr 2
      push_cast
      ring
  · have hq : HasDerivAt (fun u : ℝ => u ^ 2 + (1 - 2 * (c2 * (c1 - 1)) - c1 * c2) * u + c2 * (c1 - 1) * (c2 * (c1 - 1) - 1)) (2 * (c0 * (c1 * c2) * T ^ (c1 * c2)) + (1 - 2 * (c2 * (c1 - 1)) - c1 * c2))
        (c0 * (c1 * c2) * T ^ (c1 * c2)) := by
      refine (((hasDerivAt_pow 2 _).fun_add ((hasDerivAt_id _).const_mul _)).fun_add (hasDerivAt_const _ _)).congr_deriv ?_
      simp
    refine ((twu_step c0 c1 c2 T hT _ _ 2 hq).congr_of_eventuallyEq ?_).congr_deriv ?_
    · filter_upwards [near] with t ht
      rw [(twu_forms c0 c1 c2 t ht _ _ _ rfl rfl rfl).2.1]
    · rw [f3, ← neg_div]
      congr 1
      push_cast
      ring

/-- The polynomial in the third derivative. -/
def cubic (X Y Z u : ℝ) : ℝ := u ^ 3 + X * u ^ 2 + Y * u + Z

/-- Minus its discriminant. -/
def disc (X Y Z : ℝ) : ℝ := 4 * Y ^ 3 + 4 * Z * X ^ 3 + 27 * Z * Z - 18 * X * Y * Z - X * X * Y * Y

theorem disc_eq (X Y Z : ℝ) : 27 * disc X Y Z = (2 * X ^ 3 - 9 * X * Y + 27 * Z) ^ 2 - 4 * (X ^ 2 - 3 * Y) ^ 3 := by unfold disc; ring

/-- The lower critical value of the polynomial. -/
theorem cubic_min (X Y Z s : ℝ) (hs : s ^ 2 = X ^ 2 - 3 * Y) : 27 * cubic X Y Z ((-X + s) / 3) = 2 * X ^ 3 - 9 * X * Y + 27 * Z - 2 * s ^ 3 := by
  have hY : Y = (X ^ 2 - s ^ 2) / 3 := by linarith
  subst hY
  unfold cubic
  ring

theorem cubic_nonneg (X Y Z u : ℝ) (hZ : 0 ≤ Z) (hd : 0 ≤ disc X Y Z) (h0 : Z = 0 → 0 ≤ X ∧ 0 ≤ Y) (hu : 0 ≤ u) : 0 ≤ cubic X Y Z u := by
  have hall : 0 ≤ X → 0 ≤ Y → 0 ≤ cubic X Y Z u := by
    intro hX hY
    unfold cubic
    positivity
  rcases le_or_gt (X ^ 2 - 3 * Y) 0 with hD | hD
  · have hY : 0 ≤ Y := by nlinarith [sq_nonneg X]
    have h2 : 0 ≤ u ^ 2 + X * u + Y := by nlinarith [sq_nonneg (2 * u + X)]
    have : cubic X Y Z u = u * (u ^ 2 + X * u + Y) + Z := by unfold cubic; ring
    rw [this]
    positivity
  · obtain ⟨s, hs0, hs⟩ : ∃ s, 0 < s ∧ s ^ 2 = X ^ 2 - 3 * Y := ⟨√ (X ^ 2 - 3 * Y), Real.sqrt_pos.mpr hD, Real.sq_sqrt hD.le⟩
    have hY : Y = (X ^ 2 - s ^ 2) / 3 := by linarith
    have hR : (2 * s ^ 3) ^ 2 ≤ (2 * X ^ 3 - 9 * X * Y + 27 * Z) ^ 2 := by
      have := disc_eq X Y Z
      rw [← hs] at this
      nlinarith
    rcases le_or_gt 0 (2 * X ^ 3 - 9 * X * Y + 27 * Z) with hR0 | hR0
    · have hR1 : 2 * s ^ 3 ≤ 2 * X ^ 3 - 9 * X * Y + 27 * Z := (sq_le_sq₀ (by positivity) hR0).mp hR
      have hmin := cubic_min X Y Z s hs
      have hm0 : 0 ≤ cubic X Y Z ((-X + s) / 3) := by linarith
      rcases le_or_gt 0 (u + (X + 2 * s) / 3) with hc | hc
      · have : cubic X Y Z u = cubic X Y Z ((-X + s) / 3) + (u - (-X + s) / 3) ^ 2 * (u + (X + 2 * s) / 3) := by
          subst hY; unfold cubic; ring
        rw [this]
        positivity
      · have h2 : 0 ≤ u ^ 2 + X * u + Y := by
          subst hY
          nlinarith [sq_nonneg (X - s), mul_nonneg hu hs0.le]
        have : cubic X Y Z u = u * (u ^ 2 + X * u + Y) + Z := by unfold cubic; ring
        rw [this]
        positivity
    · have hR1 : 2 * s ^ 3 ≤ -(2 * X ^ 3 - 9 * X * Y + 27 * Z) := by
        have : (2 * s ^ 3) ^ 2 ≤ (-(2 * X ^ 3 - 9 * X * Y + 27 * Z)) ^ 2 := by rw [neg_sq]; exact hR
        exact (sq_le_sq₀ (by positivity) (by linarith)).mp this
      have hzero : 27 * Z = (2 * X ^ 3 - 9 * X * Y + 27 * Z + 2 * s ^ 3) + (X + s) ^ 2 * (X - 2 * s) := by
        subst hY; ring
      have hp : 0 ≤ (X + s) ^ 2 * (X - 2 * s) := by linarith
      rcases le_or_gt (2 * s) X with h | h
      · exact hall (by linarith) (by subst hY; nlinarith)
      · have : (X + s) ^ 2 * (X - 2 * s) ≤ 0 := mul_nonpos_of_nonneg_of_nonpos (sq_nonneg _) (by linarith)
        have hZ0 : Z = 0 := by linarith
        exact hall (h0 hZ0).1 (h0 hZ0).2

/-- The conditions of a consistent attraction function: positive, decreasing, convex, with third derivative not positive. -/
def Consistent (c0 c1 c2 : ℝ) : Prop := ∀ T, 0 < T → 0 < twu0 c0 c1 c2 T ∧ twu1 c0 c1 c2 T ≤ 0 ∧ 0 ≤ twu2 c0 c1 c2 T ∧ twu3 c0 c1 c2 T ≤ 0

theorem twu_pos (c0 c1 c2 T : ℝ) (hT : 0 < T) : 0 < twu0 c0 c1 c2 T := by unfold twu0; positivity

/-- **C145.** Parameters that pass the check give an attraction function that is positive, decreasing and convex with a third derivative that is not positive, at all temperatures. -/
theorem C145_twu_sound (c0 c1 c2 : ℝ) (h : twuCheck c0 c1 c2) : Consistent c0 c1 c2 := by
  intro T hT
  obtain ⟨f1, f2, f3⟩ := twu_forms c0 c1 c2 T hT _ _ _ rfl rfl rfl
  unfold twuCheck at h
  dsimp only at h
  have ha := twu_pos c0 c1 c2 T hT
  have hu : 0 ≤ c0 * (c1 * c2) * T ^ (c1 * c2) := mul_nonneg (not_lt.mp h.2.1) (Real.rpow_nonneg hT.le _)
  have hδ : c2 * (c1 - 1) ≤ 0 := by have := h.1; linarith
  have hor := h.2.2
  rw [f1, f2, f3]
  generalize c0 * (c1 * c2) * T ^ (c1 * c2) = u at *
  generalize c2 * (c1 - 1) = δ at *
  generalize c1 * c2 = γ at *
  generalize twu0 c0 c1 c2 T = a at *
  have hZ : 0 ≤ -δ * (δ * δ - 3 * δ + 2) := mul_nonneg (by linarith) (by nlinarith)
  have one : γ ≤ 1 - δ → 0 ≤ -3 * (γ + δ - 1) ∧ 0 ≤ γ * γ + 3 * γ * δ - 3 * γ + 3 * δ * δ - 6 * δ + 2 := by
    intro h1
    refine ⟨by linarith, ?_⟩
    nlinarith [mul_nonneg (by linarith : (0:ℝ) ≤ 1 - δ - γ) (by linarith : (0:ℝ) ≤ 2 * (1 - δ) - γ), mul_nonneg (by linarith : (0:ℝ) ≤ -δ) (by linarith : (0:ℝ) ≤ -δ)]
  have hc : 0 ≤ δ * (δ - 1) := by nlinarith
  have hq2 : 0 ≤ u ^ 2 + (1 - 2 * δ - γ) * u + δ * (δ - 1) := by
    rcases hor with h1 | ⟨h2, -⟩
    · have : 0 ≤ (1 - 2 * δ - γ) * u := mul_nonneg (by linarith) hu
      positivity
    · have hsq := Real.sq_sqrt hc
      have h3 : -(2 * √ (δ * (δ - 1))) * u ≤ (1 - 2 * δ - γ) * u := mul_le_mul_of_nonneg_right (by linarith) hu
      nlinarith [sq_nonneg (u - √ (δ * (δ - 1)))]
  have hq3 : 0 ≤ cubic (-3 * (γ + δ - 1)) (γ * γ + 3 * γ * δ - 3 * γ + 3 * δ * δ - 6 * δ + 2) (-δ * (δ * δ - 3 * δ + 2)) u := by
    rcases hor with h1 | ⟨h2, h3⟩
    · obtain ⟨hX, hY⟩ := one h1
      unfold cubic
      positivity
    · refine cubic_nonneg _ _ _ _ hZ h3 ?_ hu
      intro h0
      have hd0 : δ = 0 := by
        rcases mul_eq_zero.mp h0 with h4 | h4
        · linarith
        · nlinarith
      subst hd0
      norm_num at h2
      exact one (by linarith)
  refine ⟨ha, ?_, by positivity, ?_⟩
  · exact div_nonpos_of_nonpos_of_nonneg (mul_nonpos_of_nonneg_of_nonpos ha.le (by linarith)) hT.le
  · unfold cubic at hq3
    have := div_nonneg (mul_nonneg ha.le hq3) (pow_nonneg hT.le 3)
    linarith

/-- **C145.** If the exponential decreases with temperature (`c0 c1 c2 > 0`), the check rejects no consistent attraction function. -/
theorem C145_twu_complete_partial (c0 c1 c2 : ℝ) (h0 : 0 < c0 * (c1 * c2)) : twuCheck c0 c1 c2 ↔ Consistent c0 c1 c2 := by
  refine ⟨C145_twu_sound c0 c1 c2, fun hcons => ?_⟩
  have hγ0 : c1 * c2 ≠ 0 := by rintro h; rw [h] at h0; simp at h0
  have hall : ∀ u, 0 < u → c2 * (c1 - 1) - u ≤ 0 ∧ 0 ≤ u ^ 2 + (1 - 2 * (c2 * (c1 - 1)) - c1 * c2) * u + c2 * (c1 - 1) * (c2 * (c1 - 1) - 1)
      ∧ 0 ≤ cubic (-3 * (c1 * c2 + c2 * (c1 - 1) - 1)) (c1 * c2 * (c1 * c2) + 3 * (c1 * c2) * (c2 * (c1 - 1)) - 3 * (c1 * c2) + 3 * (c2 * (c1 - 1)) * (c2 * (c1 - 1)) - 6 * (c2 * (c1 - 1)) + 2)
        (-(c2 * (c1 - 1)) * (c2 * (c1 - 1) * (c2 * (c1 - 1)) - 3 * (c2 * (c1 - 1)) + 2)) u := by
    intro u hu
    have hT : 0 < (u / (c0 * (c1 * c2))) ^ (1 / (c1 * c2)) := Real.rpow_pos_of_pos (div_pos hu h0) _
    have hTu : c0 * (c1 * c2) * ((u / (c0 * (c1 * c2))) ^ (1 / (c1 * c2))) ^ (c1 * c2) = u := by
      rw [← Real.rpow_mul (div_pos hu h0).le, one_div, inv_mul_cancel₀ hγ0, Real.rpow_one]
      exact mul_div_cancel₀ u h0.ne'
    obtain ⟨k0, k1, k2, k3⟩ := hcons _ hT
    obtain ⟨f1, f2, f3⟩ := twu_forms c0 c1 c2 _ hT _ _ _ rfl rfl hTu.symm
    rw [f1] at k1
    rw [f2] at k2
    rw [f3] at k3
    refine ⟨?_, ?_, ?_⟩
    · by_contra hneg
      push Not at hneg
      have : 0 < twu0 c0 c1 c2 ((u / (c0 * (c1 * c2))) ^ (1 / (c1 * c2))) * (c2 * (c1 - 1) - u) / (u / (c0 * (c1 * c2))) ^ (1 / (c1 * c2)) := by positivity
      linarith
    · by_contra hneg
      push Not at hneg
      have : twu0 c0 c1 c2 ((u / (c0 * (c1 * c2))) ^ (1 / (c1 * c2))) * (u ^ 2 + (1 - 2 * (c2 * (c1 - 1)) - c1 * c2) * u + c2 * (c1 - 1) * (c2 * (c1 - 1) - 1)) / ((u / (c0 * (c1 * c2))) ^ (1 / (c1 * c2))) ^ 2 < 0 :=
        div_neg_of_neg_of_pos (mul_neg_of_pos_of_neg k0 hneg) (by positivity)
      linarith
    · by_contra hneg
      push Not at hneg
      unfold cubic at hneg
      have := div_neg_of_neg_of_pos (mul_neg_of_pos_of_neg k0 hneg) (pow_pos hT 3)
      linarith
  unfold twuCheck
  dsimp only
  generalize c2 * (c1 - 1) = δ at *
  generalize c1 * c2 = γ at *
  have hδ : δ ≤ 0 := by
    by_contra h
    push Not at h
    have := (hall (δ / 2) (by linarith)).1
    linarith
  have hc : 0 ≤ δ * (δ - 1) := by nlinarith
  refine ⟨by linarith, by linarith, ?_⟩
  by_cases h1 : γ ≤ 1 - δ
  · exact Or.inl h1
  · right
    push Not at h1
    refine ⟨?_, ?_⟩
    · by_contra h2
      push Not at h2
      have hsq := Real.sq_sqrt hc
      have hs0 := Real.sqrt_nonneg (δ * (δ - 1))
      have hb : 0 < (γ - 1 + 2 * δ) / 2 := by linarith
      have := (hall _ hb).2.1
      nlinarith [mul_pos hb hb]
    · by_contra h2
      push Not at h2
      have h2' : disc (-3 * (γ + δ - 1)) (γ * γ + 3 * γ * δ - 3 * γ + 3 * δ * δ - 6 * δ + 2) (-δ * (δ * δ - 3 * δ + 2)) < 0 := h2
      have hX : -3 * (γ + δ - 1) < 0 := by linarith
      have h3 := fun u hu => (hall u hu).2.2
      clear hall h2
      generalize -3 * (γ + δ - 1) = X at *
      generalize γ * γ + 3 * γ * δ - 3 * γ + 3 * δ * δ - 6 * δ + 2 = Y at *
      generalize -δ * (δ * δ - 3 * δ + 2) = Z at *
      have hde := disc_eq X Y Z
      have hD3 : 0 < (X ^ 2 - 3 * Y) ^ 3 := by nlinarith [sq_nonneg (2 * X ^ 3 - 9 * X * Y + 27 * Z)]
      have hD : 0 < X ^ 2 - 3 * Y := by
        by_contra hn
        push Not at hn
        have : (X ^ 2 - 3 * Y) ^ 3 ≤ 0 := Odd.pow_nonpos (by decide) hn
        linarith
      obtain ⟨s, hs0, hs⟩ : ∃ s, 0 < s ∧ s ^ 2 = X ^ 2 - 3 * Y := ⟨√ (X ^ 2 - 3 * Y), Real.sqrt_pos.mpr hD, Real.sq_sqrt hD.le⟩
      have hmin := cubic_min X Y Z s hs
      have hpos := h3 ((-X + s) / 3) (by linarith)
      rw [← hs] at hde
      have hlt : (2 * X ^ 3 - 9 * X * Y + 27 * Z) ^ 2 < (2 * s ^ 3) ^ 2 := by nlinarith
      have := abs_lt_of_sq_lt_sq hlt (by positivity)
      rw [abs_lt] at this
      linarith [this.2]

example : twuCheck 0.5 0.8 1 := by
  unfold twuCheck
  norm_num

example : Consistent 0.5 (7 / 8) (8 / 5) ∧ ¬ (7 / 8 * (8 / 5) ≤ 1 - (8 / 5 : ℝ) * (7 / 8 - 1)) := by
  refine ⟨C145_twu_sound _ _ _ ?_, by norm_num⟩
  unfold twuCheck
  dsimp only
  refine ⟨by norm_num, by norm_num, Or.inr ⟨?_, by norm_num⟩⟩
  have := Real.sqrt_nonneg (8 / 5 * (7 / 8 - 1) * (8 / 5 * (7 / 8 - 1) - 1) : ℝ)
  linarith

/-- **C145 fails.** With an exponential that is constant some consistent functions are rejected, for example the constant one. -/
theorem C145_twu_fails : Consistent 0 1 5 ∧ ¬ twuCheck 0 1 5 := by
  constructor
  · intro T hT
    obtain ⟨f1, f2, f3⟩ := twu_forms 0 1 5 T hT _ _ _ rfl rfl rfl
    rw [f1, f2, f3]
    refine ⟨twu_pos _ _ _ _ hT, ?_, ?_, ?_⟩ <;> norm_num
  · unfold twuCheck
    norm_num

/-! ## Penalties -/

/-- `alpha_constrain_err` (598-626): errors with penalties. -/
noncomputable def constrain {n : ℕ} (err d0 d1 d2 d3 : Fin n → ℝ) (valid : Bool) (i : Fin n) : ℝ :=
  let p0 := fun i => |min (d0 i) 0 * 100|
  let p1 := fun i => |max (d1 i) 0 * 1000|
  let p2 := fun i => |min (d2 i) 0 * 5000|
  let p3 := fun i => |max (d3 i) 0 * 500000000|
  let tot := ∑ i, p0 i + ∑ i, p1 i + ∑ i, p2 i + ∑ i, p3 i
  let p0 := if tot = 0 ∧ ¬ valid then fun _ => 100000 else p0
  err i + p0 i + p1 i + p2 i + p3 i

theorem penalties_zero {n : ℕ} (d0 d1 d2 d3 : Fin n → ℝ) :
    (∑ i, |min (d0 i) 0 * 100| + ∑ i, |max (d1 i) 0 * 1000| + ∑ i, |min (d2 i) 0 * 5000| + ∑ i, |max (d3 i) 0 * 500000000| = 0) ↔ ∀ i, 0 ≤ d0 i ∧ d1 i ≤ 0 ∧ 0 ≤ d2 i ∧ d3 i ≤ 0 := by
  have n0 := Finset.sum_nonneg (s := Finset.univ) fun i (_ : i ∈ Finset.univ) => abs_nonneg (min (d0 i) 0 * 100)
  have n1 := Finset.sum_nonneg (s := Finset.univ) fun i (_ : i ∈ Finset.univ) => abs_nonneg (max (d1 i) 0 * 1000)
  have n2 := Finset.sum_nonneg (s := Finset.univ) fun i (_ : i ∈ Finset.univ) => abs_nonneg (min (d2 i) 0 * 5000)
  have n3 := Finset.sum_nonneg (s := Finset.univ) fun i (_ : i ∈ Finset.univ) => abs_nonneg (max (d3 i) 0 * 500000000)
  constructor
  · intro h i
    have e0 := (Finset.sum_eq_zero_iff_of_nonneg fun i (_ : i ∈ Finset.univ) => abs_nonneg (min (d0 i) 0 * 100)).mp (by linarith) i (Finset.mem_univ i)
    have e1 := (Finset.sum_eq_zero_iff_of_nonneg fun i (_ : i ∈ Finset.univ) => abs_nonneg (max (d1 i) 0 * 1000)).mp (by linarith) i (Finset.mem_univ i)
    have e2 := (Finset.sum_eq_zero_iff_of_nonneg fun i (_ : i ∈ Finset.univ) => abs_nonneg (min (d2 i) 0 * 5000)).mp (by linarith) i (Finset.mem_univ i)
    have e3 := (Finset.sum_eq_zero_iff_of_nonneg fun i (_ : i ∈ Finset.univ) => abs_nonneg (max (d3 i) 0 * 500000000)).mp (by linarith) i (Finset.mem_univ i)
    simp only [abs_eq_zero, mul_eq_zero, OfNat.ofNat_ne_zero, or_false, min_eq_right_iff, max_eq_right_iff] at e0 e1 e2 e3
    exact ⟨e0, e1, e2, e3⟩
  · intro h
    have e0 : ∑ i, |min (d0 i) 0 * 100| = 0 := Finset.sum_eq_zero fun i _ => by rw [min_eq_right (h i).1]; simp
    have e1 : ∑ i, |max (d1 i) 0 * 1000| = 0 := Finset.sum_eq_zero fun i _ => by rw [max_eq_right (h i).2.1]; simp
    have e2 : ∑ i, |min (d2 i) 0 * 5000| = 0 := Finset.sum_eq_zero fun i _ => by rw [min_eq_right (h i).2.2.1]; simp
    have e3 : ∑ i, |max (d3 i) 0 * 500000000| = 0 := Finset.sum_eq_zero fun i _ => by rw [max_eq_right (h i).2.2.2]; simp
    rw [e0, e1, e2, e3]; norm_num

/-- **C145.** Errors are not changed exactly if the parameters are valid and the signs are right at all points; if only the check fails, all errors increase by 100000; otherwise by the violations at their own point. -/
theorem C145_penalties {n : ℕ} (hn : 0 < n) (err d0 d1 d2 d3 : Fin n → ℝ) (valid : Bool) :
    ((∀ i, constrain err d0 d1 d2 d3 valid i = err i) ↔ valid = true ∧ ∀ i, 0 ≤ d0 i ∧ d1 i ≤ 0 ∧ 0 ≤ d2 i ∧ d3 i ≤ 0)
    ∧ (valid = false → (∀ i, 0 ≤ d0 i ∧ d1 i ≤ 0 ∧ 0 ≤ d2 i ∧ d3 i ≤ 0) → ∀ i, constrain err d0 d1 d2 d3 valid i = err i + 100000)
    ∧ ((¬ ∀ i, 0 ≤ d0 i ∧ d1 i ≤ 0 ∧ 0 ≤ d2 i ∧ d3 i ≤ 0) → ∀ i, constrain err d0 d1 d2 d3 valid i = err i + 100 * max 0 (-d0 i) + 1000 * max 0 (d1 i) + 5000 * max 0 (-d2 i) + 500000000 * max 0 (d3 i)) := by
  have hz := penalties_zero d0 d1 d2 d3
  have mn : ∀ x k : ℝ, 0 ≤ k → |min x 0 * k| = k * max 0 (-x) := by
    intro x k hk
    rcases le_total x 0 with h | h
    · rw [min_eq_left h, max_eq_right (by linarith), abs_of_nonpos (mul_nonpos_of_nonpos_of_nonneg h hk)]; ring
    · rw [min_eq_right h, max_eq_left (by linarith)]; simp
  have mx : ∀ x k : ℝ, 0 ≤ k → |max x 0 * k| = k * max 0 x := by
    intro x k hk
    rw [max_comm, abs_of_nonneg (mul_nonneg (le_max_left _ _) hk)]; ring
  have ok : (∀ i, 0 ≤ d0 i ∧ d1 i ≤ 0 ∧ 0 ≤ d2 i ∧ d3 i ≤ 0) → ∀ i, constrain err d0 d1 d2 d3 valid i = err i + if valid then 0 else 100000 := by
    intro h i
    obtain ⟨a, b, c, d⟩ := h i
    unfold constrain
    dsimp only
    rw [hz.mpr h]
    cases valid
    · simp [max_eq_right b, min_eq_right c, max_eq_right d]
    · simp [min_eq_right a, max_eq_right b, min_eq_right c, max_eq_right d]
  have bad : (¬ ∀ i, 0 ≤ d0 i ∧ d1 i ≤ 0 ∧ 0 ≤ d2 i ∧ d3 i ≤ 0) →
      ∀ i, constrain err d0 d1 d2 d3 valid i = err i + 100 * max 0 (-d0 i) + 1000 * max 0 (d1 i) + 5000 * max 0 (-d2 i) + 500000000 * max 0 (d3 i) := by
    intro h i
    unfold constrain
    dsimp only
    rw [if_neg (by rw [hz]; exact fun hh => h hh.1), mn _ _ (by norm_num), mx _ _ (by norm_num), mn _ _ (by norm_num), mx _ _ (by norm_num)]
  refine ⟨?_, ?_, bad⟩
  · constructor
    · intro h
      by_cases hs : ∀ i, 0 ≤ d0 i ∧ d1 i ≤ 0 ∧ 0 ≤ d2 i ∧ d3 i ≤ 0
      · refine ⟨?_, hs⟩
        have h1 := h ⟨0, hn⟩
        rw [ok hs] at h1
        cases valid
        · norm_num at h1
        · rfl
      · exfalso
        apply hs
        intro i
        have h1 := h i
        rw [bad hs] at h1
        have a0 := le_max_left 0 (-d0 i); have a1 := le_max_left 0 (d1 i); have a2 := le_max_left 0 (-d2 i); have a3 := le_max_left 0 (d3 i)
        have b0 := le_max_right 0 (-d0 i); have b1 := le_max_right 0 (d1 i); have b2 := le_max_right 0 (-d2 i); have b3 := le_max_right 0 (d3 i)
        refine ⟨?_, ?_, ?_, ?_⟩ <;> linarith
    · rintro ⟨hv, hs⟩ i
      rw [ok hs, hv]; simp
  · intro hv hs i
    rw [ok hs, hv]; simp

example : constrain (n := 1) (fun _ => 1) (fun _ => 1) (fun _ => 2) (fun _ => 0) (fun _ => -1) true 0 = 2001 := by
  rw [(C145_penalties (by norm_num) _ _ _ _ _ _).2.2 (by simp)]
  norm_num

/-- `poly_check_params` (557-571) with the meaning of `is_poly_positive` and `is_poly_negative` on the domain. -/
def polyCheck (c : List ℝ) (lo hi : ℝ) : Prop :=
  let c1 := (polyder c.reverse).reverse
  let c2 := (polyder c1.reverse).reverse
  let c3 := (polyder c2.reverse).reverse
  (∀ x, lo ≤ x → x ≤ hi → 0 < horner c x) ∧ (∀ x, lo ≤ x → x ≤ hi → horner c1 x < 0) ∧ (∀ x, lo ≤ x → x ≤ hi → 0 < horner c2 x) ∧ ∀ x, lo ≤ x → x ≤ hi → horner c3 x < 0

/-- **C145.** The check of polynomials asks for the signs of the polynomial and its first three derivatives. -/
theorem C145_poly_check (c : List ℝ) (lo hi : ℝ) : polyCheck c lo hi ↔ ∀ x, lo ≤ x → x ≤ hi → 0 < horner c x ∧ deriv (horner c) x < 0 ∧ 0 < deriv (deriv (horner c)) x ∧ deriv (deriv (deriv (horner c))) x < 0 := by
  have h1 : ∀ c : List ℝ, deriv (horner c) = horner (polyder c.reverse).reverse := fun c => funext fun x => (Fits.horner_deriv c x).deriv
  rw [h1, h1, h1]
  unfold polyCheck
  dsimp only
  constructor
  · rintro ⟨a, b, d, e⟩ x h1 h2
    exact ⟨a x h1 h2, b x h1 h2, d x h1 h2, e x h1 h2⟩
  · intro h
    exact ⟨fun x a b => (h x a b).1, fun x a b => (h x a b).2.1, fun x a b => (h x a b).2.2.1, fun x a b => (h x a b).2.2.2⟩

/-! ## Best of several minimizations -/

/-- The start of coefficient `i` (655): `x0[-i]`. -/
def startAt {α : Type} (x0 : List α) (i : ℕ) : Option α := if i = 0 then x0[0]? else x0[x0.length - i]?

/-- **C145 fails.** All starting values but the first are used in reverse order. -/
theorem C145_start_fails {α : Type} (x0 : List α) (i : ℕ) (h0 : 0 < i) (hi : i < x0.length) : startAt x0 i = x0[x0.length - i]? ∧ startAt [1, 2, 3] 1 = some 3 := by
  unfold startAt
  rw [if_neg (by omega)]
  exact ⟨rfl, by simp⟩

/-- The best result so far (677-680): mean deviation and coefficients. -/
def keep {C : Type} (check : C → Bool) (b : ℚ × Option C) (r : ℚ × C) : ℚ × Option C := if r.1 < b.1 && check r.2 then (r.1, some r.2) else b

/-- `fit_function` (633-687): `first` are the results of the first pass in order, `again` those of the pass from the best coefficients. `none` is an exception. -/
def fitFunction {C : Type} (check : C → Bool) (first : List (ℚ × C)) (again : C → List (ℚ × C)) : Option C :=
  let b := first.foldl (keep check) (10 ^ 300, none)
  match b.2 with
  | none => none
  | some c => ((again c).foldl (keep check) b).2

theorem keep_fold {C : Type} (check : C → Bool) (l : List (ℚ × C)) (b : ℚ × Option C) (hb : b.2 = none → b.1 = 10 ^ 300) (hc : ∀ c, b.2 = some c → check c = true) :
    let r := l.foldl (keep check) b
    r.1 ≤ b.1 ∧ (∀ p ∈ l, check p.2 = true → r.1 ≤ p.1) ∧ (r.2 = none → r.1 = 10 ^ 300) ∧ (∀ c, r.2 = some c → check c = true ∧ (((r.1, c) ∈ l) ∨ r = b)) := by
  induction l generalizing b with
  | nil => exact ⟨le_refl _, by simp, hb, fun c h => ⟨hc c h, Or.inr rfl⟩⟩
  | cons p t ih =>
    obtain ⟨v, c⟩ := p
    simp only [List.foldl_cons]
    by_cases hk : (decide (v < b.1) && check c) = true
    · have hk' : keep check b (v, c) = (v, some c) := by unfold keep; rw [if_pos hk]
      simp only [Bool.and_eq_true, decide_eq_true_eq] at hk
      rw [hk']
      obtain ⟨a1, a2, a3, a4⟩ := ih (v, some c) (by simp) (by rintro c' h; cases h; exact hk.2)
      refine ⟨by have := hk.1; simp only at a1; linarith, ?_, a3, ?_⟩
      · rintro q hq hcq
        rcases List.mem_cons.mp hq with rfl | hq
        · exact a1
        · exact a2 q hq hcq
      · intro c' hc'
        obtain ⟨x1, x2⟩ := a4 c' hc'
        refine ⟨x1, Or.inl ?_⟩
        rcases x2 with x2 | x2
        · exact List.mem_cons_of_mem _ x2
        · rw [x2] at hc' ⊢
          cases hc'
          exact List.mem_cons_self
    · have hk' : keep check b (v, c) = b := by unfold keep; rw [if_neg hk]
      simp only [Bool.and_eq_true, decide_eq_true_eq, not_and] at hk
      rw [hk']
      obtain ⟨a1, a2, a3, a4⟩ := ih b hb hc
      refine ⟨a1, ?_, a3, ?_⟩
      · rintro q hq hcq
        rcases List.mem_cons.mp hq with rfl | hq
        · have : ¬ v < b.1 := fun h => hk h hcq
          simp only; linarith
        · exact a2 q hq hcq
      · intro c' hc'
        obtain ⟨x1, x2⟩ := a4 c' hc'
        exact ⟨x1, x2.imp (List.mem_cons_of_mem _) id⟩

/-- **C145.** The result passes the check and no accepted result of either pass has a smaller deviation. -/
theorem C145_best {C : Type} (check : C → Bool) (first : List (ℚ × C)) (again : C → List (ℚ × C)) (c : C) (h : fitFunction check first again = some c) :
    check c = true ∧ ∃ v c0, ((v, c) ∈ first ∨ (v, c) ∈ again c0) ∧ (∀ p ∈ first, check p.2 = true → v ≤ p.1) ∧ (∀ p ∈ again c0, check p.2 = true → v ≤ p.1) := by
  unfold fitFunction at h
  dsimp only at h
  obtain ⟨a1, a2, a3, a4⟩ := keep_fold check first (10 ^ 300, none) (fun _ => rfl) (by simp)
  rcases hb : (first.foldl (keep check) (10 ^ 300, none)).2 with _ | c0
  · rw [hb] at h; cases h
  · rw [hb] at h
    simp only at h
    obtain ⟨b1, b2, b3, b4⟩ := keep_fold check (again c0) _ a3 (fun c hc => (a4 c hc).1)
    obtain ⟨x1, x2⟩ := b4 c h
    refine ⟨x1, _, c0, ?_, fun p hp hc => le_trans b1 (a2 p hp hc), b2⟩
    rcases x2 with x2 | x2
    · exact Or.inr x2
    · rw [x2] at h ⊢
      rcases (a4 c h).2 with y | y
      · exact Or.inl y
      · rw [y] at h; cases h

/-- **C145 fails.** If no minimization of the first pass is accepted an exception is raised, although the second would start again. -/
theorem C145_restart_fails {C : Type} (check : C → Bool) (first : List (ℚ × C)) (again : C → List (ℚ × C)) (h : ∀ p ∈ first, check p.2 = false) : fitFunction check first again = none := by
  obtain ⟨a1, a2, a3, a4⟩ := keep_fold check first (10 ^ 300, none) (fun _ => rfl) (by simp)
  unfold fitFunction
  dsimp only
  rcases hb : (first.foldl (keep check) (10 ^ 300, none)).2 with _ | c0
  · rfl
  · obtain ⟨x1, x2⟩ := a4 c0 hb
    rcases x2 with x2 | x2
    · rw [h _ x2] at x1; cases x1
    · rw [x2] at hb; cases hb

example : fitFunction (fun c : ℕ => decide (c ≠ 7)) [(3, 1), (1, 7), (2, 2)] (fun c => [(5, c), (1, 4)]) = some 4 := by decide +kernel

end Verif.Fitting
