import Mathlib.Data.Real.Basic
import Mathlib.Algebra.BigOperators.Fin
import Mathlib.Algebra.BigOperators.Field
import Mathlib.Analysis.SpecialFunctions.Pow.Real
import Mathlib.Analysis.SpecialFunctions.Sqrt
import Mathlib.Analysis.Complex.ExponentialBounds
import Mathlib.Tactic.Ring
import Mathlib.Tactic.Linarith
import Mathlib.Tactic.FieldSimp
import Mathlib.Tactic.NormNum
import Mathlib.Tactic.Positivity
import Mathlib.Tactic.FinCases
import Mathlib.Tactic.IntervalCases

/-!
# Trial compositions of stability tests (`thermo/property_package.py` 247-542)

C102. `StabilityTester`: which compositions are tried, in which order, and what they are called.

The `K` values of Wilson are passed as data, since as floats they can be zero; `wilson` is their formula. Random numbers are data.
-/

namespace Verif.FlashTrials

open scoped BigOperators

/-- A composition. -/
abbrev Comp (n : ℕ) := Fin n → ℝ

variable {N : ℕ}

/-- What a composition is: fractions that are not negative and add to one. -/
def IsComp (x : Comp N) : Prop := (∀ i, 0 ≤ x i) ∧ ∑ i, x i = 1

/-- `normalize` of chemicals.utils. -/
noncomputable def normalize (x : Comp N) : Comp N := fun i => x i / ∑ j, x j

/-- `K` value of Wilson (348, 424; `Wilson_K_value`). -/
noncomputable def wilson (T P Tc Pc omega : ℝ) : ℝ := Pc / P * Real.exp (537 / 100 * (1 + omega) * (1 - Tc / T))

/-! ## The four compositions of Wilson (345-354, 381-391, 445-460) -/

/-- `Wilson gas` (381, 452). -/
noncomputable def gas (K z : Comp N) : Comp N := normalize fun i => K i * z i

/-- `Wilson liquid` (384, 445, 456). -/
noncomputable def liquid (K z : Comp N) : Comp N := normalize fun i => z i / K i

/-- `Wilson gas third` (387, 448, 458). -/
noncomputable def gasThird (K z : Comp N) : Comp N := normalize fun i => K i ^ ((1 : ℝ) / 3) * z i

/-- `Wilson liquid third` (390, 446, 460). -/
noncomputable def liquidThird (K z : Comp N) : Comp N := normalize fun i => K i ^ (-(1 : ℝ) / 3) * z i

/-- A nearly pure component (394-398, 436-439, 464-468). -/
noncomputable def pureComp (zf : ℝ) (k : Fin N) : Comp N := fun i => if i = k then 1 - zf else zf / (N - 1)

/-! ## `incipient_guesses` (400-486) -/

/-- Arguments (400-402), the index of water, the table of random numbers (97-240), and the stream of numbers after `seed(0)`. -/
structure Args (N : ℕ) where
  (K z : Comp N) (pure wilson expectLiquid expectAqueous : Bool) (random : ℕ) (zf : ℝ) (water : Option (Fin N))
  (table stream : ℕ → ℝ)

/-- Every `K` value is zero (420-427). -/
def allZero (K : Comp N) : Prop := ∀ i, K i = 0

/-- Some `K` value is zero (421-429). -/
def anyZero (K : Comp N) : Prop := ∃ i, K i = 0

/-- No `K` value is above `1e-100` (422, 430-431). -/
def unlikely (K : Comp N) : Prop := ∀ i, K i ≤ 1 / 10 ^ 100

open Classical in
/-- The aqueous trial (435-440); without water `None` cannot be an index. -/
noncomputable def aqueous (a : Args N) : List (Comp N) :=
  if a.expectAqueous then (match a.water with | some w => [pureComp a.zf w] | none => []) else []

open Classical in
/-- Trials from the `K` values (417-460). -/
noncomputable def wilsons (a : Args N) : List (Comp N) :=
  if a.wilson ∧ ¬ allZero a.K ∧ ¬ unlikely a.K then
    if a.expectLiquid then
      aqueous a ++ (if anyZero a.K then [] else [liquid a.K a.z, liquidThird a.K a.z])
        ++ [gasThird a.K a.z, gas a.K a.z]
    else
      [gas a.K a.z] ++ (if anyZero a.K then [] else [liquid a.K a.z]) ++ [gasThird a.K a.z]
        ++ (if anyZero a.K then [] else [liquidThird a.K a.z])
  else []

/-- Nearly pure components (462-469). -/
noncomputable def pures (a : Args N) : List (Comp N) := if a.pure then (List.finRange N).map (pureComp a.zf) else []

/-- Random trials (470-486). -/
noncomputable def randoms (a : Args N) : List (Comp N) :=
  if a.random * N > 1000 then
    (List.range a.random).flatMap fun _ => (List.range N).map fun k => normalize fun j : Fin N => a.stream (k * N + j)
  else (List.range a.random).map fun r => normalize fun j : Fin N => a.table (r * N + j)

/-- All trials. Not modelled: the exceptions with one component, from the division by `N - 1.0` (437, 465), and without water, from the index
`None` (439). -/
noncomputable def incipient (a : Args N) : List (Comp N) := wilsons a ++ pures a ++ randoms a

/-! ## Names (356-398) -/

/-- The names. -/
inductive Name
  | wilsonGas | wilsonLiquid | wilsonGasThird | wilsonLiquidThird
  | pure (k : ℕ)
  | random (k : ℕ)
  deriving DecidableEq

/-- The names in line 360. -/
def gasNames : ℕ → Name
  | 0 => .wilsonGas
  | 1 => .wilsonLiquid
  | 2 => .wilsonGasThird
  | _ => .wilsonLiquidThird

/-- The names in lines 365 and 367. -/
def liquidNames : ℕ → Name
  | 0 => .wilsonLiquid
  | 1 => .wilsonLiquidThird
  | 2 => .wilsonGasThird
  | _ => .wilsonGas

/-- `incipient_guess_name` (356-373); with an aqueous phase expected, names end at the fourth trial. -/
def nameOf (N : ℕ) (water : ℕ) (expectLiquid expectAqueous : Bool) (idx : ℕ) : Option Name :=
  if idx < 4 then
    if expectLiquid then
      if expectAqueous then (if idx = 0 then some (.pure water) else some (liquidNames (idx - 1)))
      else some (liquidNames idx)
    else some (gasNames idx)
  else if expectAqueous then none
  else if idx ≤ 3 + N then some (.pure (idx - 3))
  else some (.random (idx - (3 + N)))

/-- What `incipient_guess_named` gives: a composition, `None`, or an `IndexError`. -/
inductive Named (N : ℕ)
  | comp (x : Comp N)
  | nothing
  | indexError

/-- `incipient_guess_named` (375-398). -/
noncomputable def named (K z : Comp N) (zf : ℝ) : Name → Named N
  | .wilsonGas => .comp (gas K z)
  | .wilsonLiquid => .comp (liquid K z)
  | .wilsonGasThird => .comp (gasThird K z)
  | .wilsonLiquidThird => .comp (liquidThird K z)
  | .pure k => if h : k < N then .comp (pureComp zf ⟨k, h⟩) else .indexError
  | .random _ => .nothing

/-! ## Compositions -/

theorem normalize_comp (x : Comp N) (h : ∀ i, 0 ≤ x i) (k : Fin N) (hk : 0 < x k) : IsComp (normalize x) := by
  have hs : 0 < ∑ i, x i := Finset.sum_pos' (fun i _ => h i) ⟨k, Finset.mem_univ _, hk⟩
  refine ⟨fun i => div_nonneg (h i) hs.le, ?_⟩
  unfold normalize
  rw [← Finset.sum_div, div_self hs.ne']

theorem pureComp_sum (zf : ℝ) (k : Fin N) (hN : 2 ≤ N) : ∑ i, pureComp zf k i = 1 := by
  have hN' : (N : ℝ) - 1 ≠ 0 := by
    have : (2 : ℝ) ≤ N := by exact_mod_cast hN
    intro h; linarith
  have h : ∀ i, pureComp zf k i = zf / (N - 1) + (if i = k then 1 - zf - zf / (N - 1) else 0) := by
    intro i; unfold pureComp; split_ifs <;> ring
  rw [Finset.sum_congr rfl fun i _ => h i, Finset.sum_add_distrib, Finset.sum_ite_eq' Finset.univ k]
  simp only [Finset.mem_univ, if_true, Finset.sum_const, Finset.card_univ, Fintype.card_fin, nsmul_eq_mul]
  field_simp
  ring

theorem pureComp_comp (zf : ℝ) (k : Fin N) (hN : 2 ≤ N) (h0 : 0 ≤ zf) (h1 : zf ≤ 1) : IsComp (pureComp zf k) := by
  refine ⟨fun i => ?_, pureComp_sum zf k hN⟩
  have : (2 : ℝ) ≤ N := by exact_mod_cast hN
  unfold pureComp
  split_ifs
  · linarith
  · exact div_nonneg h0 (by linarith)

/-- What the theorems assume of the arguments: at least two components, a feed, a small fraction, random numbers above zero, and `K` values
that are not negative, one of a component of the feed being positive. -/
structure Ok (a : Args N) : Prop where
  two : 2 ≤ N
  z : IsComp a.z
  zf0 : 0 ≤ a.zf
  zf1 : a.zf ≤ 1
  table : ∀ m, 0 < a.table m
  stream : ∀ m, 0 < a.stream m
  K : ∀ i, 0 ≤ a.K i
  present : ∃ i, 0 < a.K i ∧ 0 < a.z i

/-- **C102.** Every trial is a composition. -/
theorem C102_compositions (a : Args N) (h : Ok a) (x : Comp N) (hx : x ∈ incipient a) : IsComp x := by
  obtain ⟨i, hK, hz⟩ := h.present
  have hz0 : ∀ j, 0 ≤ a.z j := h.z.1
  have g : IsComp (gas a.K a.z) := normalize_comp _ (fun j => mul_nonneg (h.K j) (hz0 j)) i (mul_pos hK hz)
  have l : IsComp (liquid a.K a.z) := normalize_comp _ (fun j => div_nonneg (hz0 j) (h.K j)) i (div_pos hz hK)
  have gt : IsComp (gasThird a.K a.z) :=
    normalize_comp _ (fun j => mul_nonneg (Real.rpow_nonneg (h.K j) _) (hz0 j)) i (mul_pos (Real.rpow_pos_of_pos hK _) hz)
  have lt : IsComp (liquidThird a.K a.z) :=
    normalize_comp _ (fun j => mul_nonneg (Real.rpow_nonneg (h.K j) _) (hz0 j)) i (mul_pos (Real.rpow_pos_of_pos hK _) hz)
  unfold incipient at hx
  rw [List.mem_append, List.mem_append] at hx
  rcases hx with (hx | hx) | hx
  · unfold wilsons at hx
    have haq : ∀ y ∈ aqueous a, IsComp y := by
      intro y hy
      unfold aqueous at hy
      split_ifs at hy
      · rcases hw : a.water with _ | w
        · rw [hw] at hy; cases hy
        · rw [hw] at hy
          rw [List.mem_singleton.1 hy]
          exact pureComp_comp _ _ h.two h.zf0 h.zf1
      · cases hy
    split_ifs at hx <;> simp only [List.mem_append, List.mem_cons, List.not_mem_nil, or_false, false_or] at hx
    · rcases hx with hx | hx | hx
      · exact haq x hx
      all_goals subst hx; assumption
    · rcases hx with (hx | hx | hx) | hx | hx
      · exact haq x hx
      all_goals subst hx; assumption
    · rcases hx with hx | hx
      all_goals subst hx; assumption
    · rcases hx with ((hx | hx) | hx) | hx
      all_goals subst hx; assumption
  · unfold pures at hx
    split_ifs at hx
    · obtain ⟨k, -, rfl⟩ := List.mem_map.1 hx
      exact pureComp_comp _ _ h.two h.zf0 h.zf1
    · cases hx
  · unfold randoms at hx
    split_ifs at hx
    · obtain ⟨r, -, hx⟩ := List.mem_flatMap.1 hx
      obtain ⟨k, -, rfl⟩ := List.mem_map.1 hx
      exact normalize_comp _ (fun j => (h.stream _).le) i (h.stream _)
    · obtain ⟨r, -, rfl⟩ := List.mem_map.1 hx
      exact normalize_comp _ (fun j => (h.table _).le) i (h.table _)

/-- Wilson's `K` values are positive. -/
theorem wilson_pos (T P Tc Pc omega : ℝ) (hP : 0 < P) (hPc : 0 < Pc) : 0 < wilson T P Tc Pc omega :=
  mul_pos (div_pos hPc hP) (Real.exp_pos _)

/-- **C102.** Wilson's `K` value is one at the critical point, and there is a temperature-independent ratio between pressures. -/
theorem C102_wilson (T P P' Tc Pc omega : ℝ) (hP : P ≠ 0) (hP' : P' ≠ 0) (hT : Tc ≠ 0) (hPc : Pc ≠ 0) :
    wilson Tc Pc Tc Pc omega = 1 ∧ wilson T P Tc Pc omega * P = wilson T P' Tc Pc omega * P'
    ∧ (omega > -1 → 0 < Pc → 0 < P → 0 < Tc → ∀ T', 0 < T → T < T' → wilson T P Tc Pc omega < wilson T' P Tc Pc omega) := by
  refine ⟨?_, ?_, ?_⟩
  · unfold wilson; rw [div_self hPc, div_self hT]; simp
  · unfold wilson; field_simp
  · intro ho hPc hP hTc T' hT0 hT'
    unfold wilson
    refine mul_lt_mul_of_pos_left (Real.exp_lt_exp.2 ?_) (div_pos hPc hP)
    refine mul_lt_mul_of_pos_left ?_ (by linarith)
    have := div_lt_div_of_pos_left hTc hT0 hT'
    linarith

/-- **C102.** At `0.7 Tc` Wilson's vapor pressure `K P` agrees with the definition of the acentric factor, `log10 (Psat / Pc) = -(1 + omega)`, to
one part in a thousand. -/
theorem C102_wilson_acentric (P Tc Pc omega : ℝ) (hP : 0 < P) (hT : Tc ≠ 0) (hPc : 0 < Pc) :
    |Real.log (wilson (7 / 10 * Tc) P Tc Pc omega * P / Pc) / Real.log 10 + (1 + omega)| ≤ 1 / 1000 * |1 + omega| := by
  have e : wilson (7 / 10 * Tc) P Tc Pc omega * P / Pc = Real.exp (-(1611 / 700) * (1 + omega)) := by
    have : Tc / (7 / 10 * Tc) = 10 / 7 := by field_simp
    unfold wilson
    rw [this]
    field_simp
    congr 1; ring
  rw [e, Real.log_exp]
  have h1 := Real.log_two_gt_d9
  have h2 := Real.log_two_lt_d9
  have l1 : 93 * Real.log 2 ≤ 28 * Real.log 10 := by
    have := Real.log_le_log (x := 2 ^ 93) (y := 10 ^ 28) (by positivity) (by norm_num)
    rw [Real.log_pow, Real.log_pow] at this
    exact_mod_cast this
  have l2 : 59 * Real.log 10 ≤ 196 * Real.log 2 := by
    have := Real.log_le_log (x := 10 ^ 59) (y := 2 ^ 196) (by positivity) (by norm_num)
    rw [Real.log_pow, Real.log_pow] at this
    exact_mod_cast this
  have hL : 0 < Real.log 10 := Real.log_pos (by norm_num)
  have e2 : -(1611 / 700) * (1 + omega) / Real.log 10 + (1 + omega) = (1 - 1611 / 700 / Real.log 10) * (1 + omega) := by ring
  rw [e2, abs_mul]
  refine mul_le_mul_of_nonneg_right ?_ (abs_nonneg _)
  have b1 : 1611 / 700 / Real.log 10 ≤ 1 + 1 / 1000 := by rw [div_le_iff₀ hL]; linarith
  have b2 : 1 - 1 / 1000 ≤ 1611 / 700 / Real.log 10 := by rw [le_div_iff₀ hL]; linarith
  rw [abs_le]; constructor <;> linarith

/-- **C102.** The two compositions called `third` have, relative to the feed, the cube root of the ratios of the `K` values. -/
theorem C102_thirds (K z : Comp N) (hK : ∀ i, 0 < K i) (hz : ∀ i, 0 < z i) (i j : Fin N) :
    (gasThird K z i / z i / (gasThird K z j / z j)) ^ 3 = K i / K j ∧
    (liquidThird K z i / z i / (liquidThird K z j / z j)) ^ 3 = K j / K i := by
  have c1 : ∀ k, (K k ^ ((1 : ℝ) / 3)) ^ 3 = K k := fun k => by
    rw [← Real.rpow_natCast, ← Real.rpow_mul (hK k).le]; norm_num
  have c2 : ∀ k, (K k ^ (-(1 : ℝ) / 3)) ^ 3 = (K k)⁻¹ := fun k => by
    rw [← Real.rpow_natCast, ← Real.rpow_mul (hK k).le, ← Real.rpow_neg_one]; norm_num
  have main : ∀ w : Fin N → ℝ, (∀ k, 0 < w k) →
      normalize (fun k => w k * z k) i / z i / (normalize (fun k => w k * z k) j / z j) = w i / w j := by
    intro w hw
    have hs : (0 : ℝ) < ∑ k, w k * z k :=
      Finset.sum_pos (fun k _ => mul_pos (hw k) (hz k)) ⟨i, Finset.mem_univ i⟩
    have := hz i; have := hz j; have := hw j
    unfold normalize
    field_simp
  unfold gasThird liquidThird
  rw [main _ fun k => Real.rpow_pos_of_pos (hK k) _, main _ fun k => Real.rpow_pos_of_pos (hK k) _, div_pow, div_pow, c1, c1, c2, c2]
  exact ⟨rfl, by rw [inv_div_inv]⟩

example : (gasThird (N := 2) ![8, 1] ![1 / 2, 1 / 2] 0 / (1 / 2) / (gasThird (N := 2) ![8, 1] ![1 / 2, 1 / 2] 1 / (1 / 2))) ^ 3 = 8 := by
  have := (C102_thirds (N := 2) ![8, 1] ![1 / 2, 1 / 2] (by intro i; fin_cases i <;> simp) (by intro i; fin_cases i <;> simp) 0 1).1
  simpa using this

/-- The premises hold for nitrogen-like and decane-like data. -/
example : 0 < wilson 300 101325 126 3400000 (4 / 100) := wilson_pos _ _ _ _ _ (by norm_num) (by norm_num)

/-- **C102.** For every component there is a trial nearly pure in it. -/
theorem C102_pure (a : Args N) (hp : a.pure = true) (k : Fin N) :
    ∃ x ∈ incipient a, x k = 1 - a.zf ∧ ∀ j, j ≠ k → x j = a.zf / (N - 1) := by
  refine ⟨pureComp a.zf k, ?_, ?_, ?_⟩
  · unfold incipient pures
    rw [if_pos hp]
    exact List.mem_append_left _ (List.mem_append_right _ (List.mem_map.2 ⟨k, List.mem_finRange k, rfl⟩))
  · unfold pureComp; rw [if_pos rfl]
  · intro j hj; unfold pureComp; rw [if_neg hj]

/-! ## Number and order of trials -/

/-- All `K` values are ordinary: positive, and one above `1e-100`. -/
structure Ordinary (K : Comp N) : Prop where
  pos : ∀ i, 0 < K i
  some : ∃ i, 1 / 10 ^ 100 < K i

theorem ordinary (K : Comp N) (h : Ordinary K) : ¬ allZero K ∧ ¬ unlikely K ∧ ¬ anyZero K := by
  obtain ⟨i, hi⟩ := h.some
  exact ⟨fun h' => (h.pos i).ne' (h' i), fun h' => absurd (h' i) (not_le.2 hi), fun ⟨j, hj⟩ => (h.pos j).ne' hj⟩

/-- Trials from ordinary `K` values. -/
theorem wilsons_eq (a : Args N) (hw : a.wilson = true) (h : Ordinary a.K) :
    wilsons a = if a.expectLiquid then aqueous a ++ [liquid a.K a.z, liquidThird a.K a.z, gasThird a.K a.z, gas a.K a.z]
      else [gas a.K a.z, liquid a.K a.z, gasThird a.K a.z, liquidThird a.K a.z] := by
  obtain ⟨h1, h2, h3⟩ := ordinary a.K h
  unfold wilsons
  rw [if_pos ⟨hw, h1, h2⟩, if_neg h3, if_neg h3, if_neg h3]
  split_ifs <;> simp

theorem randoms_length (a : Args N) : (randoms a).length = if a.random * N > 1000 then a.random * N else a.random := by
  unfold randoms
  split_ifs with h
  · simp [List.length_flatMap]
  · simp

/-- **C102, partial.** With ordinary `K` values and at most 1000 random numbers there are four trials from the `K` values, one more if an aqueous
phase is expected, one per component and the number of random ones asked for. Missing: larger numbers, see
`C102_random_fails`. -/
theorem C102_count_partial (a : Args N) (hw : a.wilson = true) (hp : a.pure = true) (h : Ordinary a.K) (hr : a.random * N ≤ 1000) :
    (incipient a).length
      = (if a.expectLiquid = true ∧ a.expectAqueous = true ∧ a.water.isSome = true then 5 else 4) + N + a.random := by
  unfold incipient
  rw [List.length_append, List.length_append, wilsons_eq a hw h, randoms_length, if_neg (not_lt.2 hr)]
  unfold pures
  rw [if_pos hp, List.length_map, List.length_finRange]
  unfold aqueous
  rcases h1 : a.expectLiquid <;> rcases h2 : a.expectAqueous <;> rcases h3 : a.water <;> simp

/-- **C102 fails.** From 32 components on, `random=True` gives not one random trial per component but their square, and these repeat the same ones
over and over. -/
theorem C102_random_fails (a : Args N) (hN : 32 ≤ N) (hr : a.random = N) :
    (randoms a).length = N * N
    ∧ ∃ block : List (Comp N), block.length = N ∧ randoms a = (List.replicate N block).flatten := by
  have h : a.random * N > 1000 := by rw [hr]; nlinarith
  refine ⟨by rw [randoms_length, if_pos h, hr],
    (List.range N).map fun k => normalize fun j : Fin N => a.stream (k * N + j), by simp, ?_⟩
  unfold randoms
  rw [if_pos h, hr, List.flatMap_def]
  congr 1
  rw [List.map_const', List.length_range]

/-! ## Names of trials -/

/-- The trials are given the right names: the composition remade from the name of a trial is the trial. -/
def Right (a : Args N) (water : ℕ) (idx : ℕ) : Prop :=
  ∃ n x, nameOf N water a.expectLiquid a.expectAqueous idx = some n ∧ named a.K a.z a.zf n = .comp x ∧ (incipient a)[idx]? = some x

/-- **C102, partial.** The first four trials are given their names. Missing: the trials after them, see `C102_pure_name_fails`, and those with
`K` values of zero, see `C102_zero_name_fails`. -/
theorem C102_name_partial (a : Args N) (hw : a.wilson = true) (h : Ordinary a.K) (w : Fin N) (hwater : a.water = some w) (idx : ℕ)
    (hi : idx < 4) : Right a w idx := by
  have hl : (incipient a)[idx]? = (wilsons a)[idx]? := by
    unfold incipient
    rw [List.append_assoc, List.getElem?_append_left]
    rw [wilsons_eq a hw h]
    split_ifs
    · rw [List.length_append]; simp; omega
    · simpa using hi
  unfold Right
  rw [hl, wilsons_eq a hw h]
  unfold nameOf aqueous
  rw [if_pos hi, hwater]
  rcases a.expectLiquid <;> rcases a.expectAqueous <;>
    (interval_cases idx <;>
      simp [gasNames, liquidNames, named])

/-- **C102 fails.** Every trial nearly pure in a component is given the name of the next component, and the last one a name that no component has:
remaking the composition from that name is an exception. -/
theorem C102_pure_name_fails (a : Args N) (hw : a.wilson = true) (hp : a.pure = true) (h : Ordinary a.K) (hl : a.expectLiquid = false)
    (ha : a.expectAqueous = false) (k : Fin N) (water : ℕ) :
    (incipient a)[4 + (k : ℕ)]? = some (pureComp a.zf k)
    ∧ nameOf N water a.expectLiquid a.expectAqueous (4 + k) = some (.pure (k + 1))
    ∧ ((k : ℕ) + 1 = N → named a.K a.z a.zf (.pure (k + 1)) = .indexError)
    ∧ (a.zf < 1 / 2 → 0 ≤ a.zf → ∀ x, named a.K a.z a.zf (.pure (k + 1)) = .comp x → x ≠ pureComp a.zf k) := by
  refine ⟨?_, ?_, ?_, ?_⟩
  · unfold incipient
    rw [wilsons_eq a hw h, hl]
    unfold pures
    rw [if_pos hp, List.append_assoc, List.getElem?_append_right (by simp)]
    simp only [Bool.false_eq_true, if_false, List.length_cons, List.length_nil]
    rw [List.getElem?_append_left (by simp)]
    simp
  · have := k.2
    unfold nameOf
    rw [if_neg (by omega), ha, if_neg (by simp), if_pos (by omega)]
    congr 2
    omega
  · intro hk
    simp only [named]
    rw [dif_neg (by omega)]
  · intro hz hz0 x hx
    simp only [named] at hx
    split_ifs at hx with hk
    cases hx
    intro he
    have h1 := congrFun he k
    have hne : k ≠ ⟨(k : ℕ) + 1, hk⟩ := by
      intro h2
      have := congrArg Fin.val h2
      simp at this
    unfold pureComp at h1
    rw [if_neg hne, if_pos rfl] at h1
    have hN : (2 : ℝ) ≤ N := by
      have : 2 ≤ N := by have := k.2; omega
      exact_mod_cast this
    have : a.zf / (N - 1) ≤ a.zf := div_le_self hz0 (by linarith)
    linarith

/-- **C102 fails.** If a `K` value is zero, the third trial becomes the second and is given the name of the one left out. -/
theorem C102_zero_name_fails : ∃ a : Args 2, a.wilson = true ∧ Ok a ∧ anyZero a.K
    ∧ (incipient a)[1]? = some (gasThird a.K a.z)
    ∧ nameOf 2 0 a.expectLiquid a.expectAqueous 1 = some .wilsonLiquid := by
  refine ⟨⟨![1, 0], ![1 / 2, 1 / 2], true, true, false, false, 0, 1 / 10 ^ 6, none, fun _ => 1, fun _ => 1⟩, rfl, ?_, ⟨1, rfl⟩, ?_, rfl⟩
  · refine ⟨le_refl _, ⟨?_, ?_⟩, by norm_num, by norm_num, fun _ => one_pos, fun _ => one_pos, ?_, ⟨0, ?_⟩⟩
    · intro i; fin_cases i <;> norm_num
    · norm_num [Fin.sum_univ_two]
    · intro i; fin_cases i <;> norm_num
    · constructor <;> norm_num
  · have h1 : ¬ allZero ![(1 : ℝ), 0] := fun h => by have := h 0; norm_num at this
    have h2 : ¬ unlikely ![(1 : ℝ), 0] := fun h => by have := h 0; norm_num at this
    have h3 : anyZero ![(1 : ℝ), 0] := ⟨1, rfl⟩
    unfold incipient wilsons
    dsimp only
    rw [if_pos ⟨rfl, h1, h2⟩, if_neg (by simp), if_pos h3, if_pos h3]
    simp

/-- **C102 fails.** The stability test asks for names without saying that an aqueous phase was expected (flash_vl.py 608, 649): the
aqueous trial is called the liquid estimate of Wilson. With the right argument names end before the last trial from the `K` values. -/
theorem C102_aqueous_name_fails (a : Args N) (hw : a.wilson = true) (h : Ordinary a.K) (w : Fin N) (hwater : a.water = some w)
    (hl : a.expectLiquid = true) (ha : a.expectAqueous = true) :
    (incipient a)[0]? = some (pureComp a.zf w) ∧ nameOf N w a.expectLiquid false 0 = some .wilsonLiquid
    ∧ (incipient a)[4]? = some (gas a.K a.z) ∧ nameOf N w a.expectLiquid a.expectAqueous 4 = none := by
  have hws : wilsons a = [pureComp a.zf w, liquid a.K a.z, liquidThird a.K a.z, gasThird a.K a.z, gas a.K a.z] := by
    rw [wilsons_eq a hw h, hl]
    unfold aqueous
    rw [ha, hwater]
    simp
  unfold incipient
  rw [hws, hl, ha]
  refine ⟨by simp, by simp [nameOf, liquidNames], by simp, by simp [nameOf]⟩

/-- The premises: water and oil. -/
noncomputable def sample : Args 2 := ⟨![4, 1 / 4], ![1 / 2, 1 / 2], true, true, true, true, 2, 1 / 10 ^ 6, some 1, fun _ => 1, fun _ => 1⟩

example : Ok sample ∧ Ordinary sample.K ∧ sample.wilson = true ∧ sample.water = some 1 ∧ sample.random * 2 ≤ 1000 := by
  refine ⟨⟨le_refl _, ⟨?_, ?_⟩, by norm_num [sample], by norm_num [sample], fun _ => one_pos, fun _ => one_pos, ?_, ⟨0, ?_⟩⟩, ⟨?_, 0, ?_⟩, rfl, rfl, ?_⟩
  · intro i; fin_cases i <;> norm_num [sample]
  · norm_num [sample, Fin.sum_univ_two]
  · intro i; fin_cases i <;> norm_num [sample]
  · constructor <;> norm_num [sample]
  · intro i; fin_cases i <;> norm_num [sample]
  · norm_num [sample]
  · norm_num [sample]

/-! ## `guesses` and `guess_generator` (331-343, 488-542) -/

/-- A trial of any length. -/
abbrev Trial := Σ n, Comp n

/-- Options `Wilson`, `pure`, `random`: the last is off, `True`, or a number. -/
structure Opts where
  (wilson pure : Bool) (random : Option (Option ℕ))

/-- Lines 331-337: `n` compositions of `n` components. -/
noncomputable def randomGuesses (stream : ℕ → ℝ) (n : ℕ) : List Trial :=
  (List.range n).map fun k => ⟨n, normalize fun j : Fin n => stream (k * n + j)⟩

/-- Lines 341-342. -/
noncomputable def pureGuesses (N : ℕ) (zf : ℝ) : List Trial :=
  (List.finRange N).map fun k => ⟨N, normalize fun j : Fin N => if j ≠ k then zf else 1⟩

/-- Lines 345-354. -/
noncomputable def wilsonGuesses (K z : Comp N) : List Trial :=
  [⟨N, gas K z⟩, ⟨N, normalize fun i => K i ^ (-1 : ℝ) * z i⟩, ⟨N, gasThird K z⟩, ⟨N, liquidThird K z⟩]

/-- Lines 526-542, and 503-512. -/
noncomputable def guesses (K z : Comp N) (zf : ℝ) (stream : ℕ → ℝ) (o : Opts) : List Trial :=
  (if o.wilson then wilsonGuesses K z else []) ++ (if o.pure then pureGuesses N zf else [])
    ++ (match o.random with | none => [] | some none => randomGuesses stream N | some (some m) => randomGuesses stream m)

/-- Lines 494-501. -/
def maxGuesses (N : ℕ) (o : Opts) : ℕ :=
  (match o.random with | none => 0 | some none => N | some (some m) => m) + (4 + N)

/-- The loop of `guess_generator` (514-522): trials yielded, and whether it ends with an `IndexError`. -/
def popLoop {α : Type*} : ℕ → List α → List α × Bool
  | 0, _ => ([], false)
  | _ + 1, [] => ([], true)
  | n + 1, g :: gs => let r := popLoop n gs; (g :: r.1, r.2)

theorem popLoop_spec {α : Type*} (n : ℕ) (l : List α) (h : l.length ≤ n) : popLoop n l = (l, decide (l.length < n)) := by
  induction n generalizing l with
  | zero => rw [List.length_eq_zero_iff.1 (Nat.le_zero.1 h)]; rfl
  | succ n ih =>
    cases l with
    | nil => rfl
    | cons g gs =>
      have := ih gs (by simpa using h)
      unfold popLoop
      rw [this]
      simp

theorem guesses_length (K z : Comp N) (zf : ℝ) (stream : ℕ → ℝ) (o : Opts) :
    (guesses K z zf stream o).length = (if o.wilson then 4 else 0) + (if o.pure then N else 0)
      + (match o.random with | none => 0 | some none => N | some (some m) => m) := by
  unfold guesses
  rw [List.length_append, List.length_append]
  rcases o with ⟨w, p, r⟩
  rcases w <;> rcases p <;> rcases r with _ | _ | m <;> simp [wilsonGuesses, pureGuesses, randomGuesses]

/-- **C102.** The generator yields exactly the list of guesses. It ends without exception exactly if trials of Wilson and, with at least one component,
nearly pure ones are asked for. -/
theorem C102_generator (K z : Comp N) (zf : ℝ) (stream : ℕ → ℝ) (o : Opts) :
    (popLoop (maxGuesses N o) (guesses K z zf stream o)).1 = guesses K z zf stream o
    ∧ ((popLoop (maxGuesses N o) (guesses K z zf stream o)).2 = false ↔ o.wilson = true ∧ (o.pure = true ∨ N = 0)) := by
  have hl := guesses_length K z zf stream o
  have hle : (guesses K z zf stream o).length ≤ maxGuesses N o := by
    rw [hl]; unfold maxGuesses; split_ifs <;> omega
  rw [popLoop_spec _ _ hle]
  refine ⟨rfl, ?_⟩
  dsimp only
  rw [decide_eq_false_iff_not, hl]
  unfold maxGuesses
  rcases o with ⟨w, p, r⟩
  rcases w <;> rcases p <;> simp <;> omega

/-- **C102 fails.** A number of random guesses is taken as the number of components: none of them is a composition of the mixture unless the numbers agree. -/
theorem C102_random_size_fails (K z : Comp N) (zf : ℝ) (stream : ℕ → ℝ) (m : ℕ) (hm : m ≠ N) :
    ∀ t ∈ guesses K z zf stream ⟨false, false, some (some m)⟩, t.1 ≠ N := by
  intro t ht
  unfold guesses randomGuesses at ht
  simp only [Bool.false_eq_true, if_false, List.nil_append] at ht
  obtain ⟨k, -, rfl⟩ := List.mem_map.1 ht
  exact hm

/-- **C102, partial.** With positive `K` values and without a number of random guesses, all guesses are compositions of the mixture. Missing: see
`C102_random_size_fails`. -/
theorem C102_guesses_partial (K z : Comp N) (zf : ℝ) (stream : ℕ → ℝ) (o : Opts) (hK : ∀ i, 0 < K i) (hz : IsComp z) (hf : 0 ≤ zf)
    (hs : ∀ m, 0 < stream m) (ho : o.random = none ∨ o.random = some none) :
    ∀ t ∈ guesses K z zf stream o, ∃ x : Comp N, t = ⟨N, x⟩ ∧ IsComp x := by
  obtain ⟨i, hi⟩ : ∃ i, 0 < z i := by
    by_contra hc
    push Not at hc
    have : ∑ i, z i ≤ 0 := Finset.sum_nonpos fun i _ => hc i
    rw [hz.2] at this
    linarith
  have hr : ∀ p : ℝ, IsComp (normalize fun i => K i ^ p * z i) := fun p =>
    normalize_comp _ (fun j => mul_nonneg (Real.rpow_nonneg (hK j).le _) (hz.1 j)) i (mul_pos (Real.rpow_pos_of_pos (hK i) _) hi)
  intro t ht
  unfold guesses at ht
  rw [List.mem_append, List.mem_append] at ht
  rcases ht with (ht | ht) | ht
  · split_ifs at ht
    · simp only [wilsonGuesses, List.mem_cons, List.not_mem_nil, or_false] at ht
      rcases ht with rfl | rfl | rfl | rfl
      · exact ⟨_, rfl, normalize_comp _ (fun j => mul_nonneg (hK j).le (hz.1 j)) i (mul_pos (hK i) hi)⟩
      · exact ⟨_, rfl, hr _⟩
      · exact ⟨_, rfl, hr _⟩
      · exact ⟨_, rfl, hr _⟩
    · cases ht
  · split_ifs at ht
    · unfold pureGuesses at ht
      obtain ⟨k, -, rfl⟩ := List.mem_map.1 ht
      refine ⟨_, rfl, normalize_comp _ (fun j => ?_) k (by simp)⟩
      split_ifs
      · exact hf
      · exact zero_le_one
    · cases ht
  · have : ∃ k ∈ List.range N, (⟨N, normalize fun j : Fin N => stream (k * N + j)⟩ : Trial) = t := by
      rcases ho with ho | ho
      · rw [ho] at ht; cases ht
      · rw [ho] at ht
        exact List.mem_map.1 ht
    obtain ⟨k, -, rfl⟩ := this
    exact ⟨_, rfl, normalize_comp _ (fun j => (hs _).le) i (hs _)⟩

/-- **C102.** The trials of Wilson in both lists are the same. -/
theorem C102_same (K z : Comp N) (hK : ∀ i, 0 < K i) :
    wilsonGuesses K z = [⟨N, gas K z⟩, ⟨N, liquid K z⟩, ⟨N, gasThird K z⟩, ⟨N, liquidThird K z⟩] := by
  have : (fun i => K i ^ (-1 : ℝ) * z i) = fun i => z i / K i := by
    funext i
    rw [Real.rpow_neg_one, inv_mul_eq_div]
  unfold wilsonGuesses liquid
  rw [this]

example : (∀ i, 0 < sample.K i) ∧ IsComp sample.z := by
  refine ⟨fun i => ?_, fun i => ?_, ?_⟩
  · fin_cases i <;> norm_num [sample]
  · fin_cases i <;> norm_num [sample]
  · norm_num [sample, Fin.sum_univ_two]

/-! ## Stationary points (279-328) -/

/-- The variables of the unconstrained search (291). -/
noncomputable def toAlpha (y : ℝ) : ℝ := y ^ ((1 : ℝ) / 2) * 2

/-- Line 295. -/
noncomputable def ofAlpha (alpha : ℝ) : ℝ := (alpha / 2) ^ 2

/-- **C102.** The variables of the unconstrained search stand for the guess they are made from, and any values of them but zero
give a composition. -/
theorem C102_alpha : (∀ y, 0 ≤ y → ofAlpha (toAlpha y) = y)
    ∧ ∀ (alpha : Comp N), (∃ i, alpha i ≠ 0) → IsComp (normalize fun i => ofAlpha (alpha i)) := by
  refine ⟨fun y hy => ?_, fun alpha ⟨i, hi⟩ => normalize_comp _ (fun j => sq_nonneg _) i ?_⟩
  · unfold ofAlpha toAlpha
    rw [mul_div_assoc, div_self two_ne_zero, mul_one, ← Real.sqrt_eq_rpow, Real.sq_sqrt hy]
  · unfold ofAlpha; positivity

/-- The result of the constrained search (324-325). -/
def closeSum {n : ℕ} (ans : Comp n) : Comp (n + 1) := Fin.snoc (fun i => |ans i|) (1 - ∑ i, |ans i|)

/-- The constraint (309-310). -/
def Constraint {n : ℕ} (ans : Comp n) : Prop := 0 ≤ 1 - ∑ i, ans i

/-- **C102, partial.** The fractions from the constrained search add to one, and if those found are not negative and meet the constraint, they are a
composition. Missing: see `C102_constraint_fails`. -/
theorem C102_constrained_partial {n : ℕ} (ans : Comp n) :
    ∑ i, closeSum ans i = 1 ∧ ((∀ i, 0 ≤ ans i) → Constraint ans → IsComp (closeSum ans)) := by
  have h : ∑ i, closeSum ans i = 1 := by
    rw [Fin.sum_univ_castSucc]
    unfold closeSum
    simp
  refine ⟨h, fun h0 hc => ⟨fun i => ?_, h⟩⟩
  refine Fin.lastCases ?_ (fun j => ?_) i
  · unfold closeSum
    rw [Fin.snoc_last, Finset.sum_congr rfl fun i _ => abs_of_nonneg (h0 i)]
    exact hc
  · unfold closeSum
    rw [Fin.snoc_castSucc]
    exact abs_nonneg _

example : (∀ i, 0 ≤ (![1 / 4, 1 / 2] : Comp 2) i) ∧ Constraint (![1 / 4, 1 / 2] : Comp 2) := by
  refine ⟨fun i => ?_, ?_⟩
  · fin_cases i <;> norm_num
  · norm_num [Constraint, Fin.sum_univ_two]

/-- **C102 fails.** The search is not kept from negative fractions; their signs are dropped afterwards, so a point that meets the constraint
can give a negative fraction. -/
theorem C102_constraint_fails : ∃ ans : Comp 2, Constraint ans ∧ closeSum ans (Fin.last 2) < 0 := by
  refine ⟨![-1 / 2, 6 / 5], by norm_num [Constraint, Fin.sum_univ_two], ?_⟩
  unfold closeSum
  rw [Fin.snoc_last, Fin.sum_univ_two]
  norm_num [abs_of_pos, abs_of_neg]

end Verif.FlashTrials
