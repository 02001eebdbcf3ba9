import Mathlib.Data.Real.Basic
import Mathlib.Analysis.SpecialFunctions.Log.Basic
import Mathlib.Analysis.SpecialFunctions.Exp
import Mathlib.Tactic.Ring
import Mathlib.Tactic.Linarith
import Mathlib.Tactic.FieldSimp
import Mathlib.Tactic.NormNum
import Mathlib.Algebra.BigOperators.Fin
import Mathlib.Algebra.Order.BigOperators.Ring.Finset
import Mathlib.Data.List.InsertIdx

/-!
# Sequential substitution (`thermo/flash/flash_utils.py` 153-498)

C90: what a converged sequential substitution returns: material balance, compositions and equality of fugacities, for two
phases (`sequential_substitution_2P`, its functional version) and for any number of them
(`sequential_substitution_NP`).

Temperature and pressure are fixed, so a phase is its function from composition to logarithms of fugacity
coefficients. The solution of the Rachford-Rice equations is an external function given by its contract. Overflow of the
exponential is not modelled. A division by `y i = 0` is skipped by the code and by the model.
-/

namespace Verif.FlashSS

open scoped BigOperators

/-- A composition. -/
abbrev Comp (n : ℕ) := Fin n → ℝ

/-- What the Rachford-Rice solver is asked for: `none` is an exception, else vapor fraction, `xs` and `ys`. -/
abbrev Inner (n : ℕ) := Comp n → ℝ → Option (ℝ × Comp n × Comp n)

/-- Contract of `flash_inner_loop` of `chemicals`: a solution of the Rachford-Rice equation at which all denominators are
positive, and its compositions. -/
def InnerOk {n : ℕ} (zs : Comp n) (inner : Inner n) : Prop :=
  ∀ Ks g V xs ys, inner Ks g = some (V, xs, ys) →
    (∀ i, 0 < 1 + V * (Ks i - 1)) ∧ (∀ i, xs i = zs i / (1 + V * (Ks i - 1))) ∧ (∀ i, ys i = Ks i * xs i)
      ∧ ∑ i, zs i * (Ks i - 1) / (1 + V * (Ks i - 1)) = 0

/-- The problem. -/
structure Prob (n : ℕ) where
  zs : Comp n
  lnphiL : Comp n → Comp n
  lnphiG : Comp n → Comp n
  inner : Inner n
  tol : ℝ
  trivialTol : ℝ
  /-- `sequential_substitution_2P_functional` -/
  functional : Bool

/-- Loop variables: compositions, vapor fraction, the last three errors and the number of increases (158-168). -/
structure St (n : ℕ) where
  xs : Comp n
  ys : Comp n
  V : ℝ
  (e1 e2 e3 : ℝ)
  rises : ℕ

/-- Results: the fraction, the compositions, and the compositions of the phase objects. -/
structure Out (n : ℕ) where
  V : ℝ
  xs : Comp n
  ys : Comp n
  lComp : Comp n
  gComp : Comp n
  err : ℝ
  iteration : ℕ

/-- Exceptions. -/
inductive Err
  | oscillation | trivialSolution | unconverged | rachfordRice
  deriving DecidableEq

/-- `K_i` (190). -/
noncomputable def Ks {n : ℕ} (p : Prob n) (xs ys : Comp n) : Comp n := fun i => Real.exp (p.lnphiL xs i - p.lnphiG ys i)

/-- Lines 272-290: a composition with a negative entry is replaced by its normalised absolute values. -/
noncomputable def renorm {n : ℕ} (xs : Comp n) : Comp n :=
  open Classical in if ∃ i, xs i < 0 then fun i => |xs i| * (1 / ∑ j, |xs j|) else xs

/-- Lines 295-302. -/
noncomputable def errOf {n : ℕ} (K xs ys : Comp n) : ℝ :=
  open Classical in ∑ i, if ys i ≠ 0 then (K i * xs i / ys i - 1) * (K i * xs i / ys i - 1) else 0

/-- Lines 316-318. -/
noncomputable def compDiff {n : ℕ} (xs ys : Comp n) : ℝ := ∑ i, |xs i - ys i|

/-- Line 304. -/
def Cycling {n : ℕ} (s : St n) (err : ℝ) : Prop := (0 < err ∧ (err = s.e1 ∨ err = s.e2 ∨ err = s.e3)) ∨ 3 < s.rises

/-- The state of the next iteration (335-338). -/
noncomputable def next {n : ℕ} (s : St n) (V : ℝ) (xs ys : Comp n) (err : ℝ) : St n :=
  open Classical in
  { xs := xs, ys := ys, V := V, e1 := err, e2 := s.e1, e3 := s.e2
    rises := if s.e1 ≠ 0 ∧ 20 < |err / s.e1| then s.rises + 1 else s.rises }

/-- The loop (177-339, 353-410). -/
noncomputable def run {n : ℕ} (p : Prob n) : ℕ → ℕ → St n → Except Err (Out n)
  | 0, _, _ => .error .unconverged
  | fuel + 1, it, s =>
    match p.inner (Ks p s.xs s.ys) s.V with
    | none => .error .rachfordRice
    | some (V, xs0, ys0) =>
      open Classical in
      if Cycling s (errOf (Ks p s.xs s.ys) s.xs s.ys) then .error .oscillation
      else if (if p.functional then compDiff s.xs s.ys else compDiff (renorm xs0) (renorm ys0)) < p.trivialTol then
        .error .trivialSolution
      else if errOf (Ks p s.xs s.ys) s.xs s.ys < p.tol then
        .ok (if it = 0 then
            ⟨V, renorm xs0, renorm ys0, renorm xs0, renorm ys0, errOf (Ks p s.xs s.ys) s.xs s.ys, it⟩
          else ⟨s.V, s.xs, s.ys, s.xs, s.ys, errOf (Ks p s.xs s.ys) s.xs s.ys, it⟩)
      else run p fuel (it + 1) (next s V (renorm xs0) (renorm ys0) (errOf (Ks p s.xs s.ys) s.xs s.ys))

/-- Start (158-168). -/
def start {n : ℕ} (xs ys : Comp n) (V : ℝ) : St n := ⟨xs, ys, V, 0, 0, 0, 0⟩

/-- Feed and the two parts agree. -/
def Balanced {n : ℕ} (zs : Comp n) (V : ℝ) (xs ys : Comp n) : Prop := ∀ i, (1 - V) * xs i + V * ys i = zs i

/-- Mole fractions. -/
def IsComp {n : ℕ} (xs : Comp n) : Prop := (∀ i, 0 ≤ xs i) ∧ ∑ i, xs i = 1

theorem renorm_of_nonneg {n : ℕ} (xs : Comp n) (h : ∀ i, 0 ≤ xs i) : renorm xs = xs := by
  unfold renorm
  rw [if_neg]
  rintro ⟨i, hi⟩
  linarith [h i]

/-- The solver's contract gives balanced compositions. -/
theorem inner_balanced {n : ℕ} {zs : Comp n} {inner : Inner n} (h : InnerOk zs inner) (hz : IsComp zs) {K : Comp n}
    (hK : ∀ i, 0 < K i) {g V : ℝ} {xs ys : Comp n} (he : inner K g = some (V, xs, ys)) :
    Balanced zs V xs ys ∧ IsComp xs ∧ IsComp ys := by
  obtain ⟨hd, hx, hy, hr⟩ := h K g V xs ys he
  have hx0 : ∀ i, 0 ≤ xs i := fun i => by rw [hx i]; exact div_nonneg (hz.1 i) (hd i).le
  have hxz : ∀ i, xs i * (1 + V * (K i - 1)) = zs i := fun i => by rw [hx i]; exact div_mul_cancel₀ _ (hd i).ne'
  have hs0 : ∑ i, xs i * (K i - 1) = 0 := by
    rw [← hr]
    exact Finset.sum_congr rfl fun i _ => by rw [hx i]; ring
  have hs1 : ∑ i, xs i = 1 := by
    have : ∑ i, xs i * (1 + V * (K i - 1)) = 1 := (Finset.sum_congr rfl fun i _ => hxz i).trans hz.2
    have h2 : ∑ i, xs i * (1 + V * (K i - 1)) = ∑ i, xs i + V * ∑ i, xs i * (K i - 1) := by
      rw [Finset.mul_sum, ← Finset.sum_add_distrib]
      exact Finset.sum_congr rfl fun i _ => by ring
    rw [h2, hs0] at this
    linarith
  have hys : ∑ i, ys i = 1 := by
    have : ∑ i, ys i = ∑ i, xs i * (K i - 1) + ∑ i, xs i := by
      rw [← Finset.sum_add_distrib]
      exact Finset.sum_congr rfl fun i _ => by rw [hy i]; ring
    rw [this, hs0, hs1, zero_add]
  refine ⟨fun i => ?_, ⟨hx0, hs1⟩, ⟨fun i => ?_, hys⟩⟩
  · rw [hy i, ← hxz i]
    ring
  · rw [hy i]
    exact mul_nonneg (hK i).le (hx0 i)

theorem Ks_pos {n : ℕ} (p : Prob n) (xs ys : Comp n) (i : Fin n) : 0 < Ks p xs ys i := Real.exp_pos _

/-- What is known of the state after the first iteration. -/
def Good {n : ℕ} (p : Prob n) (s : St n) : Prop :=
  Balanced p.zs s.V s.xs s.ys ∧ IsComp s.xs ∧ IsComp s.ys

theorem run_good {n : ℕ} (p : Prob n) (hin : InnerOk p.zs p.inner) (hz : IsComp p.zs) (fuel it : ℕ) (s : St n)
    (hs : it = 0 ∨ Good p s) (o : Out n) (h : run p fuel it s = .ok o) :
    Balanced p.zs o.V o.xs o.ys ∧ IsComp o.xs ∧ IsComp o.ys ∧ o.lComp = o.xs ∧ o.gComp = o.ys ∧ o.err < p.tol
      ∧ (o.iteration ≠ 0 → o.err = errOf (Ks p o.xs o.ys) o.xs o.ys) := by
  induction fuel generalizing it s with
  | zero => cases h
  | succ fuel ih =>
    unfold run at h
    split at h
    · cases h
    · rename_i V xs0 ys0 he
      obtain ⟨hb, hx, hy⟩ := inner_balanced hin hz (Ks_pos p s.xs s.ys) he
      rw [renorm_of_nonneg xs0 hx.1, renorm_of_nonneg ys0 hy.1] at h
      by_cases h1 : Cycling s (errOf (Ks p s.xs s.ys) s.xs s.ys)
      · rw [if_pos h1] at h; cases h
      rw [if_neg h1] at h
      by_cases h2 : (if p.functional then compDiff s.xs s.ys else compDiff xs0 ys0) < p.trivialTol
      · rw [if_pos h2] at h; cases h
      rw [if_neg h2] at h
      by_cases h3 : errOf (Ks p s.xs s.ys) s.xs s.ys < p.tol
      · rw [if_pos h3, Except.ok.injEq] at h
        by_cases h4 : it = 0
        · rw [if_pos h4] at h
          subst h
          exact ⟨hb, hx, hy, rfl, rfl, h3, fun h5 => (h5 h4).elim⟩
        · rw [if_neg h4] at h
          subst h
          obtain ⟨g1, g2, g3⟩ := hs.resolve_left h4
          exact ⟨g1, g2, g3, rfl, rfl, h3, fun _ => rfl⟩
      · rw [if_neg h3] at h
        exact ih (it + 1) _ (Or.inr ⟨hb, hx, hy⟩) h

/-- **C90.** What a two phase sequential substitution returns for a feed of mole fractions are two sets of mole fractions
that with the fraction make up the feed, and phases of these compositions. -/
theorem C90_balance {n : ℕ} (p : Prob n) (hin : InnerOk p.zs p.inner) (hz : IsComp p.zs) (maxiter : ℕ) (xs ys : Comp n)
    (V : ℝ) (o : Out n) (h : run p maxiter 0 (start xs ys V) = .ok o) :
    (∀ i, (1 - o.V) * o.lComp i + o.V * o.gComp i = p.zs i)
      ∧ ((∀ i, 0 ≤ o.lComp i) ∧ ∑ i, o.lComp i = 1) ∧ ((∀ i, 0 ≤ o.gComp i) ∧ ∑ i, o.gComp i = 1)
      ∧ o.lComp = o.xs ∧ o.gComp = o.ys := by
  obtain ⟨h1, h2, h3, h4, h5, -, -⟩ := run_good p hin hz maxiter 0 _ (Or.inl rfl) o h
  rw [h4, h5]
  exact ⟨h1, h2, h3, rfl, rfl⟩

/-- **C90.** If more than one iteration was made, the fugacities `x_i φ_i P` in the two returned phases agree for every
component present in the second one: the squares of the relative differences add up to less than the tolerance. -/
theorem C90_fugacity {n : ℕ} (p : Prob n) (hin : InnerOk p.zs p.inner) (hz : IsComp p.zs) (maxiter : ℕ) (xs ys : Comp n)
    (V : ℝ) (o : Out n) (h : run p maxiter 0 (start xs ys V) = .ok o) (hit : o.iteration ≠ 0) (i : Fin n)
    (hi : o.gComp i ≠ 0) (P : ℝ) (hP : 0 < P) :
    ((Real.exp (p.lnphiL o.lComp i) * o.lComp i * P) / (Real.exp (p.lnphiG o.gComp i) * o.gComp i * P) - 1) ^ 2 < p.tol := by
  classical
  obtain ⟨-, -, -, h4, h5, h6, h7⟩ := run_good p hin hz maxiter 0 _ (Or.inl rfl) o h
  rw [h5] at hi
  rw [h4, h5]
  rw [h7 hit] at h6
  refine lt_of_le_of_lt ?_ h6
  unfold errOf
  have hg : ∀ j ∈ Finset.univ, 0 ≤ (if o.ys j ≠ 0 then (Ks p o.xs o.ys j * o.xs j / o.ys j - 1)
      * (Ks p o.xs o.ys j * o.xs j / o.ys j - 1) else 0 : ℝ) := by
    intro j _
    split_ifs
    · exact mul_self_nonneg _
    · exact le_refl 0
  refine le_trans (le_of_eq ?_) (Finset.single_le_sum hg (Finset.mem_univ i))
  rw [if_pos hi]
  unfold Ks
  rw [Real.exp_sub]
  have := Real.exp_pos (p.lnphiG o.ys i)
  field_simp

/-- **C90.** The loop goes on, without being taken for a cycle, as long as the errors are smaller than the three before
them and have not risen more than twenty-fold more than three times; and only such rises are counted. -/
theorem C90_progress {n : ℕ} (s : St n) (err V : ℝ) (xs ys : Comp n) :
    (err < s.e1 → err < s.e2 → err < s.e3 → s.rises ≤ 3 → ¬ Cycling s err)
      ∧ (0 < s.e1 → 0 ≤ err → err ≤ 20 * s.e1 → (next s V xs ys err).rises = s.rises)
      ∧ (0 < s.e1 → 20 * s.e1 < err → (next s V xs ys err).rises = s.rises + 1) := by
  refine ⟨?_, ?_, ?_⟩
  · rintro h1 h2 h3 h4 (⟨-, h | h | h⟩ | h)
    · linarith
    · linarith
    · linarith
    · omega
  · intro h1 h2 h3
    unfold next
    dsimp only
    rw [if_neg]
    rintro ⟨-, h⟩
    rw [abs_of_nonneg (div_nonneg h2 h1.le), lt_div_iff₀ h1] at h
    linarith
  · intro h1 h2
    unfold next
    dsimp only
    rw [if_pos]
    refine ⟨h1.ne', ?_⟩
    rw [abs_of_nonneg (div_nonneg (by linarith) h1.le), lt_div_iff₀ h1]
    exact h2

theorem run_trivial {n : ℕ} (p : Prob n) (hf : p.functional = false) (fuel it : ℕ) (s : St n)
    (hs : it = 0 ∨ p.trivialTol ≤ compDiff s.xs s.ys) (o : Out n) (h : run p fuel it s = .ok o) :
    p.trivialTol ≤ compDiff o.xs o.ys := by
  induction fuel generalizing it s with
  | zero => cases h
  | succ fuel ih =>
    unfold run at h
    split at h
    · cases h
    · rename_i V xs0 ys0 he
      rw [hf, if_neg Bool.false_ne_true] at h
      split_ifs at h with h1 h2 h3 h4
      · rw [Except.ok.injEq] at h
        subst h
        exact not_lt.1 h2
      · rw [Except.ok.injEq] at h
        subst h
        exact hs.resolve_left h4
      · exact ih (it + 1) _ (Or.inr (not_lt.1 h2)) h

/-- **C90.** The two compositions returned are not the same: they differ at least by the tolerance. -/
theorem C90_distinct {n : ℕ} (p : Prob n) (hf : p.functional = false) (maxiter : ℕ) (xs ys : Comp n)
    (V : ℝ) (o : Out n) (h : run p maxiter 0 (start xs ys V) = .ok o) : p.trivialTol ≤ ∑ i, |o.xs i - o.ys i| :=
  run_trivial p hf maxiter 0 _ (Or.inl rfl) o h

/-! ### Single steps, for the examples -/

theorem run_stop {n : ℕ} (p : Prob n) (hf : p.functional = false) (fuel it : ℕ) (s : St n) {V : ℝ} {xs ys : Comp n}
    (hi : p.inner (Ks p s.xs s.ys) s.V = some (V, xs, ys)) (hx : ∀ i, 0 ≤ xs i) (hy : ∀ i, 0 ≤ ys i) {e : ℝ}
    (he : errOf (Ks p s.xs s.ys) s.xs s.ys = e) (hc : ¬ Cycling s e) (ht : p.trivialTol ≤ compDiff xs ys)
    (hlt : e < p.tol) :
    run p (fuel + 1) it s = .ok (if it = 0 then ⟨V, xs, ys, xs, ys, e, it⟩ else ⟨s.V, s.xs, s.ys, s.xs, s.ys, e, it⟩) := by
  unfold run
  rw [hi]
  dsimp only
  subst he
  rw [if_neg hc, renorm_of_nonneg xs hx, renorm_of_nonneg ys hy, if_neg, if_pos hlt]
  rw [hf, if_neg Bool.false_ne_true]
  exact not_lt.2 ht

theorem run_go {n : ℕ} (p : Prob n) (hf : p.functional = false) (fuel it : ℕ) (s : St n) {V : ℝ} {xs ys : Comp n}
    (hi : p.inner (Ks p s.xs s.ys) s.V = some (V, xs, ys)) (hx : ∀ i, 0 ≤ xs i) (hy : ∀ i, 0 ≤ ys i) {e : ℝ}
    (he : errOf (Ks p s.xs s.ys) s.xs s.ys = e) (hc : ¬ Cycling s e) (ht : p.trivialTol ≤ compDiff xs ys)
    (hlt : p.tol ≤ e) :
    run p (fuel + 1) it s = run p fuel (it + 1) (next s V xs ys e) := by
  conv_lhs => unfold run
  rw [hi]
  dsimp only
  subst he
  rw [if_neg hc, renorm_of_nonneg xs hx, renorm_of_nonneg ys hy, if_neg, if_neg (not_lt.2 hlt)]
  rw [hf, if_neg Bool.false_ne_true]
  exact not_lt.2 ht

/-! ### Failure in the first iteration -/

/-- Feed of the examples. -/
noncomputable def zDemo : Comp 3 := ![2 / 5, 2 / 5, 1 / 5]

/-- Ratios of the examples. -/
noncomputable def kDemo : Comp 3 := ![2, 1 / 2, 1]

/-- The Rachford-Rice solution for these ratios. -/
noncomputable def innerDemo : Inner 3 := fun K _ =>
  open Classical in if K = kDemo then some (1 / 2, ![4 / 15, 8 / 15, 1 / 5], ![8 / 15, 4 / 15, 1 / 5]) else none

theorem innerDemo_ok : InnerOk zDemo innerDemo := by
  classical
  intro K g V xs ys h
  unfold innerDemo at h
  split_ifs at h with hK
  simp only [Option.some.injEq, Prod.mk.injEq] at h
  obtain ⟨rfl, rfl, rfl⟩ := h
  subst hK
  refine ⟨?_, ?_, ?_, ?_⟩
  · intro i; fin_cases i <;> simp [kDemo] <;> norm_num
  · intro i; fin_cases i <;> simp [kDemo, zDemo] <;> norm_num
  · intro i; fin_cases i <;> simp [kDemo] <;> norm_num
  · simp [Fin.sum_univ_three, kDemo, zDemo]; norm_num

theorem zDemo_comp : IsComp zDemo := by
  refine ⟨?_, ?_⟩
  · intro i; fin_cases i <;> simp [zDemo] <;> norm_num
  · simp [Fin.sum_univ_three, zDemo]; norm_num

theorem xDemo_nonneg : ∀ i, (0 : ℝ) ≤ (![4 / 15, 8 / 15, 1 / 5] : Comp 3) i := by
  intro i; fin_cases i <;> simp <;> norm_num

theorem yDemo_nonneg : ∀ i, (0 : ℝ) ≤ (![8 / 15, 4 / 15, 1 / 5] : Comp 3) i := by
  intro i; fin_cases i <;> simp <;> norm_num

theorem demo_diff : compDiff (![4 / 15, 8 / 15, 1 / 5] : Comp 3) ![8 / 15, 4 / 15, 1 / 5] = 8 / 15 := by
  simp only [compDiff, Fin.sum_univ_three, Matrix.cons_val_zero, Matrix.cons_val_one, Matrix.cons_val_two,
    Matrix.tail_cons, Matrix.head_cons]
  rw [show (4 / 15 - 8 / 15 : ℝ) = -(4 / 15) by norm_num, abs_neg, show (8 / 15 - 4 / 15 : ℝ) = 4 / 15 by norm_num,
    sub_self, abs_zero, abs_of_pos (by norm_num)]
  norm_num

theorem innerDemo_k (g : ℝ) : innerDemo kDemo g = some (1 / 2, ![4 / 15, 8 / 15, 1 / 5], ![8 / 15, 4 / 15, 1 / 5]) := by
  unfold innerDemo
  rw [if_pos rfl]

/-- An ideal liquid: constant ratios. -/
noncomputable def ideal : Prob 3 where
  zs := zDemo
  lnphiL := fun _ => ![Real.log 2, -Real.log 2, 0]
  lnphiG := fun _ => 0
  inner := innerDemo
  tol := 1 / 1000
  trivialTol := 1 / 100000
  functional := false

theorem ideal_K (xs ys : Comp 3) : Ks ideal xs ys = kDemo := by
  have h2 : Real.exp (Real.log 2) = 2 := Real.exp_log (by norm_num)
  funext i
  fin_cases i
  · simp [Ks, ideal, kDemo, h2]
  · simp [Ks, ideal, kDemo, Real.exp_neg, h2]
  · simp [Ks, ideal, kDemo]

/-- The premises of the theorems above are met by a run of two iterations. -/
example : ∃ o, run ideal 5 0 (start ![1 / 3, 1 / 3, 1 / 3] ![1 / 3, 1 / 3, 1 / 3] (1 / 2)) = .ok o ∧ o.iteration = 1
    ∧ InnerOk ideal.zs ideal.inner ∧ IsComp ideal.zs := by
  classical
  have he0 : errOf kDemo (![1 / 3, 1 / 3, 1 / 3] : Comp 3) ![1 / 3, 1 / 3, 1 / 3] = 5 / 4 := by
    simp [errOf, Fin.sum_univ_three, kDemo]; norm_num
  have he1 : errOf kDemo (![4 / 15, 8 / 15, 1 / 5] : Comp 3) ![8 / 15, 4 / 15, 1 / 5] = 0 := by
    simp [errOf, Fin.sum_univ_three, kDemo]; norm_num
  have c0 : ¬ Cycling (start (![1 / 3, 1 / 3, 1 / 3] : Comp 3) ![1 / 3, 1 / 3, 1 / 3] (1 / 2)) (5 / 4) := by
    rintro (⟨-, h | h | h⟩ | h)
    · norm_num [start] at h
    · norm_num [start] at h
    · norm_num [start] at h
    · simp [start] at h
  have hin : ∀ s : St 3, ideal.inner (Ks ideal s.xs s.ys) s.V
      = some (1 / 2, ![4 / 15, 8 / 15, 1 / 5], ![8 / 15, 4 / 15, 1 / 5]) := by
    intro s
    rw [ideal_K]
    exact innerDemo_k s.V
  have step := run_go ideal rfl 4 0 (start ![1 / 3, 1 / 3, 1 / 3] ![1 / 3, 1 / 3, 1 / 3] (1 / 2)) (hin _)
    xDemo_nonneg yDemo_nonneg (e := 5 / 4) (by rw [ideal_K]; exact he0) c0
    (by rw [demo_diff]; norm_num [ideal]) (by norm_num [ideal])
  rw [step]
  have stop := run_stop ideal rfl 3 (0 + 1) (next (start ![1 / 3, 1 / 3, 1 / 3] ![1 / 3, 1 / 3, 1 / 3] (1 / 2)) (1 / 2)
    ![4 / 15, 8 / 15, 1 / 5] ![8 / 15, 4 / 15, 1 / 5] (5 / 4)) (hin _) xDemo_nonneg
    yDemo_nonneg (e := 0) (by rw [ideal_K]; exact he1) (by
      rintro (⟨h, -⟩ | h)
      · exact lt_irrefl _ h
      · simp [start, next] at h) (by rw [demo_diff]; norm_num [ideal]) (by norm_num [ideal])
  exact ⟨_, stop, by rw [if_neg (by omega)], innerDemo_ok, zDemo_comp⟩

/-- A liquid whose fugacity coefficients depend on the amount of the third component. -/
noncomputable def curved : Prob 3 where
  zs := zDemo
  lnphiL := fun xs => ![4 * xs 2 * Real.log 2, -(4 * xs 2 * Real.log 2), 0]
  lnphiG := fun _ => 0
  inner := innerDemo
  tol := 1 / 10 ^ 13
  trivialTol := 1 / 100000
  functional := false

/-- **C90 fails.** In the first iteration the error is that of the guesses but the compositions returned are others: the
fugacities of the returned phases differ by more than a tenth, with an error of zero reported. -/
theorem C90_first_fails : ∃ (xs ys : Comp 3) (o : Out 3), run curved 1000 0 (start xs ys (1 / 2)) = .ok o ∧ o.err = 0
    ∧ o.gComp 0 ≠ 0
    ∧ Real.exp (curved.lnphiL o.lComp 0) * o.lComp 0
        < 9 / 10 * (Real.exp (curved.lnphiG o.gComp 0) * o.gComp 0) := by
  classical
  have h2 : Real.exp (Real.log 2) = 2 := Real.exp_log (by norm_num)
  have hK : Ks curved ![1 / 4, 1 / 2, 1 / 4] ![1 / 2, 1 / 4, 1 / 4] = kDemo := by
    funext i
    fin_cases i
    · simp [Ks, curved, kDemo, h2]
    · simp [Ks, curved, kDemo, Real.exp_neg, h2]
    · simp [Ks, curved, kDemo]
  have he : errOf kDemo (![1 / 4, 1 / 2, 1 / 4] : Comp 3) ![1 / 2, 1 / 4, 1 / 4] = 0 := by
    simp [errOf, Fin.sum_univ_three, kDemo]; norm_num
  refine ⟨![1 / 4, 1 / 2, 1 / 4], ![1 / 2, 1 / 4, 1 / 4],
    ⟨1 / 2, ![4 / 15, 8 / 15, 1 / 5], ![8 / 15, 4 / 15, 1 / 5], ![4 / 15, 8 / 15, 1 / 5], ![8 / 15, 4 / 15, 1 / 5], 0, 0⟩,
    ?_, rfl, ?_, ?_⟩
  · have hin : curved.inner (Ks curved ![1 / 4, 1 / 2, 1 / 4] ![1 / 2, 1 / 4, 1 / 4]) (1 / 2)
        = some (1 / 2, ![4 / 15, 8 / 15, 1 / 5], ![8 / 15, 4 / 15, 1 / 5]) := by
      rw [hK]
      exact innerDemo_k (1 / 2)
    have he' : errOf (Ks curved ![1 / 4, 1 / 2, 1 / 4] ![1 / 2, 1 / 4, 1 / 4]) ![1 / 4, 1 / 2, 1 / 4]
        ![1 / 2, 1 / 4, 1 / 4] = 0 := by
      rw [hK]
      exact he
    have stop := run_stop curved rfl 999 0 (start ![1 / 4, 1 / 2, 1 / 4] ![1 / 2, 1 / 4, 1 / 4] (1 / 2)) hin
      xDemo_nonneg yDemo_nonneg (e := 0) he' (by
        rintro (⟨h, -⟩ | h)
        · exact lt_irrefl _ h
        · simp [start] at h) (by rw [demo_diff]; norm_num [curved]) (by norm_num [curved])
    rw [stop, if_pos rfl]
  · norm_num
  · have hl : Real.exp (4 * (1 / 5) * Real.log 2) < 9 / 5 := by
      -- the fifth power of the left side is sixteen
      have h5 : Real.exp (4 * (1 / 5) * Real.log 2) ^ 5 = 16 := by
        rw [← Real.exp_nat_mul, show ((5 : ℕ) : ℝ) * (4 * (1 / 5) * Real.log 2) = Real.log 2 + Real.log 2 + Real.log 2
          + Real.log 2 by push_cast; ring, Real.exp_add, Real.exp_add, Real.exp_add, h2]
        norm_num
      by_contra hc
      have := pow_le_pow_left₀ (by norm_num : (0 : ℝ) ≤ 9 / 5) (not_lt.1 hc) 5
      rw [h5] at this
      norm_num at this
    simp [curved]
    norm_num at hl ⊢
    linarith

/-! ### Several phases -/

/-- Lists in the order of the Rachford-Rice solver: all but the reference phase, then the reference phase (426-454). -/
def kOrder {α : Type} (r : ℕ) (l : List α) (hr : r < l.length) : List α := l.eraseIdx r ++ [l[r]]

/-- Lines 460-468: back to the order of the phases. -/
def phaseOrder {α : Type} (r : ℕ) (l : List α) (h : l ≠ []) : List α := l.dropLast.insertIdx r (l.getLast h)

/-- **C90.** The reference phase is put back where it was taken from. -/
theorem C90_order {α : Type} (r : ℕ) (l : List α) (hr : r < l.length) :
    phaseOrder r (kOrder r l hr) (by simp [kOrder]) = l := by
  unfold phaseOrder kOrder
  rw [List.dropLast_append_of_ne_nil (by simp)]
  simp only [List.dropLast_singleton, List.append_nil, List.getLast_append_singleton]
  exact List.insertIdx_eraseIdx_getElem hr

example : phaseOrder 1 (kOrder 1 ["a", "b", "c"] (by decide)) (by simp [kOrder]) = ["a", "b", "c"] := rfl

/-- The problem with `m` phases; `rr` is `Rachford_Rice_solutionN` with the reordering above, `none` an exception. -/
structure ProbN (n m : ℕ) where
  zs : Comp n
  lnphi : Fin m → Comp n → Comp n
  ref : Fin m
  rr : (Fin m → Comp n) → (Fin m → ℝ) → Option ((Fin m → ℝ) × (Fin m → Comp n))
  tol : ℝ

/-- Ratios to the reference phase (443-451). -/
noncomputable def KsN {n m : ℕ} (p : ProbN n m) (comps : Fin m → Comp n) : Fin m → Comp n := fun j i =>
  Real.exp (p.lnphi p.ref (comps p.ref) i - p.lnphi j (comps j) i)

/-- Contract of `Rachford_Rice_solutionN`: fractions that add up to one, compositions in the given ratios to the reference
phase, together the feed. -/
def RROk {n m : ℕ} (p : ProbN n m) : Prop :=
  ∀ K g betas comps, p.rr K g = some (betas, comps) →
    ∑ j, betas j = 1 ∧ (∀ j, ∀ i, j ≠ p.ref → comps j i = K j i * comps p.ref i)
      ∧ (∀ i, ∑ j, betas j * comps j i = p.zs i) ∧ ∀ j, IsComp (comps j)

/-- Lines 470-477. -/
noncomputable def errN {n m : ℕ} (p : ProbN n m) (comps : Fin m → Comp n) : ℝ :=
  open Classical in
  ∑ j, if j ≠ p.ref then errOf (KsN p comps j) (comps p.ref) (comps j) else 0

/-- Results: fractions, compositions, and compositions of the returned phase objects. -/
structure OutN (n m : ℕ) where
  betas : Fin m → ℝ
  comps : Fin m → Comp n
  phaseComps : Fin m → Comp n
  err : ℝ

/-- The loop (435-498). -/
noncomputable def runN {n m : ℕ} (p : ProbN n m) : ℕ → (Fin m → Comp n) → (Fin m → ℝ) → Except Err (OutN n m)
  | 0, _, _ => .error .unconverged
  | fuel + 1, comps, betas =>
    match p.rr (KsN p comps) betas with
    | none => .error .rachfordRice
    | some (betas', comps') =>
      open Classical in
      if errN p comps < p.tol then .ok ⟨betas', comps', comps, errN p comps⟩ else runN p fuel comps' betas'

theorem runN_spec {n m : ℕ} (p : ProbN n m) (hrr : RROk p) (fuel : ℕ) (comps : Fin m → Comp n) (betas : Fin m → ℝ)
    (o : OutN n m) (h : runN p fuel comps betas = .ok o) :
    ∑ j, o.betas j = 1 ∧ (∀ i, ∑ j, o.betas j * o.comps j i = p.zs i) ∧ (∀ j, IsComp (o.comps j))
      ∧ errN p o.phaseComps < p.tol ∧ o.err = errN p o.phaseComps
      ∧ ∀ j i, j ≠ p.ref → o.comps j i = KsN p o.phaseComps j i * o.comps p.ref i := by
  classical
  induction fuel generalizing comps betas with
  | zero => cases h
  | succ fuel ih =>
    unfold runN at h
    split at h
    · cases h
    · rename_i b c he
      obtain ⟨h1, h2, h3, h4⟩ := hrr _ _ _ _ he
      split_ifs at h with hc
      · rw [Except.ok.injEq] at h
        subst h
        exact ⟨h1, h3, h4, hc, rfl, h2⟩
      · exact ih _ _ h

/-- **C90.** With several phases the returned fractions and compositions make up the feed and are in the ratios of the
fugacity coefficients of the returned phases. Partial: the phases have other compositions, see below. -/
theorem C90_several_partial {n m : ℕ} (p : ProbN n m) (hrr : RROk p) (maxiter : ℕ) (comps : Fin m → Comp n)
    (betas : Fin m → ℝ) (o : OutN n m) (h : runN p maxiter comps betas = .ok o) :
    ∑ j, o.betas j = 1 ∧ (∀ i, ∑ j, o.betas j * o.comps j i = p.zs i)
      ∧ (∀ j, (∀ i, 0 ≤ o.comps j i) ∧ ∑ i, o.comps j i = 1)
      ∧ ∀ j i, j ≠ p.ref → o.comps j i * Real.exp (p.lnphi j (o.phaseComps j) i)
          = o.comps p.ref i * Real.exp (p.lnphi p.ref (o.phaseComps p.ref) i) := by
  obtain ⟨h1, h2, h3, -, -, h6⟩ := runN_spec p hrr maxiter comps betas o h
  refine ⟨h1, h2, h3, fun j i hj => ?_⟩
  rw [h6 j i hj]
  unfold KsN
  rw [Real.exp_sub]
  have := Real.exp_pos (p.lnphi j (o.phaseComps j) i)
  field_simp

/-- **C90.** In the returned phases the fugacities of every component agree with those in the reference phase: the squares of
the relative differences add up to less than the tolerance. -/
theorem C90_several_fugacity {n m : ℕ} (p : ProbN n m) (hrr : RROk p) (maxiter : ℕ) (comps : Fin m → Comp n)
    (betas : Fin m → ℝ) (o : OutN n m) (h : runN p maxiter comps betas = .ok o) (j : Fin m) (i : Fin n)
    (hj : j ≠ p.ref) (hi : o.phaseComps j i ≠ 0) :
    (Real.exp (p.lnphi p.ref (o.phaseComps p.ref) i) * o.phaseComps p.ref i
      / (Real.exp (p.lnphi j (o.phaseComps j) i) * o.phaseComps j i) - 1) ^ 2 < p.tol := by
  classical
  obtain ⟨-, -, -, h4, -, -⟩ := runN_spec p hrr maxiter comps betas o h
  refine lt_of_le_of_lt ?_ h4
  have hg : ∀ K x y : Comp n, ∀ k ∈ Finset.univ, 0 ≤ (if y k ≠ 0 then (K k * x k / y k - 1) * (K k * x k / y k - 1)
      else 0 : ℝ) := by
    intro K x y k _
    split_ifs
    · exact mul_self_nonneg _
    · exact le_refl 0
  have hn : ∀ k ∈ Finset.univ, 0 ≤ (if k ≠ p.ref then errOf (KsN p o.phaseComps k) (o.phaseComps p.ref) (o.phaseComps k)
      else 0 : ℝ) := by
    intro k _
    split_ifs
    · exact Finset.sum_nonneg (hg _ _ _)
    · exact le_refl 0
  unfold errN
  refine le_trans ?_ (Finset.single_le_sum hn (Finset.mem_univ j))
  rw [if_pos hj]
  unfold errOf
  refine le_trans (le_of_eq ?_) (Finset.single_le_sum (hg _ _ _) (Finset.mem_univ i))
  rw [if_pos hi]
  unfold KsN
  rw [Real.exp_sub]
  have := Real.exp_pos (p.lnphi j (o.phaseComps j) i)
  field_simp

/-- Two ideal phases. -/
noncomputable def idealN : ProbN 3 2 where
  zs := zDemo
  lnphi := fun j _ => if j = 0 then ![Real.log 2, -Real.log 2, 0] else 0
  ref := 0
  rr := fun _ _ => some (![1 / 2, 1 / 2], ![![4 / 15, 8 / 15, 1 / 5], ![8 / 15, 4 / 15, 1 / 5]])
  tol := 1 / 10 ^ 13

/-- **C90 fails.** With several phases the compositions of the returned phases are those before the last substitution: with
the returned fractions they need not make up the feed. -/
theorem C90_several_fails : ∃ (comps : Fin 2 → Comp 3) (o : OutN 3 2), runN idealN 1000 comps ![1 / 2, 1 / 2] = .ok o
    ∧ (∀ i, ∑ j, o.betas j * o.comps j i = idealN.zs i)
    ∧ ∑ j, o.betas j * o.phaseComps j 2 = 1 / 4 ∧ idealN.zs 2 = 1 / 5 := by
  classical
  have h2 : Real.exp (Real.log 2) = 2 := Real.exp_log (by norm_num)
  have hK : KsN idealN ![![1 / 4, 1 / 2, 1 / 4], ![1 / 2, 1 / 4, 1 / 4]] 1 = kDemo := by
    funext i
    fin_cases i
    · simp [KsN, idealN, kDemo, h2]
    · simp [KsN, idealN, kDemo, Real.exp_neg, h2]
    · simp [KsN, idealN, kDemo]
  have he : errN idealN ![![1 / 4, 1 / 2, 1 / 4], ![1 / 2, 1 / 4, 1 / 4]] = 0 := by
    unfold errN
    rw [Fin.sum_univ_two, if_neg (by simp [idealN]), if_pos (by simp [idealN]), hK, zero_add]
    simp [errOf, Fin.sum_univ_three, kDemo, idealN]
    norm_num
  refine ⟨![![1 / 4, 1 / 2, 1 / 4], ![1 / 2, 1 / 4, 1 / 4]], ⟨![1 / 2, 1 / 2],
    ![![4 / 15, 8 / 15, 1 / 5], ![8 / 15, 4 / 15, 1 / 5]], ![![1 / 4, 1 / 2, 1 / 4], ![1 / 2, 1 / 4, 1 / 4]], 0⟩, ?_, ?_, ?_, ?_⟩
  · unfold runN
    rw [show idealN.rr (KsN idealN ![![1 / 4, 1 / 2, 1 / 4], ![1 / 2, 1 / 4, 1 / 4]]) ![1 / 2, 1 / 2]
      = some (![1 / 2, 1 / 2], ![![4 / 15, 8 / 15, 1 / 5], ![8 / 15, 4 / 15, 1 / 5]]) from rfl]
    dsimp only
    rw [he, if_pos (by norm_num [idealN])]
  · intro i
    fin_cases i <;> simp [Fin.sum_univ_two, idealN, zDemo] <;> norm_num
  · simp [Fin.sum_univ_two]; norm_num
  · simp [idealN, zDemo]

end Verif.FlashSS
