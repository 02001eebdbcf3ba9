import Mathlib.Algebra.BigOperators.Intervals
import Mathlib.Algebra.BigOperators.Fin
import Mathlib.Algebra.BigOperators.Ring.Finset

/-!
# Accumulation loops

Python loops `acc = 0.0; for i in range(n): acc += f(i)` are written in the models as folds. These lemmas
turn such folds into sums.
-/

namespace Verif

open Finset

variable {F : Type*} [AddCommMonoid F]

/-- `acc = a; for i in range(n): acc += f(i)`. -/
def accFrom (a : F) (n : ℕ) (f : ℕ → F) : F := (List.range n).foldl (fun acc i => acc + f i) a

/-- `acc = 0.0; for i in range(n): acc += f(i)`. -/
def acc (n : ℕ) (f : ℕ → F) : F := accFrom 0 n f

theorem accFrom_eq (a : F) (n : ℕ) (f : ℕ → F) : accFrom a n f = a + ∑ i ∈ range n, f i := by
  induction n with
  | zero => simp [accFrom]
  | succ n ih =>
    unfold accFrom at ih ⊢
    rw [List.range_succ, List.foldl_append, ih, sum_range_succ, ← add_assoc]
    rfl

theorem acc_eq (n : ℕ) (f : ℕ → F) : acc n f = ∑ i ∈ range n, f i := by
  rw [acc, accFrom_eq, zero_add]

/-- `for i in range(n): body(i)` on a state. -/
def loop {S : Type*} (n : ℕ) (body : ℕ → S → S) (s : S) : S := (List.range n).foldl (fun s i => body i s) s

theorem loop_succ {S : Type*} (n : ℕ) (body : ℕ → S → S) (s : S) : loop (n + 1) body s = body n (loop n body s) := by
  unfold loop; rw [List.range_succ, List.foldl_append]; rfl

/-- A component that every iteration increases by an amount that does not depend on the state. -/
theorem loop_add {S : Type*} (π : S → F) (n : ℕ) (body : ℕ → S → S) (s : S) (c : ℕ → F)
    (h : ∀ i < n, ∀ s, π (body i s) = π s + c i) : π (loop n body s) = π s + ∑ i ∈ range n, c i := by
  induction n with
  | zero => simp [loop]
  | succ n ih =>
    rw [loop_succ, h n (Nat.lt_succ_self n), ih (fun i hi => h i (Nat.lt_succ_of_lt hi)), sum_range_succ, add_assoc]

/-- A component that only iteration `i₀` writes. -/
theorem loop_set {S A : Type*} (π : S → A) (n : ℕ) (body : ℕ → S → S) (s : S) (i₀ : ℕ) (v : A)
    (h : ∀ i < n, ∀ s, π (body i s) = if i = i₀ then v else π s) : π (loop n body s) = if i₀ < n then v else π s := by
  induction n with
  | zero => simp [loop]
  | succ n ih =>
    rw [loop_succ, h n (Nat.lt_succ_self n), ih (fun i hi => h i (Nat.lt_succ_of_lt hi))]
    by_cases h1 : n = i₀
    · rw [if_pos h1, if_pos (by omega)]
    · rw [if_neg h1]
      by_cases h2 : i₀ < n
      · rw [if_pos h2, if_pos (by omega)]
      · rw [if_neg h2, if_neg (by omega)]

/-- `a[k] += v`. -/
def addAt (k : ℕ) (v : F) (a : ℕ → F) : ℕ → F := fun i => if i = k then a i + v else a i

theorem addAt_apply (k : ℕ) (v : F) (a : ℕ → F) (i : ℕ) : addAt k v a i = a i + if i = k then v else 0 := by
  unfold addAt; by_cases h : i = k <;> simp [h]

/-- Twice the strict lower triangle plus the diagonal. -/
theorem sum_lower {G : Type*} [AddCommMonoid G] (N : ℕ) (S : ℕ → ℕ → G) (h : ∀ i < N, ∀ j < N, S i j = S j i) :
    ∑ i ∈ range N, ((∑ j ∈ range i, (S i j + S i j)) + S i i) = ∑ i ∈ range N, ∑ j ∈ range N, S i j := by
  induction N with
  | zero => rfl
  | succ N ih =>
    rw [sum_range_succ, ih (fun i hi j hj => h i (Nat.lt_succ_of_lt hi) j (Nat.lt_succ_of_lt hj)), sum_range_succ,
      sum_range_succ]
    have e : ∑ i ∈ range N, ∑ j ∈ range (N + 1), S i j = ∑ i ∈ range N, ∑ j ∈ range N, S i j + ∑ i ∈ range N, S N i := by
      rw [← sum_add_distrib]
      refine sum_congr rfl fun i hi => ?_
      rw [sum_range_succ, h i (Nat.lt_succ_of_lt (mem_range.1 hi)) N (Nat.lt_succ_self N)]
    rw [e, sum_add_distrib]
    simp only [add_assoc]

/-- The strict upper triangle by columns. -/
theorem sum_upper_comm {G : Type*} [AddCommMonoid G] (N : ℕ) (S : ℕ → ℕ → G) :
    ∑ i ∈ range N, ∑ j ∈ Ico (i + 1) N, S i j = ∑ j ∈ range N, ∑ i ∈ range j, S i j := by
  refine sum_comm' fun x y => ?_
  simp only [mem_range, mem_Ico]
  omega

/-- Twice the strict upper triangle plus the diagonal. -/
theorem sum_upper {G : Type*} [AddCommMonoid G] (N : ℕ) (S : ℕ → ℕ → G) (h : ∀ i < N, ∀ j < N, S i j = S j i) :
    ∑ i ∈ range N, ((∑ j ∈ Ico (i + 1) N, (S i j + S i j)) + S i i) = ∑ i ∈ range N, ∑ j ∈ range N, S i j := by
  rw [← sum_lower N S h, sum_add_distrib, sum_add_distrib, sum_upper_comm]
  congr 1
  refine sum_congr rfl fun j hj => sum_congr rfl fun i hi => ?_
  have hj' := mem_range.1 hj
  have hi' := mem_range.1 hi
  rw [h i (by omega) j hj']

/-- A row of a symmetric matrix from the lower triangle: what the loop adds to entry `k`. -/
theorem sum_row {G : Type*} [AddCommMonoid G] (N k : ℕ) (hk : k < N) (f : ℕ → ℕ → G) :
    ∑ i ∈ range N, ∑ j ∈ range i, ((if k = j then f i j else 0) + if k = i then f j i else 0)
      = ∑ i ∈ Ico (k + 1) N, f i k + ∑ j ∈ range k, f j k := by
  simp only [sum_add_distrib]
  congr 1
  · have : ∀ i ∈ range N, ∑ j ∈ range i, (if k = j then f i j else 0) = if k < i then f i k else 0 := by
      intro i _
      rw [sum_ite_eq]
      simp only [mem_range]
    rw [sum_congr rfl this, ← sum_filter]
    refine sum_congr ?_ fun _ _ => rfl
    ext i; simp only [mem_filter, mem_range, mem_Ico]; omega
  · have : ∀ i ∈ range N, ∑ j ∈ range i, (if k = i then f j i else 0) = if k = i then ∑ j ∈ range i, f j i else 0 := by
      intro i _
      by_cases h : k = i <;> simp [h]
    rw [sum_congr rfl this, sum_ite_eq, if_pos (mem_range.2 hk)]

theorem sum_split_at {G : Type*} [AddCommMonoid G] (N k : ℕ) (hk : k < N) (f : ℕ → G) :
    ∑ i ∈ range N, f i = ∑ i ∈ Ico (k + 1) N, f i + ∑ i ∈ range k, f i + f k := by
  rw [← sum_range_add_sum_Ico f hk.le, sum_eq_sum_Ico_succ_bot hk]
  simp only [add_comm, add_left_comm]

theorem acc_eq_fin (n : ℕ) (f : ℕ → F) : acc n f = ∑ i : Fin n, f i := by
  rw [acc_eq, Finset.sum_range]

end Verif
