import Verif.Util.Loops
import Mathlib.Algebra.Ring.Parity
import Mathlib.Algebra.Field.Basic
import Mathlib.Algebra.CharZero.Defs
import Mathlib.Algebra.Field.Rat
import Mathlib.Logic.Equiv.Fin.Rotate
import Mathlib.Tactic.Ring
import Mathlib.Tactic.FieldSimp
import Mathlib.Tactic.Linarith
import Mathlib.Tactic.NormNum

/-!
# Redlich–Kister excess properties (`thermo/redlich_kister.py`)

Lists are functions of their index together with the loop bound the code uses; numbers are elements of a
field `F`. `log` of the temperature is an argument.
-/

namespace Verif.RedlichKister

open Finset

variable {F : Type*} [Field F]

/-! ## Model -/

/-- The loop over `k` in redlich_kister.py 98-103: returns `(inner, factor)`. -/
def innerLoop (n : ℕ) (a : ℕ → F) (d : F) : F × F :=
  (List.range n).foldl (fun s k => (s.1 + a k * s.2, s.2 * d)) (0, 1)

/-- `redlich_kister_excess_inner(N, N_terms, a_tensor, xs)` (58-106). -/
def excess (N n : ℕ) (a : ℕ → ℕ → ℕ → F) (x : ℕ → F) : F :=
  acc N (fun i => acc N (fun j => (innerLoop n (a i j) (x i - x j)).1 * x j) * x i) * (1 / 2)

/-- `redlich_kister_reverse` (49-55): every second coefficient changes sign. -/
def reverse (c : ℕ → F) : ℕ → F := fun k => if k % 2 = 1 then -c k else c k

/-- The dictionary built from `zip(indexes, data)` (153): a later entry replaces an earlier one. -/
def lookup (data : List ((ℕ × ℕ) × (ℕ → F))) (i j : ℕ) : Option (ℕ → F) :=
  (data.reverse.find? (fun e => e.1 == (i, j))).map (·.2)

/-- `redlich_kister_build_structure` for one-dimensional data (108-176), entry `[i][j]`. -/
def build (data : List ((ℕ × ℕ) × (ℕ → F))) (i j : ℕ) : ℕ → F :=
  match lookup data i j with
  | some c => c
  | none => match lookup data j i with
    | some c => reverse c
    | none => fun _ => 0

/-- `redlich_kister_excess_inner_binary` (247-278). -/
def excessBinary (n : ℕ) (a : ℕ → F) (x0 x1 : F) : F :=
  ((List.range n).foldl (fun s k => (s.1 + a k * (x0 * x1) * s.2, s.2 * (x0 - x1)))
    ((0, 1) : F × F)).1

/-- One coefficient of `redlich_kister_T_dependence` (212-241) from its `N_T` temperature parameters;
`none`: the function raises. `L` is `log(T)`. -/
def Tcoeff (NT : ℕ) (T L : F) (c : ℕ → F) : Option F :=
  if NT = 2 then some (c 0 + c 1 * (1 / T))
  else if NT = 3 then some (c 0 + c 1 * (1 / T) + c 2 * L)
  else if NT = 6 then
    some (c 0 + c 1 * (1 / T) + c 2 * L + c 3 * T + c 4 * (1 / T * (1 / T)) + c 5 * (T * T))
  else none

/-- The `ai` of `redlich_kister_excess_binary` (291-302) from the flat coefficient list. -/
def flatCoeff (NT : ℕ) (T L : F) (c : ℕ → F) (i : ℕ) : F :=
  let o := i * NT
  let a := c o
  let a := if NT ≥ 2 then a + c (o + 1) * (1 / T) else a
  let a := if NT ≥ 3 then a + c (o + 2) * L else a
  let a := if NT ≥ 4 then a + c (o + 3) * T else a
  let a := if NT ≥ 5 then a + c (o + 4) * (1 / T * (1 / T)) else a
  if NT ≥ 6 then a + c (o + 5) * (T * T) else a

/-- `redlich_kister_excess_binary(coefficients, x0, T, N_T, N_terms)` (280-305). -/
def excessBinaryFlat (NT n : ℕ) (T L : F) (c : ℕ → F) (x0 : F) : F :=
  ((List.range n).foldl (fun s k =>
    (s.1 + flatCoeff NT T L c k * (x0 * (1 - x0)) * s.2, s.2 * (x0 - (1 - x0)))) ((0, 1) : F × F)).1

/-- `redlich_kister_fitting_to_use` (307-314): the flat list reshaped. -/
def reshape (NT : ℕ) (c : ℕ → F) : ℕ → ℕ → F := fun i j => c (i * NT + j)

/-! ## Specification and theorems -/

/-- The Redlich–Kister sum: `½ Σᵢ Σⱼ xᵢ xⱼ Σₖ aᵢⱼₖ (xᵢ − xⱼ)ᵏ`. -/
def RKsum (N n : ℕ) (a : ℕ → ℕ → ℕ → F) (x : ℕ → F) : F :=
  (1 / 2) * ∑ i : Fin N, ∑ j : Fin N, x i * x j * ∑ k ∈ range n, a i j k * (x i - x j) ^ k

theorem innerLoop_eq (n : ℕ) (a : ℕ → F) (d : F) :
    innerLoop n a d = (∑ k ∈ range n, a k * d ^ k, d ^ n) := by
  unfold innerLoop
  induction n with
  | zero => simp
  | succ n ih => rw [List.range_succ, List.foldl_append, ih]; simp [sum_range_succ, pow_succ]

theorem excess_eq (N n : ℕ) (a : ℕ → ℕ → ℕ → F) (x : ℕ → F) : excess N n a x = RKsum N n a x := by
  unfold excess RKsum
  simp only [acc_eq_fin, innerLoop_eq]
  rw [mul_comm]
  congr 1
  refine sum_congr rfl fun i _ => ?_
  rw [sum_mul]
  refine sum_congr rfl fun j _ => ?_
  ring

theorem excessBinary_eq (n : ℕ) (a : ℕ → F) (x0 x1 : F) :
    excessBinary n a x0 x1 = x0 * x1 * ∑ k ∈ range n, a k * (x0 - x1) ^ k := by
  unfold excessBinary
  have h : ∀ n : ℕ, (List.range n).foldl
      (fun s k => (s.1 + a k * (x0 * x1) * s.2, s.2 * (x0 - x1))) ((0, 1) : F × F)
      = (x0 * x1 * ∑ k ∈ range n, a k * (x0 - x1) ^ k, (x0 - x1) ^ n) := by
    intro n
    induction n with
    | zero => simp
    | succ n ih =>
      rw [List.range_succ, List.foldl_append, ih, sum_range_succ]
      simp only [List.foldl_cons, List.foldl_nil, Prod.mk.injEq]
      constructor <;> ring
  rw [h]

/-- **C20.** Relabelling the components consistently changes nothing, for any number of components and
terms. -/
theorem C20_permutation (N n : ℕ) (a a' : ℕ → ℕ → ℕ → F) (x x' : ℕ → F) (σ : Equiv.Perm (Fin N))
    (hx : ∀ i : Fin N, x' i = x (σ i)) (ha : ∀ (i j : Fin N) k, a' i j k = a (σ i) (σ j) k) :
    excess N n a' x' = excess N n a x := by
  rw [excess_eq, excess_eq]
  unfold RKsum
  congr 1
  rw [← Equiv.sum_comp σ (fun i => ∑ j : Fin N, x i * x j * ∑ k ∈ range n, a i j k * (x i - x j) ^ k)]
  refine sum_congr rfl fun i _ => ?_
  rw [← Equiv.sum_comp σ (fun j => x (σ i) * x j * ∑ k ∈ range n, a (σ i) j k * (x (σ i) - x j) ^ k)]
  refine sum_congr rfl fun j _ => ?_
  simp only [hx, ha]

example : ∃ (a a' : ℕ → ℕ → ℕ → ℚ) (x x' : ℕ → ℚ), (∀ i : Fin 3, x' i = x (finRotate 3 i)) ∧
    (∀ (i j : Fin 3) k, a' i j k = a (finRotate 3 i) (finRotate 3 j) k) ∧ excess 3 2 a x ≠ 0 := by
  refine ⟨fun i j k => i + j + k, fun i j k => ((i + 1) % 3 : ℕ) + ((j + 1) % 3 : ℕ) + k,
    fun i => i, fun i => ((i + 1) % 3 : ℕ), by decide +kernel, ?_, by decide +kernel⟩
  have : ∀ (i : Fin 3), (((i : ℕ) + 1) % 3 : ℕ) = ((finRotate 3 i : Fin 3) : ℕ) := by decide +kernel
  intro i j k
  simp only [this]

theorem build_diag {data : List ((ℕ × ℕ) × (ℕ → F))} {i : ℕ} (h : ∀ e ∈ data, e.1.1 ≠ e.1.2) :
    build data i i = fun _ => 0 := by
  have hl : lookup data i i = none := by
    unfold lookup
    rw [Option.map_eq_none_iff, List.find?_eq_none]
    intro e he
    simp only [List.mem_reverse] at he
    have := h e he
    intro hc
    have hc' : e.1 = (i, i) := by simpa using hc
    rw [hc'] at this
    exact this rfl
  unfold build
  rw [hl]

/-- **C20.** The excess property of a pure component is zero, for a structure built from pair data. -/
theorem C20_pure (N n : ℕ) (data : List ((ℕ × ℕ) × (ℕ → F))) (h : ∀ e ∈ data, e.1.1 ≠ e.1.2)
    (x : ℕ → F) (p : ℕ) (hx : ∀ i, i < N → i ≠ p → x i = 0) :
    excess N n (build data) x = 0 := by
  rw [excess_eq]
  unfold RKsum
  rw [sum_eq_zero, mul_zero]
  intro i _
  refine sum_eq_zero fun j _ => ?_
  by_cases hi : (i : ℕ) = p
  · by_cases hj : (j : ℕ) = p
    · rw [hi, hj, build_diag h]; simp
    · rw [hx j j.2 hj]; ring
  · rw [hx i i.2 hi]; ring

example : ∀ e ∈ [((0, 1), fun k : ℕ => (k : ℚ) + 1), ((2, 1), fun _ => 5)], e.1.1 ≠ e.1.2 := by
  simp

theorem reverse_sum [CharZero F] (n : ℕ) (a : ℕ → F) (d : F) :
    ∑ k ∈ range n, reverse a k * (-d) ^ k = ∑ k ∈ range n, a k * d ^ k := by
  refine sum_congr rfl fun k _ => ?_
  unfold reverse
  split
  · rename_i h
    rw [(Nat.odd_iff.2 h).neg_pow]; ring
  · rename_i h
    rw [(Nat.even_iff.2 (by omega)).neg_pow]

theorem reverse_reverse (a : ℕ → F) : reverse (reverse a) = a := by
  funext k
  unfold reverse
  split <;> simp

/-- **C20.** For two components the matrix form with the pair stored as `(0, 1)` is the binary closed
form. -/
theorem C20_binary [CharZero F] (n : ℕ) (c : ℕ → F) (x : ℕ → F) :
    excess 2 n (build [((0, 1), c)]) x = excessBinary n c (x 0) (x 1) := by
  rw [excess_eq, excessBinary_eq]
  unfold RKsum
  have h00 : build [((0, 1), c)] 0 0 = fun _ => 0 := rfl
  have h11 : build [((0, 1), c)] 1 1 = fun _ => 0 := rfl
  have h01 : build [((0, 1), c)] 0 1 = c := rfl
  have h10 : build [((0, 1), c)] 1 0 = reverse c := rfl
  rw [Fin.sum_univ_two, Fin.sum_univ_two, Fin.sum_univ_two]
  simp only [Fin.val_zero, Fin.val_one, h00, h11, h01, h10]
  have hr := reverse_sum n c (x 0 - x 1)
  rw [neg_sub] at hr
  rw [hr]
  simp only [zero_mul, sum_const_zero, mul_zero, zero_add, add_zero]
  ring

/-- **C20.** Storing a pair in the other order with reversed coefficients changes no entry of the
structure, provided the pair is stored only once. -/
theorem C20_swap_stored_order (pre post : List ((ℕ × ℕ) × (ℕ → F))) (p q : ℕ) (c : ℕ → F)
    (hpq : p ≠ q) (hpre : ∀ e ∈ pre, e.1 ≠ (p, q) ∧ e.1 ≠ (q, p))
    (hpost : ∀ e ∈ post, e.1 ≠ (p, q) ∧ e.1 ≠ (q, p)) (i j : ℕ) :
    build (pre ++ ((q, p), reverse c) :: post) i j = build (pre ++ ((p, q), c) :: post) i j := by
  have look : ∀ (k : ℕ × ℕ) (v : ℕ → F) (i j : ℕ), k = (p, q) ∨ k = (q, p) →
      lookup (pre ++ (k, v) :: post) i j = if (i, j) = k then some v else
        lookup (pre ++ post) i j := by
    intro k v i j hk
    unfold lookup
    simp only [List.reverse_append, List.reverse_cons, List.append_assoc, List.find?_append,
      List.singleton_append, List.find?_cons]
    by_cases h : (i, j) = k
    · rw [if_pos h]
      have hn : post.reverse.find? (fun e => e.1 == (i, j)) = none := by
        rw [List.find?_eq_none]
        intro e he
        simp only [List.mem_reverse] at he
        have := hpost e he
        rcases hk with rfl | rfl <;> simp [h, this]
      rw [hn, h]
      simp
    · rw [if_neg h]
      have h' : (k == (i, j)) = false := by simpa using fun hh => h hh.symm
      rw [h']
  have none' : ∀ i j, ((i, j) = (p, q) ∨ (i, j) = (q, p)) → lookup (pre ++ post) i j = none := by
    intro i j h
    unfold lookup
    rw [Option.map_eq_none_iff, List.find?_eq_none]
    intro e he
    simp only [List.mem_reverse, List.mem_append] at he
    have : e.1 ≠ (p, q) ∧ e.1 ≠ (q, p) := he.elim (hpre e) (hpost e)
    rcases h with h | h <;> rw [h] <;> simp [this]
  unfold build
  rw [look _ _ i j (.inr rfl), look _ _ j i (.inr rfl), look _ _ i j (.inl rfl),
    look _ _ j i (.inl rfl)]
  by_cases h1 : (i, j) = (p, q)
  · have h2 : (i, j) ≠ (q, p) := by rw [h1]; intro h; exact hpq (Prod.mk.inj h).1
    obtain ⟨rfl, rfl⟩ := Prod.mk.inj h1
    simp [hpq, hpq.symm, none' i j (.inl rfl), reverse_reverse]
  · by_cases h2 : (i, j) = (q, p)
    · obtain ⟨rfl, rfl⟩ := Prod.mk.inj h2
      simp [hpq, hpq.symm, none' i j (.inr rfl)]
    · have h3 : (j, i) ≠ (p, q) := by
        intro h; apply h2; obtain ⟨rfl, rfl⟩ := Prod.mk.inj h; rfl
      have h4 : (j, i) ≠ (q, p) := by
        intro h; apply h1; obtain ⟨rfl, rfl⟩ := Prod.mk.inj h; rfl
      rw [if_neg h1, if_neg h2, if_neg h3, if_neg h4]

/-- **C20.** Reversal followed by the temperature dependence is the reversal of the temperature-dependent
coefficients, so the structure may be built before or after the temperature is known. -/
theorem C20_reverse_T_dependence (NT : ℕ) (T L : F) (c : ℕ → ℕ → F) (k : ℕ) (v : F)
    (h : Tcoeff NT T L (c k) = some v) :
    Tcoeff NT T L (fun m => if k % 2 = 1 then -c k m else c k m)
      = some (if k % 2 = 1 then -v else v) := by
  unfold Tcoeff at h ⊢
  split
  · rename_i h2
    rw [if_pos h2] at h; cases h
    split <;> simp; ring
  · rename_i h2
    rw [if_neg h2] at h
    split
    · rename_i h3
      rw [if_pos h3] at h; cases h
      split <;> simp; ring
    · rename_i h3
      rw [if_neg h3] at h
      split
      · rename_i h6
        rw [if_pos h6] at h; cases h
        split <;> simp; ring
      · rename_i h6
        rw [if_neg h6] at h; cases h

/-- **C20.** Where the structured temperature dependence is defined, the flat binary function used for
fitting gives the value of the structured one on the reshaped coefficients. -/
theorem C20_flat_eq_structured (NT n : ℕ) (T L : F) (c a : ℕ → F) (x0 : F)
    (h : ∀ k, k < n → Tcoeff NT T L (reshape NT c k) = some (a k)) :
    excessBinaryFlat NT n T L c x0 = excessBinary n a x0 (1 - x0) := by
  have key : ∀ k, k < n → flatCoeff NT T L c k = a k := by
    intro k hk
    have := h k hk
    unfold Tcoeff reshape at this
    unfold flatCoeff
    split at this
    · rename_i h2; subst h2; simpa using this
    · split at this
      · rename_i h2; subst h2; simpa using this
      · split at this
        · rename_i h2; subst h2; simpa using this
        · cases this
  unfold excessBinaryFlat excessBinary
  congr 1
  have : ∀ m, m ≤ n → (List.range m).foldl (fun s k =>
      (s.1 + flatCoeff NT T L c k * (x0 * (1 - x0)) * s.2, s.2 * (x0 - (1 - x0)))) ((0, 1) : F × F)
      = (List.range m).foldl (fun s k => (s.1 + a k * (x0 * (1 - x0)) * s.2, s.2 * (x0 - (1 - x0))))
        ((0, 1) : F × F) := by
    intro m
    induction m with
    | zero => intro _; rfl
    | succ m ih =>
      intro hm
      rw [List.range_succ, List.foldl_append, List.foldl_append, ih (by omega)]
      simp only [List.foldl_cons, List.foldl_nil]
      rw [key m (by omega)]
  exact this n le_rfl

example : ∃ a : ℕ → ℚ, ∀ k, k < 5 → Tcoeff 3 300 6 (reshape 3 (fun k : ℕ => (k : ℚ)) k) = some (a k) :=
  ⟨_, fun _ _ => rfl⟩

/-- **C20.** The structured temperature dependence is defined exactly for 2, 3 and 6 parameters; data
fitted by the binary function with 1, 4 or 5 parameters cannot be used in a mixture. -/
theorem C20_T_dependence_defined (NT : ℕ) (T L : F) (c : ℕ → F) :
    (Tcoeff NT T L c).isSome ↔ NT = 2 ∨ NT = 3 ∨ NT = 6 := by
  unfold Tcoeff
  split
  · simp_all
  · split
    · simp_all
    · split <;> simp_all

end Verif.RedlichKister
